import Verif.Go.Utf8
import Verif.Go.Hex

/-!
# strconv.Unquote

Part of the trusted model of Go: strconv.Unquote of a text that starts with a quotation mark " or '.  The result is a sequence of bytes, since the
escapes \x and \ooo denote bytes; a text is a list of characters.
-/

namespace Verif.Go

/-- The number that hex digits denote; `none` if one of them is none. -/
def hexNum : List Char → Nat → Option Nat
  | [], n => some n
  | c :: cs, n => match hexVal c with
    | some d => hexNum cs (16 * n + d)
    | none => none

/-- A rune of an escape \u or \U, which must be a valid one. -/
def runeBytes (n : Nat) : Option (List UInt8) :=
  if n < 55296 ∨ (57343 < n ∧ n < 1114112) then some (String.utf8EncodeChar (Char.ofNat n)) else none

/-- An octal digit. -/
def octVal (c : Char) : Option Nat := if 48 ≤ c.toNat ∧ c.toNat ≤ 55 then some (c.toNat - 48) else none

/-- strconv.UnquoteChar after a backslash: the bytes and what remains. -/
def unquoteEsc (q : Char) (e : Char) (s : List Char) : Option (List UInt8 × List Char) :=
  if e = 'a' then some ([7], s)
  else if e = 'b' then some ([8], s)
  else if e = 'f' then some ([12], s)
  else if e = 'n' then some ([10], s)
  else if e = 'r' then some ([13], s)
  else if e = 't' then some ([9], s)
  else if e = 'v' then some ([11], s)
  else if e = 'x' then
    if s.length < 2 then none else (hexNum (s.take 2) 0).map fun n => ([UInt8.ofNat n], s.drop 2)
  else if e = 'u' then
    if s.length < 4 then none else ((hexNum (s.take 4) 0).bind runeBytes).map fun b => (b, s.drop 4)
  else if e = 'U' then
    if s.length < 8 then none else ((hexNum (s.take 8) 0).bind runeBytes).map fun b => (b, s.drop 8)
  else if e = '\\' then some ([92], s)
  else if e = '\'' ∨ e = '"' then (if e = q then some (String.utf8EncodeChar e, s) else none)
  else match octVal e, s with
    | some a, b :: c :: s => match octVal b, octVal c with
      | some b, some c => if 64 * a + 8 * b + c > 255 then none else some ([UInt8.ofNat (64 * a + 8 * b + c)], s)
      | _, _ => none
    | _, _ => none

/-- strconv.UnquoteChar, and the check for line breaks of strconv.unquote. -/
def unquoteChar (q : Char) : List Char → Option (List UInt8 × List Char)
  | [] => none
  | c :: s =>
    if c = q ∨ c = '\n' then none
    else if c = '\\' then (match s with | [] => none | e :: s => unquoteEsc q e s)
    else some (String.utf8EncodeChar c, s)

/-- The loop of strconv.unquote between double quotation marks, up to and with the closing one, after which nothing may follow (strconv.Unquote). -/
def unquoteLoop (q : Char) : Nat → List Char → Option (List UInt8)
  | 0, _ => none
  | n + 1, s =>
    if s = [q] then some []
    else match unquoteChar q s with
      | none => none
      | some (b, r) => (unquoteLoop q n r).map (b ++ ·)

/-- strconv.Unquote of a text that starts with `q`, `s` is what follows: between single quotation marks stands one character at most. -/
def unquoteText (q : Char) (s : List Char) : Option (List UInt8) :=
  if q = '"' then unquoteLoop q (s.length + 1) s
  else if s = [q] then some []
  else match unquoteChar q s with
    | some (b, r) => if r = [q] then some b else none
    | none => none

end Verif.Go
