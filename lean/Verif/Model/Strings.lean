import Verif.Go.Strings
import Verif.Go.Hex
import Verif.Go.Base64
import Verif.Model.Value

/-!
# String functions

internal/function_string.go.  Arguments are the values after the NULL check of the bind
functions (internal/function_bind.go: any NULL gives NULL, SPLIT and TO_CODE_POINTS give an
empty array).  STRING is a list of characters, BYTES a list of bytes.  A function that cuts a
STRING at byte positions is given as bytes, because its result need not be valid UTF-8.

INITCAP, UPPER, LOWER, SOUNDEX, CONCAT and others are in Model/Words.lean, the REGEXP functions in Model/Regexps.lean,
NORMALIZE and COLLATE in Model/Normalize.lean.
-/

namespace Verif.Strings

open Go Val

/-- function_string.go:314-340 LEFT after the sign check. -/
def leftL {α} (xs : List α) (n : Int) : Res (List α) := if (xs.length : Int) ≤ n then .ok xs else slice xs 0 n

/-- function_string.go:314-340 LEFT -/
def left (v : Val) (n : Int) : Res Val :=
  if n < 0 then .err else match v with
  | .str s => (leftL s n).bind fun r => .ok (.str r)
  | .bytes b => (leftL b n).bind fun r => .ok (.bytes r)
  | _ => .err

/-- function_string.go:784-810 RIGHT after the sign check. -/
def rightL {α} (xs : List α) (n : Int) : Res (List α) :=
  if (xs.length : Int) ≤ n then .ok xs else slice xs (xs.length - n) xs.length

/-- function_string.go:784-810 RIGHT -/
def right (v : Val) (n : Int) : Res Val :=
  if n < 0 then .err else match v with
  | .str s => (rightL s n).bind fun r => .ok (.str r)
  | .bytes b => (rightL b n).bind fun r => .ok (.bytes r)
  | _ => .err

/-- function_string.go:342-359 LENGTH -/
def length : Val → Res Val
  | .str s => .ok (.int s.length)
  | .bytes b => .ok (.int b.length)
  | _ => .err

/-- function_string.go:382-386, 836-840: the pattern repeated if it is too short.  Dividing by the length
of an empty pattern is a panic. -/
def repeated {α} (p : List α) (remain : Int) : Res (List α) :=
  if remain - p.length > 0 then
    if p = [] then .panic else goRepeat p ((remain - p.length).tdiv p.length + 2)
  else .ok p

/-- function_string.go:372-387, 826-841: the padding of a STRING, `none` being no pattern argument. -/
def padStr (remain : Int) : Option (List Char) → Res (List Char)
  | none => (goRepeat [' '] remain).bind fun p => slice p 0 remain
  | some p => (repeated p remain).bind fun p => slice p 0 remain

/-- function_string.go:397-411, 851-865: the padding of BYTES.  `pat` stays nil when the pattern need not be
repeated. -/
def padBytes (remain : Int) : Option (List UInt8) → Res (List UInt8)
  | none => (goRepeat [32] remain).bind fun p => slice p 0 remain
  | some p =>
    if remain - p.length > 0 then
      if p = [] then .panic else
        (goRepeat p ((remain - p.length).tdiv p.length + 2)).bind fun p => slice p 0 remain
    else slice [] 0 remain

/-- function_string.go:361-415 LPAD of a STRING -/
def lpadStr (s : List Char) (n : Int) (p : Option (List Char)) : Res (List Char) :=
  if (s.length : Int) ≥ n then slice s 0 n else (padStr (n - s.length) p).bind fun q => .ok (q ++ s)

/-- function_string.go:361-415 LPAD of BYTES -/
def lpadBytes (s : List UInt8) (n : Int) (p : Option (List UInt8)) : Res (List UInt8) :=
  if (s.length : Int) ≥ n then slice s 0 n else (padBytes (n - s.length) p).bind fun q => .ok (q ++ s)

/-- function_string.go:812-869 RPAD of a STRING -/
def rpadStr (s : List Char) (n : Int) (p : Option (List Char)) : Res (List Char) :=
  if n < 0 then .err
  else if (s.length : Int) ≥ n then slice s 0 n else (padStr (n - s.length) p).bind fun q => .ok (s ++ q)

/-- function_string.go:812-869 RPAD of BYTES -/
def rpadBytes (s : List UInt8) (n : Int) (p : Option (List UInt8)) : Res (List UInt8) :=
  if n < 0 then .err
  else if (s.length : Int) ≥ n then slice s 0 n else (padBytes (n - s.length) p).bind fun q => .ok (s ++ q)

/-- function_string.go:740-756 REPEAT -/
def repeatV (v : Val) (n : Int) : Res Val := match v with
  | .str s => (goRepeat s n).bind fun r => .ok (.str r)
  | .bytes b => (goRepeat b n).bind fun r => .ok (.bytes r)
  | _ => .err

/-- function_string.go:766-768: the loop swapping from both ends. -/
def swapEnds {α} : Nat → List α → List α
  | 0, xs => xs
  | n + 1, xs => match xs with
    | [] => []
    | a :: rest => match rest.getLast? with
      | none => [a]
      | some z => z :: swapEnds n rest.dropLast ++ [a]

/-- function_string.go:775-778: the loop copying from the end. -/
def fromEnd {α} : List α → List α
  | [] => []
  | a :: rest => fromEnd rest ++ [a]

/-- function_string.go:758-782 REVERSE -/
def reverse : Val → Res Val
  | .str s => .ok (.str (swapEnds s.length s))
  | .bytes b => .ok (.bytes (fromEnd b))
  | _ => .err

/-! ### TRIM -/

/-- utf8.DecodeRune on a non-empty byte string: the rune and its size; an invalid sequence is U+FFFD of size 1. -/
def decodeRune (b : List UInt8) : Nat × Nat :=
  let x i := (b.getD i 0).toNat
  let c i := decide (128 ≤ x i ∧ x i < 192)
  if x 0 < 128 then (x 0, 1)
  else if 194 ≤ x 0 ∧ x 0 < 224 ∧ c 1 then ((x 0 - 192) * 64 + (x 1 - 128), 2)
  else if 224 ≤ x 0 ∧ x 0 < 240 ∧ c 1 ∧ c 2 ∧ ¬ (x 0 = 224 ∧ x 1 < 160) ∧ ¬ (x 0 = 237 ∧ 160 ≤ x 1) then
    ((x 0 - 224) * 4096 + (x 1 - 128) * 64 + (x 2 - 128), 3)
  else if 240 ≤ x 0 ∧ x 0 < 245 ∧ c 1 ∧ c 2 ∧ c 3 ∧ ¬ (x 0 = 240 ∧ x 1 < 144) ∧ ¬ (x 0 = 244 ∧ 144 ≤ x 1) then
    ((x 0 - 240) * 262144 + (x 1 - 128) * 4096 + (x 2 - 128) * 64 + (x 3 - 128), 4)
  else (65533, 1)

/-- The runes of a Go string that need not be valid UTF-8 (`for _, r := range s`). -/
def runes : Nat → List UInt8 → List Nat
  | 0, _ => []
  | _, [] => []
  | n + 1, b => (decodeRune b).1 :: runes n (b.drop (decodeRune b).2)

/-- utf8.DecodeLastRune on a non-empty byte string: the longest suffix of up to four bytes that starts with a
byte that can start a rune and is one rune. -/
def decodeLast (b : List UInt8) : Nat × Nat :=
  let last := (b.getLast?.getD 0).toNat
  let starts i := decide (i ≤ b.length) && decide (¬ (128 ≤ (b.getD (b.length - i) 0).toNat ∧ (b.getD (b.length - i) 0).toNat < 192))
  let n := if starts 2 then 2 else if starts 3 then 3 else if starts 4 then 4 else min 5 b.length
  let r := decodeRune (b.drop (b.length - n))
  if last < 128 then (last, 1) else if r.2 = n then r else (65533, 1)

/-- bytes.TrimLeft with a cutset that is not all ASCII. -/
def trimLeftRunes (cut : List Nat) : Nat → List UInt8 → List UInt8
  | 0, b => b
  | _, [] => []
  | n + 1, b => if (decodeRune b).1 ∈ cut then trimLeftRunes cut n (b.drop (decodeRune b).2) else b

/-- bytes.TrimRight with a cutset that is not all ASCII. -/
def trimRightRunes (cut : List Nat) : Nat → List UInt8 → List UInt8
  | 0, b => b
  | _, [] => []
  | n + 1, b => if (decodeLast b).1 ∈ cut then trimRightRunes cut n (b.take (b.length - (decodeLast b).2)) else b

/-- The bytes of an ASCII string, character by character. -/
def asciiBytes (s : List Char) : List UInt8 := s.map fun c => UInt8.ofNat c.toNat

/-- bytes.Trim(b, string(cut)): bytewise for an ASCII cutset, by runes otherwise. -/
def trimBytes (b cut : List UInt8) : List UInt8 :=
  if cut.all (fun x => x.toNat < 128) then trim b cut
  else
    let rs := runes cut.length cut
    let l := trimLeftRunes rs b.length b
    trimRightRunes rs l.length l

/-- function_string.go:1218-1244 TRIM; `none` is no second argument.  The types agree after analysis. -/
def trimV (v : Val) (cut : Option Val) : Res Val := match v, cut with
  | .str s, none => .ok (.str (trim s [' ']))
  | .str s, some (.str c) => .ok (.str (trim s c))
  | .bytes b, none => .ok (.bytes (trimBytes b [32]))
  | .bytes b, some (.bytes c) => .ok (.bytes (trimBytes b c))
  | _, _ => .err

/-- function_bind.go:989-1005: the cutset is the second argument as text, for BYTES its base64 text. -/
def cutset : Option Val → Res (List Char)
  | none => .ok [' ']
  | some (.str c) => .ok c
  | some (.bytes c) => .ok (Base64.encode c)
  | some _ => .err

/-- function_string.go:438-454 LTRIM with function_bind.go:989-1005.  The base64 text is ASCII. -/
def ltrimV (v : Val) (cut : Option Val) : Res Val := (cutset cut).bind fun c => match v with
  | .str s => .ok (.str (trimLeft s c))
  | .bytes b => .ok (.bytes (trimLeft b (asciiBytes c)))
  | _ => .err

/-- function_string.go:871-887 RTRIM with function_bind.go:1195-1208. -/
def rtrimV (v : Val) (cut : Option Val) : Res Val := (cutset cut).bind fun c => match v with
  | .str s => .ok (.str (trimRight s c))
  | .bytes b => .ok (.bytes (trimRight b (asciiBytes c)))
  | _ => .err

/-! ### SPLIT, REPLACE, TRANSLATE -/

/-- bytes.Split with an empty separator: the runes. -/
def explode : Nat → List UInt8 → List (List UInt8)
  | 0, _ => []
  | _, [] => []
  | n + 1, b => b.take (decodeRune b).2 :: explode n (b.drop (decodeRune b).2)

/-- bytes.Split -/
def splitBytes (b d : List UInt8) : List (List UInt8) := if d = [] then explode b.length b else split b d

/-- function_string.go:949-988 SPLIT; `none` is no delimiter argument. -/
def splitV (v : Val) (d : Option Val) : Res Val := match v, d with
  | .str s, none => .ok (.arr ((split s [',']).map .str))
  | .str s, some (.str d) => .ok (.arr ((split s d).map .str))
  | .bytes _, none => .err
  | .bytes b, some (.bytes d) => .ok (.arr ((splitBytes b d).map .bytes))
  | _, _ => .err

/-- function_array.go:24-38 ARRAY_TO_STRING of an array of STRING; `nullText` is the optional third argument. -/
def elems (nullText : Option (List Char)) : List Val → List (List Char)
  | [] => []
  | .null :: vs => (match nullText with | some t => [t] | none => []) ++ elems nullText vs
  | .str s :: vs => s :: elems nullText vs
  | _ :: vs => elems nullText vs

/-- function_array.go:24-38 -/
def arrayToString (v : Val) (d : List Char) (nullText : Option (List Char)) : Res Val := match v with
  | .arr vs => .ok (.str (join d (elems nullText vs)))
  | _ => .err

/-- bytes.ReplaceAll with an empty `old`: after every rune. -/
def afterRunes (new : List UInt8) : Nat → List UInt8 → List UInt8
  | 0, b => b
  | _, [] => []
  | n + 1, b => b.take (decodeRune b).2 ++ (new ++ afterRunes new n (b.drop (decodeRune b).2))

/-- bytes.ReplaceAll -/
def replaceBytes (s old new : List UInt8) : List UInt8 :=
  if old = [] then new ++ afterRunes new s.length s else replaceAll s old new

/-- function_string.go:706-738 REPLACE -/
def replaceV (v f t : Val) : Res Val := match v, f, t with
  | .str s, .str f, .str t => .ok (.str (replaceAll s f t))
  | .bytes s, .bytes f, .bytes t => .ok (.bytes (replaceBytes s f t))
  | _, _, _ => .err

/-- function_string.go:1169-1180, 1201-1212: the loop of TRANSLATE over the source bytes; `seen` is evaluatedByte
and `ch` the text of a byte: string(s[i]) is the character with that number, []byte{s[i]} the byte. -/
def translateLoop {α} [DecidableEq α] (ch : UInt8 → α) (t : List UInt8) : List UInt8 → Nat → List UInt8 → List α → Res (List α)
  | [], _, _, e => .ok e
  | c :: s, i, seen, e =>
    if c ∈ seen then .err
    else translateLoop ch t s (i + 1) (c :: seen) (replaceAll e [ch c] (match t[i]? with | some x => [ch x] | none => []))

/-- string(byte): the character of that number. -/
def byteChar (b : UInt8) : Char := Char.ofNat b.toNat

/-- function_string.go:1148-1216 TRANSLATE -/
def translate (e s t : Val) : Res Val := match e, s, t with
  | .str e, .str s, .str t => (translateLoop byteChar (utf8 t) (utf8 s) 0 [] e).bind fun r => .ok (.str r)
  | .bytes e, .bytes s, .bytes t => (translateLoop id t s 0 [] e).bind fun r => .ok (.bytes r)
  | _, _, _ => .err

/-! ### Searching -/

/-- function_string.go:1016-1040 STRPOS -/
def strpos (v t : Val) : Res Val := match v, t with
  | .str s, .str t => .ok (.int (match index (utf8 t) (utf8 s) with | some k => k + 1 | none => 0))
  | .bytes s, .bytes t => .ok (.int (match index t s with | some k => k + 1 | none => 0))
  | _, _ => .err

/-- function_string.go:258-271, 295-308: the loop of INSTR from byte `i`. -/
def instrLoop (t src : List UInt8) (occ : Int) : Nat → Nat → Int → Option Nat
  | 0, _, _ => none
  | fuel + 1, i, found =>
    if i < src.length then
      match index t (src.drop i) with
      | some k => if found + 1 = occ then some (i + k) else instrLoop t src occ fuel (i + k + 1) (found + 1)
      | none => if found = occ then some i else instrLoop t src occ fuel (i + 1) found
    else none

/-- function_string.go:229-312 INSTR on the bytes. -/
def instrBytes (s t : List UInt8) (position occ : Int) : Res Int :=
  if position = 0 then .err
  else if occ ≤ 0 then .err
  else
    let pos : Int := position.natAbs
    if pos ≥ s.length then .err
    else
      (if position < 0 then slice s 0 (s.length - pos + 1) else slice s (pos - 1) s.length).bind fun src =>
        match instrLoop t src occ src.length 0 0 with
        | some i => .ok (if position < 0 then s.length - i - 1 else pos + i)
        | none => .ok 0

/-- function_string.go:229-312 INSTR with function_bind.go:909-935: `position` is 0 without a third argument and
`occurrence` 1 without a fourth. -/
def instr (v t : Val) (position occ : Option Int) : Res Val := match v, t with
  | .str s, .str t => (instrBytes (utf8 s) (utf8 t) (position.getD 0) (occ.getD 1)).bind fun i => .ok (.int i)
  | .bytes s, .bytes t => (instrBytes s t (position.getD 0) (occ.getD 1)).bind fun i => .ok (.int i)
  | _, _ => .err

/-- function_string.go:1042-1054 substrPos -/
def substrPos (pos len : Int) : Int :=
  if pos = 0 ∨ pos < -len then 0 else if pos > len then len else if pos > 0 then pos - 1 else len + pos

/-- function_string.go:1056-1067 substrLen -/
def substrLen (n : Option Int) (len : Int) : Res Int := match n with
  | none => .ok len
  | some n => if n < 0 then .err else if n > len then .ok len else .ok n

/-- function_string.go:1069-1108 SUBSTR: `len` is the length that positions are computed with (characters for
STRING) and `v` the bytes that are cut. -/
def substr (v : List UInt8) (len pos : Int) (n : Option Int) : Res (List UInt8) :=
  (substrLen n len).bind fun l =>
    let start := substrPos pos len
    let stop := if start + l > len then len else start + l
    slice v start stop

/-- SUBSTR of a STRING, as bytes. -/
def substrStr (s : List Char) (pos : Int) (n : Option Int) : Res (List UInt8) := substr (utf8 s) s.length pos n
/-- SUBSTR of BYTES. -/
def substrBytes (b : List UInt8) (pos : Int) (n : Option Int) : Res (List UInt8) := substr b b.length pos n

/-! ### Text encodings -/

/-- function_string.go:1144-1146 TO_HEX -/
def toHex (b : List UInt8) : List Char := hex b
/-- function_string.go:164-173 FROM_HEX: a text of odd length gets a leading 0.  (The length is in bytes; a
character that is not ASCII is no hex digit either way.) -/
def fromHex (s : List Char) : Res (List UInt8) :=
  match unhex (if s.length % 2 ≠ 0 then '0' :: s else s) with
  | some b => .ok b
  | none => .err
/-- function_string.go:1110-1112 -/
def toBase32 (b : List UInt8) : List Char := Base32.encode b
/-- function_string.go:148-154 -/
def fromBase32 (s : List Char) : Res (List UInt8) := match Base32.decode s with | some b => .ok b | none => .err
/-- function_string.go:1114-1116 -/
def toBase64 (b : List UInt8) : List Char := Base64.encode b
/-- function_string.go:156-162 -/
def fromBase64 (s : List Char) : Res (List UInt8) := match Base64.decode s with | some b => .ok b | none => .err

/-- function_string.go:1118-1142 TO_CODE_POINTS -/
def toCodePoints : Val → Res Val
  | .str s => .ok (.arr (s.map fun c => .int c.toNat))
  | .bytes b => .ok (.arr (b.map fun x => .int x.toNat))
  | _ => .err

/-- `rune(i64)` in a string: int32 truncation, and U+FFFD for what is no character. -/
def runeChar (i : Int) : Char :=
  let r := (i + 2147483648) % 4294967296 - 2147483648
  if h : 0 ≤ r ∧ r.toNat.isValidChar then Char.ofNatAux r.toNat h.2 else Char.ofNat 65533

/-- function_string.go:51-67: the loop of CODE_POINTS_TO_STRING; `none` is the NULL result. -/
def pointsLoop : List Val → Res (Option (List Char))
  | [] => .ok (some [])
  | .null :: _ => .ok none
  | v :: vs => (toInt64 v).bind fun i => (pointsLoop vs).bind fun r =>
    .ok (r.map fun s => if i = 0 then s else runeChar i :: s)

/-- function_string.go:51-67 CODE_POINTS_TO_STRING -/
def codePointsToString : Val → Res Val
  | .arr vs => (pointsLoop vs).bind fun r => .ok (match r with | some s => .str s | none => .null)
  | _ => .err

/-- function_string.go:39-49 CODE_POINTS_TO_BYTES -/
def bytesLoop : List Val → Res (List UInt8)
  | [] => .ok []
  | v :: vs => (toInt64 v).bind fun i => (bytesLoop vs).bind fun r => .ok (UInt8.ofNat (i % 256).toNat :: r)

/-- function_string.go:39-49 -/
def codePointsToBytes : Val → Res Val
  | .arr vs => (bytesLoop vs).bind fun b => .ok (.bytes b)
  | _ => .err

/-- function_string.go:32-37 CHR -/
def chr (i : Int) : List Char := if i = 0 then [] else [runeChar i]

/-- function_string.go:1246-1252 UNICODE -/
def unicode : List Char → Int
  | [] => 0
  | c :: _ => c.toNat

end Verif.Strings
