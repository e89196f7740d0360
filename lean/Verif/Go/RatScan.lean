import Verif.Go.Basic

/-!
# Package math/big: `Rat.SetString`

math/big/ratconv.go (SetString, scanExponent), natconv.go (nat.scan), intconv.go (Int.scan, scanSign).  Numbers are unbounded as there; a
text is its characters (all bytes that matter are ASCII).  The documented result of a failed SetString is undefined; the model also
has the value the code leaves, since go-zetasqlite ignores failures in several places.
-/

namespace Verif.Go.RatScan

/-- The digit value of natconv.go: letters of both cases count from ten. -/
def digitOf (c : Char) : Nat :=
  let n := c.toNat
  if 48 ≤ n ∧ n ≤ 57 then n - 48 else if 97 ≤ n ∧ n ≤ 122 then n - 97 + 10 else if 65 ≤ n ∧ n ≤ 90 then n - 65 + 10 else 63

/-- The previous character, as nat.scan remembers it. -/
inductive Prev where
  | dot | sep | digit
  deriving DecidableEq, Repr

/-- The state of nat.scan. -/
structure Mant where
  val : Nat
  count : Nat
  /-- The digits before the point. -/
  dp : Option Nat
  prev : Prev
  /-- A misplaced underscore. -/
  bad : Bool
  deriving DecidableEq, Repr

/-- The loop of nat.scan in base `b`; what is left of the text. -/
def scanDigits (b : Nat) : Bool → Mant → List Char → Mant × List Char
  | _, m, [] => (m, [])
  | frac, m, c :: s =>
    if c = '.' ∧ frac = true then
      scanDigits b false { m with bad := m.bad || decide (m.prev = .sep), prev := .dot, dp := some m.count } s
    else if c = '_' then scanDigits b frac { m with bad := m.bad || decide (m.prev ≠ .digit), prev := .sep } s
    else if digitOf c < b then scanDigits b frac { m with val := m.val * b + digitOf c, count := m.count + 1, prev := .digit } s
    else (m, c :: s)

/-- What nat.scan returns: the value, the base, the number of digits (negative: those after the point), whether it failed, the rest. -/
structure Scanned where
  val : Nat
  base : Nat
  fcount : Int
  failed : Bool
  rest : List Char
  deriving DecidableEq, Repr

/-- The end of nat.scan; `octal` for a lone leading zero. -/
def finish (b : Nat) (octal : Bool) (r : Mant × List Char) : Scanned :=
  let bad := r.1.bad || decide (r.1.prev = .sep)
  if r.1.count = 0 ∧ octal = true then ⟨0, 10, 1, bad, r.2⟩
  else
    ⟨r.1.val, b, match r.1.dp with | some d => (d : Int) - r.1.count | none => r.1.count, bad || decide (r.1.count = 0), r.2⟩

/-- nat.scan(r, 0, fracOk). -/
def natScan (frac : Bool) (s : List Char) : Scanned :=
  match s with
  | [] => finish 10 false (scanDigits 10 frac ⟨0, 0, none, .dot, false⟩ [])
  | c :: r =>
    if c = '0' then
      match r with
      | [] => finish 10 false (scanDigits 10 frac ⟨0, 1, none, .digit, false⟩ [])
      | d :: r' =>
        if d = 'b' ∨ d = 'B' then finish 2 false (scanDigits 2 frac ⟨0, 0, none, .digit, false⟩ r')
        else if d = 'o' ∨ d = 'O' then finish 8 false (scanDigits 8 frac ⟨0, 0, none, .digit, false⟩ r')
        else if d = 'x' ∨ d = 'X' then finish 16 false (scanDigits 16 frac ⟨0, 0, none, .digit, false⟩ r')
        else if frac then finish 10 false (scanDigits 10 frac ⟨0, 1, none, .digit, false⟩ r)
        else finish 8 true (scanDigits 8 frac ⟨0, 0, none, .digit, false⟩ r)
    else finish 10 false (scanDigits 10 frac ⟨0, 0, none, .dot, false⟩ s)

/-- scanSign on a non-empty text. -/
def scanSign : List Char → Bool × List Char
  | [] => (false, [])
  | c :: s => if c = '-' then (true, s) else if c = '+' then (false, s) else (false, c :: s)

/-- The digits of an exponent: value, whether there was one, the previous character, a misplaced underscore, the rest. -/
def expDigits : Nat → Bool → Prev → Bool → List Char → (Nat × Bool × Prev × Bool) × List Char
  | n, h, p, b, [] => ((n, h, p, b), [])
  | n, h, p, b, c :: s =>
    if 48 ≤ c.toNat ∧ c.toNat ≤ 57 then expDigits (n * 10 + (c.toNat - 48)) true .digit b s
    else if c = '_' then expDigits n h .sep (b || decide (p ≠ .digit)) s
    else ((n, h, p, b), c :: s)

/-- scanExponent(r, true, true): exponent, its base, the rest; `none` if it fails. -/
def scanExponent : List Char → Option (Int × Nat × List Char)
  | [] => some (0, 10, [])
  | c :: s =>
    if c = 'e' ∨ c = 'E' ∨ c = 'p' ∨ c = 'P' then
      let sg := scanSign s
      let r := expDigits 0 false .dot false sg.2
      let x : Int := if sg.1 then -(r.1.1 : Int) else r.1.1
      if r.1.2.1 = false ∨ ¬ InI64 x ∨ r.1.2.2.2 = true ∨ r.1.2.2.1 = .sep then none
      else some (x, if c = 'e' ∨ c = 'E' then 10 else 2, r.2)
    else some (0, 10, c :: s)

/-- Int.SetString(s, 0): the value left and whether it succeeded. -/
def scanInt (s : List Char) : Int × Bool :=
  if s = [] then (0, false)
  else
    let sg := scanSign s
    let m := natScan false sg.2
    if m.failed then (m.val, false)
    else (if sg.1 then -(m.val : Int) else m.val, decide (m.rest = []))

/-- The quotient, an empty denominator being one. -/
def ratio (a : Int) (b : Nat) : Rat := mkRat a (if b = 0 then 1 else b)

/-- The last part of Rat.SetString: mantissa `m` with the exponents of 5 and 2 applied.  The sums of int64 exponents may overflow in Go; the
wrapped value is refused as well as the unbounded one. -/
def scale (neg : Bool) (m : Nat) (exp5 exp2 : Int) : Rat × Bool :=
  if exp5.natAbs > 1000000 then ((m : Rat), false)
  else
    let a := if exp5 > 0 then m * 5 ^ exp5.natAbs else m
    let b := if exp5 < 0 then 5 ^ exp5.natAbs else 1
    if exp2 < -10000000 ∨ exp2 > 10000000 then (mkRat a b, false)
    else
      let a := if exp2 > 0 then a * 2 ^ exp2.natAbs else a
      let b := if exp2 < 0 then b * 2 ^ exp2.natAbs else b
      (mkRat (if neg then -(a : Int) else a) b, true)

/-- Rat.SetString without a slash. -/
def setFloat (s : List Char) : Rat × Bool :=
  let sg := scanSign s
  let m := natScan true sg.2
  if m.failed then ((m.val : Rat), false)
  else match scanExponent m.rest with
    | none => ((m.val : Rat), false)
    | some (x, ebase, rest) =>
      if rest ≠ [] then ((m.val : Rat), false)
      else if m.val = 0 then (0, true)
      else
        let d : Int := if m.fcount < 0 then m.fcount else 0
        let exp5 := (if m.base = 10 then d else 0) + (if ebase = 10 then x else 0)
        let exp2 := (if m.base = 8 then d * 3 else if m.base = 16 then d * 4 else d) + x
        scale sg.1 m.val exp5 exp2

/-- Rat.SetString on the zero Rat: the value left and whether it succeeded. -/
def setString (s : List Char) : Rat × Bool :=
  if s = [] then (0, false)
  else if '/' ∈ s then
    let a := scanInt (s.takeWhile (· ≠ '/'))
    if a.2 = false then ((a.1 : Rat), false)
    else
      let m := natScan false ((s.dropWhile (· ≠ '/')).drop 1)
      (ratio a.1 m.val, decide (m.failed = false ∧ m.rest = [] ∧ m.val ≠ 0))
  else setFloat s

end Verif.Go.RatScan
