import Verif.Go.Basic

/-!
# IEEE 754 binary64

Part of the trusted model of Go: float64 and the functions of package math that
the repository uses.  Every finite float64 is an integral multiple of 2⁻¹⁰⁷⁴, so a
finite value is a sign and the number of these units; 53 significant bits then
also give the subnormal numbers.  Rounding is to nearest, ties to even; a rounded
magnitude of 2¹⁰²⁴ or more is infinite.  NaN has no sign and no payload.
-/

namespace Verif.Go

inductive F64 where
  | fin (neg : Bool) (k : Nat)
  | inf (neg : Bool)
  | nan
deriving DecidableEq, Repr

namespace F64

/-- 1.0 in units. -/
def one : Nat := 2 ^ 1074

/-- 2¹⁰²⁴ in units: the first magnitude that is infinite. -/
def limit : Nat := 2 ^ 2098

/-- `n / d` rounded to 53 significant bits, ties to even. -/
def roundQ (n d : Nat) : Nat :=
  let u := 2 ^ ((n / d).log2 - 52)
  let q := n / (d * u)
  let r := n % (d * u)
  if 2 * r < d * u then q * u
  else if d * u < 2 * r then (q + 1) * u
  else if q % 2 = 0 then q * u else (q + 1) * u

/-- `k` units, infinite if they are too many. -/
def pack (neg : Bool) (k : Nat) : F64 := if k < limit then .fin neg k else .inf neg

/-- ±`n / d` units. -/
def round (neg : Bool) (n d : Nat) : F64 := pack neg (roundQ n d)

/-- The sign bit; math.Signbit. -/
def signbit : F64 → Bool
  | .fin s _ => s
  | .inf s => s
  | .nan => false

/-- Units with sign. -/
def sval (s : Bool) (k : Nat) : Int := if s then -(k : Int) else k

/-- `-x` -/
def neg : F64 → F64
  | .fin s k => .fin (!s) k
  | .inf s => .inf (!s)
  | .nan => .nan

/-- math.Abs -/
def abs : F64 → F64
  | .fin _ k => .fin false k
  | .inf _ => .inf false
  | .nan => .nan

/-- `x + y`; an exact zero is negative only if both are. -/
def add : F64 → F64 → F64
  | .nan, _ => .nan
  | _, .nan => .nan
  | .inf s, .inf t => if s = t then .inf s else .nan
  | .inf s, .fin _ _ => .inf s
  | .fin _ _, .inf t => .inf t
  | .fin s a, .fin t b =>
    let z := sval s a + sval t b
    if z = 0 then .fin (s && t) 0 else round (decide (z < 0)) z.natAbs 1

/-- `x - y` -/
def sub (x y : F64) : F64 := add x (neg y)

/-- `x * y` -/
def mul : F64 → F64 → F64
  | .nan, _ => .nan
  | _, .nan => .nan
  | .inf s, .inf t => .inf (s != t)
  | .inf s, .fin t b => if b = 0 then .nan else .inf (s != t)
  | .fin s a, .inf t => if a = 0 then .nan else .inf (s != t)
  | .fin s a, .fin t b => round (s != t) (a * b) one

/-- `x / y` -/
def div : F64 → F64 → F64
  | .nan, _ => .nan
  | _, .nan => .nan
  | .inf _, .inf _ => .nan
  | .inf s, .fin t _ => .inf (s != t)
  | .fin s _, .inf t => .fin (s != t) 0
  | .fin s a, .fin t b =>
    if b = 0 then (if a = 0 then .nan else .inf (s != t)) else round (s != t) (a * one) b

/-- `x < y` -/
def lt : F64 → F64 → Bool
  | .nan, _ => false
  | _, .nan => false
  | .inf s, .inf t => s && !t
  | .inf s, .fin _ _ => s
  | .fin _ _, .inf t => !t
  | .fin s a, .fin t b => decide (sval s a < sval t b)

/-- `x == y`: the zeros are equal, NaN is not equal to itself. -/
def eq : F64 → F64 → Bool
  | .nan, _ => false
  | _, .nan => false
  | .inf s, .inf t => s == t
  | .inf _, .fin _ _ => false
  | .fin _ _, .inf _ => false
  | .fin s a, .fin t b => decide (sval s a = sval t b)

/-- `x <= y` -/
def le (x y : F64) : Bool := lt x y || eq x y

/-- math.IsNaN -/
def isNaN : F64 → Bool
  | .nan => true
  | _ => false

/-- math.IsInf(x, 0) -/
def isInf : F64 → Bool
  | .inf _ => true
  | _ => false

/-- math.Trunc: the sign is kept. -/
def trunc : F64 → F64
  | .fin s k => .fin s (k / one * one)
  | x => x

/-- math.Floor -/
def floor : F64 → F64
  | .fin false k => .fin false (k / one * one)
  | .fin true k => .fin true ((k + (one - 1)) / one * one)
  | x => x

/-- math.Ceil: `-Floor(-x)`. -/
def ceil (x : F64) : F64 := neg (floor (neg x))

/-- `float64(n)` -/
def ofInt (n : Int) : F64 := round (decide (n < 0)) (n.natAbs * one) 1

/-- `int64(x)`: towards zero; what does not fit gives the least int64 on amd64. -/
def toInt64 : F64 → Int
  | .fin s k =>
    let n := sval s (k / one)
    if -9223372036854775808 ≤ n ∧ n ≤ 9223372036854775807 then n else -9223372036854775808
  | _ => -9223372036854775808

/-- math.Ldexp(x, e): `x · 2ᵉ`. -/
def ldexp (x : F64) (e : Int) : F64 :=
  match x with
  | .fin s k => if 0 ≤ e then round s (k * 2 ^ e.toNat) 1 else round s k (2 ^ (-e).toNat)
  | x => x

/-- The finite float64 are the multiples `m · 2ᵉ` of the unit with `m < 2⁵³`, below the limit. -/
def Ok : F64 → Prop
  | .fin _ k => k < limit ∧ ∃ m e, m < 2 ^ 53 ∧ k = m * 2 ^ e
  | _ => True

end F64
end Verif.Go
