import Verif.Go.Basic

/-!
# float64 values that are integers

Part of the trusted model of Go.  `f64 n` is the integer value of the float64
nearest to the integer `n` (53-bit significand, ties to even).  Conversions from
int64 and sums, differences, products and remainders of integer-valued float64s
of moderate size stay integer-valued, so this is all that is needed for the
functions that go through float64; exponent overflow is out of reach here.
-/

namespace Verif.Go

/-- Round a natural number to 53 significant bits, ties to even. -/
def roundNat53 (n : Nat) : Nat :=
  if n < 9007199254740992 then n
  else
    let e := n.log2 - 52
    let u := 2 ^ e
    let q := n / u
    let r := n % u
    if 2 * r < u then q * u else if 2 * r > u then (q + 1) * u else if q % 2 = 0 then q * u else (q + 1) * u

/-- `float64(n)` for an integer `n`, as an integer. -/
def f64 (n : Int) : Int := if 0 ≤ n then roundNat53 n.toNat else -(roundNat53 (-n).toNat)

theorem f64_exact {n : Int} (h1 : -9007199254740992 < n) (h2 : n < 9007199254740992) : f64 n = n := by
  unfold f64 roundNat53
  split
  · rw [if_pos (by omega)]; omega
  · rw [if_pos (by omega)]; omega

theorem f64_edge : f64 9007199254740993 = 9007199254740992 := by decide

end Verif.Go
