import Verif.Model.Float

/-!
# Functions of package math with a domain

internal/function_math.go: SQRT, POW, EXP, LN, LOG10, ACOS, ACOSH, ASIN, ATANH.  Each
converts its arguments to float64 and returns what package math returns.  Package
math is a parameter; assumed is only its documented list of special cases.
-/

namespace Verif.MathFuncs

open Verif.Go Verif.Float

/-- The functions of one argument. -/
inductive Fn where
  | sqrt | exp | ln | log10 | acos | asin | acosh | atanh
deriving DecidableEq, Repr

/-- 1.0 -/
def f1 : F64 := .fin false F64.one
/-- -1.0 -/
def fm1 : F64 := .fin true F64.one
/-- 0.0 -/
def f0 : F64 := .fin false 0
/-- 710.0, whose exponential is more than every float64. -/
def f710 : F64 := .fin false (710 * F64.one)

/-- Special cases of package math, from its documentation (math.Sqrt, math.Exp,
math.Log, math.Log10, math.Acos, math.Asin, math.Acosh, math.Atanh); `none` for the
arguments it says nothing special about. -/
def special : Fn → F64 → Option F64
  | .sqrt, x => if F64.lt x f0 then some .nan else none
  | .exp, x => if F64.lt f710 x then some (.inf false) else none
  | .ln, x => if F64.eq x f0 then some (.inf true)
      else if F64.lt x f0 then some .nan else none
  | .log10, x => if F64.eq x f0 then some (.inf true)
      else if F64.lt x f0 then some .nan else none
  | .acos, x => if F64.lt x fm1 || F64.lt f1 x then some .nan else none
  | .asin, x => if F64.lt x fm1 || F64.lt f1 x then some .nan else none
  | .acosh, x => if F64.lt x f1 then some .nan else none
  | .atanh, x => if F64.lt x fm1 || F64.lt f1 x then some .nan
      else if F64.eq x f1 then some (.inf false)
      else if F64.eq x fm1 then some (.inf true) else none

/-- Is the finite number of `k` units an integer? -/
def isInt (k : Nat) : Bool := k % F64.one == 0

/-- Is it an odd integer? -/
def isOdd (k : Nat) : Bool := isInt k && k / F64.one % 2 == 1

/-- Special cases of math.Pow that matter here: a zero to a negative power, and a
negative number to a power that is no integer. -/
def specialPow : F64 → F64 → Option F64
  | .fin s 0, .fin true (m + 1) => some (.inf (s && isOdd (m + 1)))
  | .fin true (_ + 1), .fin _ m => if isInt m then none else some .nan
  | _, _ => none

/-- Package math. -/
structure Lib where
  fn : Fn → F64 → F64
  pow : F64 → F64 → F64
  fn_special : ∀ f x r, special f x = some r → fn f x = r
  pow_special : ∀ x y r, specialPow x y = some r → pow x y = r

/-- function_math.go:91-97 SQRT, :111-125 EXP and LN, :139-145 LOG10, :325-339 ACOS and
ACOSH, :357-363 ASIN, :397-403 ATANH; function_bind.go:1636-1641 and the like have
dealt with NULL (`Float.eval`). -/
def fn1 (L : Lib) (f : Fn) : List F64 → Res (Option F64)
  | x :: _ => .ok (some (L.fn f x))
  | [] => .panic

/-- function_math.go:99-109 POW. -/
def pow (L : Lib) : List F64 → Res (Option F64)
  | x :: y :: _ => .ok (some (L.pow x y))
  | _ => .panic

end Verif.MathFuncs
