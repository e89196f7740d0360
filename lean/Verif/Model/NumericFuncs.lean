import Verif.Model.Float

/-!
# Functions of NUMERIC

ABS, SIGN, FLOOR, CEIL, TRUNC, MOD and DIV of NUMERIC (internal/function_math.go).  All but DIV convert their arguments to FLOAT64 and
return a FLOAT64, which is read as a NUMERIC when it is a column of the result.
-/

namespace Verif.Float

open Go

/-- NumericValue.ToFloat64, value.go:755-758: big.Rat.Float64, the nearest float64. -/
def ofRat (r : Rat) : F64 := F64.round (decide (r.num < 0)) (r.num.natAbs * F64.one) r.den

/-- A FLOAT64 in a column of type NUMERIC, as a number of billionths: CastValue (encoder.go:484-489, value.go:616-620) takes it for a
fraction, whose text has nine decimals, halves rounded away from zero (value.go:735-745; big.Rat.FloatString).  What is not finite
becomes 0. -/
def readNumeric : F64 → Int
  | .fin s k => F64.sval s ((2 * 10 ^ 9 * k + F64.one) / (2 * F64.one))
  | _ => 0

/-- math.Mod: exact, with the sign of `x`; NaN for an infinite `x` or y = 0, `x` for an infinite `y`. -/
def fmod : F64 → F64 → F64
  | .fin s a, .fin _ b => if b = 0 then .nan else .fin s (a % b)
  | .fin s a, .inf _ => .fin s a
  | _, _ => .nan

/-- function_math.go:12-18 ABS of a NUMERIC. -/
def absN (r : Rat) : Res F64 := abs (ofRat r)

/-- function_math.go:20-31 SIGN of a NUMERIC. -/
def signN (r : Rat) : Res Int := sign (ofRat r)

/-- function_math.go:301-307 FLOOR, 293-299 CEIL, 286-292 TRUNC of a NUMERIC. -/
def floorN (r : Rat) : Res F64 := floor (ofRat r)
def ceilN (r : Rat) : Res F64 := ceil (ofRat r)
def truncN (r : Rat) : Res F64 := trunc (ofRat r) none

/-- function_math.go:263-276 MOD of NUMERIC. -/
def modN (x y : Rat) : Res F64 := if (ofRat y).eq (.fin false 0) then .err else .ok (fmod (ofRat x) (ofRat y))

/-- function_math.go:189-202 DIV of NUMERIC: NumericValue.ToInt64 (value.go:731-733) is the numerator. -/
def divN (x y : Rat) : Res Int :=
  if wrap64 y.num = 0 then .err else .ok (wrap64 ((wrap64 x.num).tdiv (wrap64 y.num)))

end Verif.Float
