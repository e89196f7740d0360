import Verif.Go.Float

/-!
# INT64 arithmetic (internal/value.go, internal/function_math.go)

Operands are INT64 values.  A FLOAT64 result is integer-valued here and is given
by that integer (`Num.float`).
-/

namespace Verif.Arith

open Go

/-- A numeric result: IntValue, or FloatValue with an integer value. -/
inductive Num where
  | int (i : Int)
  | float (i : Int)
  deriving DecidableEq, Repr

/-- The numeric value. -/
def Num.val : Num → Int
  | .int i => i
  | .float i => i

/-- value.go:45-51 IntValue.Add -/
def add (a b : Int) : Res Num := .ok (.int (wrap64 (a + b)))
/-- value.go:53-59 IntValue.Sub -/
def sub (a b : Int) : Res Num := .ok (.int (wrap64 (a - b)))
/-- value.go:61-67 IntValue.Mul -/
def mul (a b : Int) : Res Num := .ok (.int (wrap64 (a * b)))
/-- function_math.go:189-202 DIV; Go's `/` truncates, MinInt64 / -1 wraps. -/
def div (a b : Int) : Res Num := if b = 0 then .err else .ok (.int (wrap64 (a.tdiv b)))
/-- function_math.go:263-276 MOD through float64 (math.Mod is exact, sign of x). -/
def mod (a b : Int) : Res Num := if f64 b = 0 then .err else .ok (.float ((f64 a).tmod (f64 b)))
/-- function_math.go:12-18 ABS through float64. -/
def abs (a : Int) : Res Num := .ok (.float (f64 a).natAbs)
/-- function_math.go:239-249 SAFE_ADD through float64. -/
def safeAdd (a b : Int) : Res Num := .ok (.float (f64 (f64 a + f64 b)))
/-- function_math.go:251-261 SAFE_SUBTRACT. -/
def safeSub (a b : Int) : Res Num := .ok (.float (f64 (f64 a - f64 b)))
/-- function_math.go:219-229 SAFE_MULTIPLY. -/
def safeMul (a b : Int) : Res Num := .ok (.float (f64 (f64 a * f64 b)))
/-- function_math.go:231-237 SAFE_NEGATE. -/
def safeNeg (a : Int) : Res Num := .ok (.float (-(f64 a)))

/-- function.go:76-142, on two's complement 64-bit integers. -/
def toBits (i : Int) : BitVec 64 := BitVec.ofInt 64 i

/-- function.go:76-82 `^v` -/
def bitNot (a : Int) : Int := (~~~ (toBits a)).toInt
/-- function.go:108-118 `va & vb` -/
def bitAnd (a b : Int) : Int := (toBits a &&& toBits b).toInt
/-- function.go:120-130 `va | vb` -/
def bitOr (a b : Int) : Int := (toBits a ||| toBits b).toInt
/-- function.go:132-142 `va ^ vb` -/
def bitXor (a b : Int) : Int := (toBits a ^^^ toBits b).toInt
/-- function.go:84-94 `va << vb`: a negative shift count panics, a count ≥ 64 gives 0. -/
def shl (a b : Int) : Res Int := if b < 0 then .panic else .ok ((toBits a <<< b.toNat).toInt)
/-- function.go:96-106 `va >> vb`: arithmetic shift, negative count panics. -/
def shr (a b : Int) : Res Int := if b < 0 then .panic else .ok (((toBits a).sshiftRight b.toNat).toInt)

end Verif.Arith
