import Verif.Go.F64
import Verif.Go.FloatText

/-!
# FLOAT64 (internal/value.go FloatValue, internal/function_math.go)

`FloatValue` is a Go float64, here `F64`.  Arguments of INT64 reach the functions of
function_math.go through `ToFloat64`, which is `F64.ofInt`.
-/

namespace Verif.Float

open Go

/-- value.go:499-505 Add -/
def add (x y : F64) : Res F64 := .ok (x.add y)
/-- value.go:507-513 Sub -/
def sub (x y : F64) : Res F64 := .ok (x.sub y)
/-- value.go:515-521 Mul -/
def mul (x y : F64) : Res F64 := .ok (x.mul y)
/-- value.go:523-532 Div: `v2 == 0` is an error. -/
def div (x y : F64) : Res F64 := if y.eq (.fin false 0) then .err else .ok (x.div y)

/-- value.go:534-540 EQ -/
def eq (x y : F64) : Bool := x.eq y
/-- value.go:542-548 GT -/
def gt (x y : F64) : Bool := y.lt x
/-- value.go:550-556 GTE -/
def gte (x y : F64) : Bool := y.le x
/-- value.go:558-564 LT -/
def lt (x y : F64) : Bool := x.lt y
/-- value.go:566-572 LTE -/
def lte (x y : F64) : Bool := x.le y

/-- value.go:574-576 ToInt64, as CAST(x AS INT64) does (encoder.go:361-366). -/
def toInt64 (x : F64) : Res Int := .ok x.toInt64

/-- value.go:578-580 ToString, as CAST(x AS STRING) does (encoder.go:379-384): fmt.Sprint,
for an integral x of magnitude `n` below 2⁵³ (`neg` is its sign bit). -/
def toStringIntegral (neg : Bool) (n : Nat) : Res (List Char) := .ok (sprintIntegral neg n)

/-- value.go:616-620 ToRat, as CAST(x AS NUMERIC) does (encoder.go:484-489): a fraction.
`big.Rat.SetFloat64` leaves the zero fraction alone when x is not finite. -/
def toRat : F64 → Res (Int × Nat)
  | .fin s k => .ok (F64.sval s k, F64.one)
  | _ => .ok (0, 1)

/-- function_math.go:12-18 ABS -/
def abs (x : F64) : Res F64 := .ok x.abs

/-- function_math.go:20-31 SIGN -/
def sign (x : F64) : Res Int :=
  if x.signbit then .ok (-1) else if x.eq (.fin false 0) then .ok 0 else .ok 1

/-- function_math.go:33-39 IS_INF -/
def isInf (x : F64) : Res Bool := .ok x.isInf

/-- function_math.go:41-47 IS_NAN -/
def isNaN (x : F64) : Res Bool := .ok x.isNaN

/-- function_math.go:49-81 IEEE_DIVIDE, branch by branch. -/
def ieeeDivide (x y : F64) : Res F64 :=
  if x.eq (.fin false 0) then
    if y.eq (.fin false 0) then .ok .nan
    else if y.isNaN then .ok .nan
    else .ok (.fin false 0)
  else if x.isNaN && y.eq (.fin false 0) then .ok .nan
  else if !x.isNaN && x.isInf && y.isInf then .ok .nan
  else if !x.isNaN && !x.isInf && y.eq (.fin false 0) then
    if F64.lt (.fin false 0) x then .ok (.inf false)
    else if F64.lt x (.fin false 0) then .ok (.inf true)
    else .ok (x.div y)
  else .ok (x.div y)

/-- function_math.go:125-135 LOG(x, y): `math.Ldexp(xf, int(yi))` where `yi` is read from x. -/
def log2args (x _y : F64) : Res F64 := .ok (x.ldexp x.toInt64)

/-- function_math.go:204-217 SAFE_DIVIDE -/
def safeDivide (x y : F64) : Res (Option F64) :=
  if y.eq (.fin false 0) then .ok none else .ok (some (x.div y))
/-- function_math.go:219-229 SAFE_MULTIPLY -/
def safeMultiply (x y : F64) : Res (Option F64) := .ok (some (x.mul y))
/-- function_math.go:239-249 SAFE_ADD -/
def safeAdd (x y : F64) : Res (Option F64) := .ok (some (x.add y))
/-- function_math.go:251-261 SAFE_SUBTRACT -/
def safeSubtract (x y : F64) : Res (Option F64) := .ok (some (x.sub y))

/-- function_math.go:286-292 TRUNC, function_bind.go:1764-1769: the arguments after the first are not read. -/
def trunc (x : F64) (_digits : Option Int) : Res F64 := .ok x.trunc
/-- function_math.go:293-299 CEIL -/
def ceil (x : F64) : Res F64 := .ok x.ceil
/-- function_math.go:301-307 FLOOR -/
def floor (x : F64) : Res F64 := .ok x.floor

/-- The loop of GREATEST, function_math.go:147-163. -/
def greatestLoop : Option F64 → List F64 → Option F64
  | m, [] => m
  | none, x :: xs => greatestLoop (some x) xs
  | some m, x :: xs => greatestLoop (if gt x m then some x else some m) xs

/-- function_math.go:145-164 GREATEST without NULL arguments. -/
def greatest (xs : List F64) : Res (Option F64) := .ok (greatestLoop none xs)

/-- The loop of LEAST, function_math.go:168-184. -/
def leastLoop : Option F64 → List F64 → Option F64
  | m, [] => m
  | none, x :: xs => leastLoop (some x) xs
  | some m, x :: xs => leastLoop (if lt x m then some x else some m) xs

/-- function_math.go:166-187 LEAST without NULL arguments. -/
def least (xs : List F64) : Res (Option F64) := .ok (leastLoop none xs)

/-! ### Values on their way through SQLite

encoder.go:75-76 hands a FloatValue to SQLite as a double, decoder.go:20-21 reads a
double back.  `sqlite3_bind_double` and `sqlite3_result_double` turn NaN into NULL. -/

/-- A double as SQLite keeps it; `none` is NULL. -/
def sqlite : F64 → Option F64
  | .nan => none
  | x => some x

/-- Expressions of FLOAT64: parameters and calls of functions. -/
inductive FExpr where
  | param (x : F64)
  | call (f : List F64 → Res (Option F64)) (args : List FExpr)

/-- All or NULL: function_bind.go existsNull. -/
def allSome : List (Option F64) → Option (List F64)
  | [] => some []
  | none :: _ => none
  | some x :: xs => (allSome xs).map (x :: ·)

mutual
/-- The value of an expression: every argument and every result is a SQLite value
(function_bind.go: the functions return NULL when an argument is NULL). -/
def eval : FExpr → Res (Option F64)
  | .param x => .ok (sqlite x)
  | .call f args => (evals args).bind fun vs =>
      match allSome vs with
      | none => .ok none
      | some xs => (f xs).bind fun r => .ok (r.bind sqlite)
def evals : List FExpr → Res (List (Option F64))
  | [] => .ok []
  | e :: es => (eval e).bind fun v => (evals es).bind fun vs => .ok (v :: vs)
end

/-- `IS_NAN(e)` -/
def evalIsNaN (e : FExpr) : Res (Option Bool) :=
  (eval e).bind fun v => match v with
    | none => .ok none
    | some x => (isNaN x).bind fun b => .ok (some b)

end Verif.Float
