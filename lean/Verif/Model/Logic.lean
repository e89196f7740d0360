import Verif.Model.Value

/-!
# Logic, comparison and conditional functions
(internal/function.go, internal/function_bind.go)

Each `bindX` takes the argument list of the SQL function and returns the Go
result; `Val.null` is SQL NULL.
-/

namespace Verif.Logic

open Go Verif.Val

/-- function_bind.go:31-38 -/
def existsNull : List Val → Bool
  | [] => false
  | v :: vs => if v.isNull then true else existsNull vs

/-- SQL comparison operators that reach the driver. -/
inductive SqlCmp where
  | eq | ne | gt | ge | lt | le
  deriving DecidableEq, Repr

/-- function.go:28-74: EQ, NOT_EQ, GT, GTE, LT, LTE on non-NULL arguments. -/
def opFn : SqlCmp → Val → Val → Res Val
  | .eq, a, b => (cmp .eq a b).bind fun c => .ok (.bool c)
  | .ne, a, b => (cmp .eq a b).bind fun c => .ok (.bool (!c))
  | .gt, a, b => (cmp .gt a b).bind fun c => .ok (.bool c)
  | .ge, a, b => (cmp .gte a b).bind fun c => .ok (.bool c)
  | .lt, a, b => (cmp .lt a b).bind fun c => .ok (.bool c)
  | .le, a, b => (cmp .lte a b).bind fun c => .ok (.bool c)

/-- function_bind.go:187-227: bindEqual … bindLessOrEqual. -/
def bindCmp (op : SqlCmp) : List Val → Res Val
  | [a, b] => if existsNull [a, b] then .ok .null else opFn op a b
  | _ => .panic

/-- function.go:286-297: the scan of AND; `some` is an early result. -/
def andScan : List Val → Res (Option Val)
  | [] => .ok none
  | v :: vs =>
    if v.isNull then andScan vs
    else (toBool v).bind fun c => if !c then .ok (some (.bool false)) else andScan vs

/-- function.go:286-304 AND, function_bind.go:470 -/
def bindAnd (args : List Val) : Res Val :=
  (andScan args).bind fun r => match r with
    | some v => .ok v
    | none => if existsNull args then .ok .null else .ok (.bool true)

/-- function.go:306-317 -/
def orScan : List Val → Res (Option Val)
  | [] => .ok none
  | v :: vs =>
    if v.isNull then orScan vs
    else (toBool v).bind fun c => if c then .ok (some (.bool true)) else orScan vs

/-- function.go:306-324 OR, function_bind.go:474 -/
def bindOr (args : List Val) : Res Val :=
  (orScan args).bind fun r => match r with
    | some v => .ok v
    | none => if existsNull args then .ok .null else .ok (.bool false)

/-- function.go:278-284 NOT, function_bind.go:463-468 -/
def bindNot : List Val → Res Val
  | [a] => if existsNull [a] then .ok .null else (toInt64 a).bind fun v => .ok (.bool (decide (v = 0)))
  | _ => .panic

/-- function.go:326-336 IS_DISTINCT_FROM -/
def isDistinctFrom (a b : Val) : Res Val :=
  if a.isNull || b.isNull then .ok (.bool (!(a.isNull && b.isNull)))
  else (cmp .eq a b).bind fun c => .ok (.bool (!c))

/-- function.go:338-347 IS_NOT_DISTINCT_FROM -/
def isNotDistinctFrom (a b : Val) : Res Val :=
  if a.isNull || b.isNull then .ok (.bool (a.isNull && b.isNull))
  else (cmp .eq a b).bind fun c => .ok (.bool c)

/-- function.go:243-255: the loop of IN. -/
def inScan (a : Val) : List Val → Res Val
  | [] => .ok (.bool false)
  | v :: vs =>
    if v.isNull then inScan a vs
    else (cmp .eq a v).bind fun c => if c then .ok (.bool true) else inScan a vs

/-- function.go:239-256 IN, function_bind.go:441 -/
def bindIn (a : Val) (vs : List Val) : Res Val :=
  if a.isNull then .ok .null else inScan a vs

/-- value.go:1028-1039 ArrayValue.Has -/
def arrayHas (a : Val) : List Val → Res Bool
  | [] => .ok false
  | v :: vs => (cmp .eq v a).bind fun c => if c then .ok true else arrayHas a vs

/-- function.go:144-154 ARRAY_IN, function_bind.go:271-276 (x IN UNNEST(arr)) -/
def bindInArray : List Val → Res Val
  | [a, b] => if existsNull [a, b] then .ok (.bool false) else match b with
    | .arr vs => (arrayHas a vs).bind fun c => .ok (.bool c)
    | _ => .err
  | _ => .panic

/-- function.go:226-237 BETWEEN, function_bind.go:434-439 -/
def bindBetween : List Val → Res Val
  | [x, a, b] => if existsNull [x, a, b] then .ok (.bool false)
    else (cmp .gte x a).bind fun c1 => (cmp .lte x b).bind fun c2 => .ok (.bool (c1 && c2))
  | _ => .panic

/-- function.go:258 IS_NULL -/
def bindIsNull : List Val → Res Val
  | a :: _ => .ok (.bool a.isNull)
  | [] => .panic

/-- function.go:262 IS_TRUE, function_bind.go:449-454 -/
def bindIsTrue : List Val → Res Val
  | [a] => if existsNull [a] then .ok .null else (toBool a).bind fun b => .ok (.bool b)
  | _ => .panic

/-- function.go:270 IS_FALSE, function_bind.go:456-461 -/
def bindIsFalse : List Val → Res Val
  | [a] => if existsNull [a] then .ok .null else (toBool a).bind fun b => .ok (.bool (!b))
  | _ => .panic

/-- function.go:349-357 COALESCE -/
def coalesce : List Val → Res Val
  | [] => .ok .null
  | a :: as => if a.isNull then coalesce as else .ok a

/-- function_bind.go:478-483 -/
def bindCoalesce (args : List Val) : Res Val := if args.length = 0 then .err else coalesce args

/-- function.go:359-371 IF, function_bind.go:485-490 -/
def bindIf : List Val → Res Val
  | [c, t, f] => if c.isNull then .ok f else (toBool c).bind fun b => if b then .ok t else .ok f
  | _ => .err

/-- function.go:373-378 IFNULL, function_bind.go:492-497 -/
def bindIfNull : List Val → Res Val
  | [e, n] => if e.isNull then .ok n else .ok e
  | _ => .err

/-- function.go:380-392 NULLIF, function_bind.go:499-504 -/
def bindNullIf : List Val → Res Val
  | [e, m] => if e.isNull then .ok .null else (cmp .eq e m).bind fun c => if c then .ok .null else .ok e
  | _ => .err

/-- SQLite's test of a WHEN condition: a non-zero integer (BOOL is stored as 0/1). -/
def sqliteTrue : Val → Bool
  | .int i => decide (i ≠ 0)
  | _ => false

/-- formatter.go:268-272 (and 286-289): the WHEN/THEN pairs
`for i := 0; i < len(args)-1; i += 2`. -/
def caseWhens : List α → List (α × α)
  | a :: b :: rest => (a, b) :: caseWhens rest
  | _ => []

/-- formatter.go:274-277: an ELSE exactly when the number of arguments is odd. -/
def caseElse (args : List α) : Option α := if args.length > args.length / 2 * 2 then args.getLast? else none

/-- SQLite's `CASE WHEN … END`. -/
def evalCase (test : Val → Bool) : List (Val × Val) → Option Val → Val
  | [], some e => e
  | [], none => .null
  | (c, v) :: ws, e => if test c then v else evalCase test ws e

/-- formatter.go:268-279 zetasqlite_case_no_value, run by SQLite. -/
def caseNoValue (args : List Val) : Val := evalCase sqliteTrue (caseWhens args) (caseElse args)

/-- formatter.go:261-267: IF becomes `CASE WHEN c THEN t ELSE f END`. -/
def sqlIf (c t f : Val) : Val := evalCase sqliteTrue [(c, t)] (some f)

/-- formatter.go:254-260: IFNULL becomes `CASE WHEN e IS NULL THEN n ELSE e END`. -/
def sqlIfNull (e n : Val) : Val := evalCase Val.isNull [(e, n)] (some e)

/-- formatter.go:280-296 zetasqlite_case_with_value: `CASE v WHEN w THEN t … END`;
`sqlEq v w` is SQLite's `v = w` on the stored forms being true. -/
def caseWithValue (sqlEq : Val → Val → Bool) : List Val → Option Val
  | v :: a :: args => some (evalCase (sqlEq v) (caseWhens (a :: args)) (caseElse (a :: args)))
  | _ => none

end Verif.Logic
