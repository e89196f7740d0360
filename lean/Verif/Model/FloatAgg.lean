import Verif.Model.Float

/-!
# Aggregates of FLOAT64

SUM, AVG, MIN and MAX of a FLOAT64 column (internal/function_aggregate.go).  A row holds a SQLite value: NULL (`none`) or a double that is
no NaN.  DISTINCT is the subject of `Model/Aggregate`.
-/

namespace Verif.Float

open Go

/-- SUM.Step, function_aggregate.go:515-529; FloatValue.Add, value.go:353-359. -/
def sumStep (s : Option F64) (v : Option F64) : Option F64 :=
  match v, s with
  | none, s => s
  | some x, none => some x
  | some x, some s => some (s.add x)

/-- `SUM(x)`: SUM.Done, function_aggregate.go:531-533; the result is a SQLite value. -/
def sum (rows : List (Option F64)) : Option F64 := (rows.foldl sumStep none).bind sqlite

/-- AVG.Step, function_aggregate.go:148-163: the sum and the number of values. -/
def avgStep (s : Option F64 × Nat) (v : Option F64) : Option F64 × Nat :=
  match v with
  | none => s
  | some x => (sumStep s.1 (some x), s.2 + 1)

/-- `AVG(x)`: AVG.Done, function_aggregate.go:165-174. -/
def avg (rows : List (Option F64)) : Option F64 :=
  match rows.foldl avgStep (none, 0) with
  | (none, _) => none
  | (some s, n) => sqlite (s.div (F64.ofInt n))

/-- MAX.Step, function_aggregate.go:374-391. -/
def maxStep (m : Option F64) (v : Option F64) : Option F64 :=
  match v, m with
  | none, m => m
  | some x, none => some x
  | some x, some m => if gt x m then some x else some m

/-- `MAX(x)` -/
def maxOf (rows : List (Option F64)) : Option F64 := (rows.foldl maxStep none).bind sqlite

/-- MIN.Step, function_aggregate.go:402-419. -/
def minStep (m : Option F64) (v : Option F64) : Option F64 :=
  match v, m with
  | none, m => m
  | some x, none => some x
  | some x, some m => if lt x m then some x else some m

/-- `MIN(x)` -/
def minOf (rows : List (Option F64)) : Option F64 := (rows.foldl minStep none).bind sqlite

end Verif.Float
