import Verif.Model.Logic
import Verif.Model.Date

/-!
# Array functions (internal/function.go:164-206, internal/function_array.go), RANGE_BUCKET, GREATEST and LEAST
-/

namespace Verif.Arrays

open Go Verif.Val Verif.Logic Verif.Date

/-- `(Value).ToArray`: value.go:1170 for arrays; a nil value panics, another kind is an error
(the implicit conversion of a string of JSON is not modelled). -/
def toArray : Val → Res (List Val)
  | .arr vs => .ok vs
  | .null => .panic
  | _ => .err

/-! ### Subscripts -/

/-- function_bind.go:315-357: the four subscript functions share everything but the last step. -/
def subscript (f : List Val → Int → Res Val) (a i : Val) : Res Val :=
  if existsNull [a, i] then .ok .null
  else (toInt64 i).bind fun idx => (toArray a).bind fun vs => f vs idx

/-- function.go:164-173 ARRAY_OFFSET -/
def offsetAt (vs : List Val) (idx : Int) : Res Val :=
  if idx < 0 ∨ (vs.length : Int) ≤ idx then .err
  else match vs[idx.toNat]? with | some v => .ok v | none => .panic

/-- function.go:175-184 ARRAY_SAFE_OFFSET -/
def safeOffsetAt (vs : List Val) (idx : Int) : Res Val :=
  if idx < 0 ∨ (vs.length : Int) ≤ idx then .ok .null
  else match vs[idx.toNat]? with | some v => .ok v | none => .panic

/-- function.go:186-195 ARRAY_ORDINAL -/
def ordinalAt (vs : List Val) (idx : Int) : Res Val :=
  if idx < 1 ∨ (vs.length : Int) < idx then .err
  else match vs[(idx - 1).toNat]? with | some v => .ok v | none => .panic

/-- function.go:197-206 ARRAY_SAFE_ORDINAL -/
def safeOrdinalAt (vs : List Val) (idx : Int) : Res Val :=
  if idx < 1 ∨ (vs.length : Int) < idx then .ok .null
  else match vs[(idx - 1).toNat]? with | some v => .ok v | none => .panic

/-! ### ARRAY_CONCAT, ARRAY_LENGTH, ARRAY_REVERSE -/

/-- function_array.go:8-18: the loop of ARRAY_CONCAT; `acc` is arr.values. -/
def concatLoop : List Val → List Val → Res (List Val)
  | acc, [] => .ok acc
  | acc, a :: as => (toArray a).bind fun vs => concatLoop (acc ++ vs) as

/-- function_array.go:8-18 with function_bind.go:2730-2735 -/
def arrayConcat (args : List Val) : Res Val :=
  if args.length = 0 then .err else (concatLoop [] args).bind fun vs => .ok (.arr vs)

/-- function_array.go:20-22 with function_bind.go:2737-2746 -/
def arrayLength (a : Val) : Res Val := (toArray a).bind fun vs => .ok (.int vs.length)

/-- function_array.go:220-226: the loop from the last index down to 0; `n` is `i+1`. -/
def reverseLoop (vs : List Val) : Nat → List Val → List Val
  | 0, ret => ret
  | n + 1, ret => reverseLoop vs n (ret ++ [vs.getD n .null])

/-- function_array.go:220-226 with function_bind.go:2805-2814 -/
def arrayReverse (a : Val) : Res Val := (toArray a).bind fun vs => .ok (.arr (reverseLoop vs vs.length []))

/-! ### GENERATE_ARRAY and its relatives

The three functions have the same loop.  It need not end: `loop` gives `none` when `fuel`
rounds were not enough. -/

/-- function_array.go:96-121, 145-170, 191-216: append `cur`, go on with the next value while it is
within the bound. -/
def loop {α} (next : α → α) (keep : α → Bool) : Nat → α → List α → Option (List α)
  | 0, _, _ => none
  | fuel + 1, cur, acc => if keep (next cur) then loop next keep fuel (next cur) (acc ++ [cur]) else some (acc ++ [cur])

/-- What a call comes to. -/
inductive Gen (α : Type) where
  | value (r : α)     -- returns r
  | null              -- returns NULL
  | error             -- returns an error
  | forever           -- does not return
  deriving DecidableEq

/-- The call returns `r` after enough rounds, or never: function_array.go:125-172 generateArray (88-95 and
183-190 are the same tests).  `up` is isLT, `positive` isPositiveStepValue. -/
def Generates {α} (up positive : Bool) (next : α → α) (keep : α → Bool) (start : α) : Gen (List α) → Prop
  | .value r => if up ≠ positive then r = [] else ∃ fuel, loop next keep fuel start [] = some r
  | .forever => up = positive ∧ ∀ fuel, loop next keep fuel start [] = none
  | _ => False

/-- function_array.go:40-48, 125-172 GENERATE_ARRAY of INT64 (value.go:45-51 IntValue.Add wraps); `none` is
NULL, and without a third argument the step is 1. -/
def generateArray (start stop : Option Int) (step : Option (Option Int)) (out : Gen (List Int)) : Prop :=
  match start, stop, step.getD (some 1) with
  | some a, some b, some s =>
    Generates (decide (a ≤ b)) (decide (s > 0)) (fun x => wrap64 (x + s)) (fun x => if a ≤ b then decide (x ≤ b) else decide (b ≤ x)) a out
  | _, _, _ => out = .null

/-- value.go:1455-1466 AddDateWithInterval on day numbers; QUARTER and DAY fall to the default. -/
def addInterval (n v : Int) : Part → Int
  | .week _ => addDate n 0 0 (wrap64 (v * 7))
  | .month => addDate n 0 v 0
  | .year => addDate n v 0 0
  | _ => addDate n 0 0 v

/-- function_array.go:50-77, 174-218 GENERATE_DATE_ARRAY on day numbers. -/
def generateDateArray (start stop : Option Int) (s : Int) (p : Part) (out : Gen (List Int)) : Prop :=
  match start, stop with
  | some a, some b =>
    if s = 0 then out = .null
    else Generates (decide (a ≤ b)) (decide (s > 0)) (fun x => addInterval x s p) (fun x => if a ≤ b then decide (x ≤ b) else decide (b ≤ x)) a out
  | _, _ => out = .null

/-- value.go:1896-1913 AddValueWithPart: the nanoseconds added (a time.Duration product wraps); DAY is twice
multiplied. -/
def partNs (v : Int) : Part → Option Int
  | .microsecond => some (wrap64 (v * us))
  | .millisecond => some (wrap64 (v * ms))
  | .second => some (wrap64 (v * sec))
  | .minute => some (wrap64 (v * minute))
  | .hour => some (wrap64 (v * hour))
  | .day => some (wrap64 (wrap64 (v * hour) * 24))
  | _ => none

/-- function_array.go:79-123 GENERATE_TIMESTAMP_ARRAY in nanoseconds.  An unknown part fails in the first round. -/
def generateTimestampArray (start stop : Option Int) (s : Int) (p : Part) (out : Gen (List Int)) : Prop :=
  match start, stop with
  | some a, some b =>
    if s = 0 then out = .null
    else match partNs s p with
      | some d => Generates (decide (a ≤ b)) (decide (s > 0)) (fun x => x + d) (fun x => if a ≤ b then decide (x ≤ b) else decide (b ≤ x)) a out
      | none => if decide (a ≤ b) = decide (s > 0) then out = .error else out = .value []
  | _, _ => out = .null

/-! ### RANGE_BUCKET, GREATEST, LEAST -/

/-- function_math.go:421-435: the loop of RANGE_BUCKET. -/
def bucketLoop (point : Val) : List Val → Int → Res Int
  | [], idx => .ok idx
  | v :: vs, idx => if v.isNull then .err else (cmp .gte point v).bind fun c => if c then bucketLoop point vs (idx + 1) else .ok idx

/-- function_math.go:417-436 RANGE_BUCKET with function_bind.go:1876-1885 -/
def rangeBucket (point arr : Val) : Res Val :=
  if existsNull [point, arr] then .ok .null
  else (toArray arr).bind fun vs => (bucketLoop point vs 0).bind fun i => .ok (.int i)

/-- function_math.go:147-166: the loop of GREATEST; `none` is the nil max. -/
def extremeLoop (op : Op) : Option Val → List Val → Res Val
  | m, [] => .ok (m.getD .null)
  | m, v :: vs => if v.isNull then .ok .null else match m with
    | none => extremeLoop op (some v) vs
    | some m => (cmp op v m).bind fun c => extremeLoop op (some (if c then v else m)) vs

/-- function_math.go:147-166 GREATEST with function_bind.go:1681-1686 -/
def greatest (args : List Val) : Res Val := if existsNull args then .ok .null else extremeLoop .gt none args
/-- function_math.go:168-187 LEAST with function_bind.go:1688-1693 -/
def least (args : List Val) : Res Val := if existsNull args then .ok .null else extremeLoop .lt none args

end Verif.Arrays
