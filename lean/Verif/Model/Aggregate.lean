import Verif.Model.Value
import Verif.Model.Arith
import Verif.Go.Base64

/-!
# Aggregate functions
(internal/function_aggregate.go, internal/function_aggregate_option.go,
internal/function_bind.go)

SQLite calls `Step` once per row of the group and then `Done`.  A Go error or
panic in `Step` ends the query; the remaining rows do not matter.

Simplifications: FLOAT64 inputs are not represented; `sync.Once` is the "first
call" test it implements; the statistical, approximate and HLL aggregates are in Approx.
-/

namespace Verif.Aggregate

open Go Verif.Val

/-- Rows are fed one after another; the first failure is final. -/
def feed {σ ρ : Type} (step : σ → ρ → Res σ) : σ → List ρ → Res σ
  | s, [] => .ok s
  | s, r :: rs => (step s r).bind fun s' => feed step s' rs

/-- `(Value).Add`: IntValue value.go:47-53, NumericValue value.go:635-645 (the
receiver is overwritten by the result, which is all the aggregates keep). -/
def addVal : Val → Val → Res Val
  | .null, _ => .panic
  | _, .null => .panic
  | .int a, v => (toInt64 v).bind fun b => .ok (.int (wrap64 (a + b)))
  | .num a g, .num b _ => .ok (.num (a + b) g)
  | .num a g, .int b => .ok (.num (a + b) g)
  | _, _ => .err

/-- The aggregates with a single argument and a single accumulated value. -/
inductive Fn where
  | count | countIf | sum | max | min | bitAnd | bitOr | bitXor | logicalAnd | logicalOr | anyValue
  deriving DecidableEq, Repr

/-- The accumulator a new aggregator starts with: function_bind.go:3171 COUNT,
3199 BIT_AND (`IntValue(-1)`), 3213 BIT_OR (`-1`), 3227 BIT_XOR (`1`),
3241 COUNTIF, 3255 LOGICAL_AND (`true`), 3269 LOGICAL_OR (`false`), 3283 MAX,
3297 MIN, 3332 SUM. -/
def init : Fn → Val
  | .bitAnd => .int (-1)
  | .bitOr => .int (-1)
  | .bitXor => .int 1
  | .logicalAnd => .bool true
  | .logicalOr => .bool false
  | _ => .null

/-- One `Step` on a non-nil argument; the state is the accumulated value. -/
def stepNN : Fn → Val → Val → Res Val
  -- function_aggregate.go:256-270 COUNT
  | .count, s, _ => if s.isNull then .ok (.int 1) else addVal s (.int 1)
  -- function_aggregate.go:296-316 COUNTIF
  | .countIf, s, v => (toBool v).bind fun b =>
      if b then (if s.isNull then .ok (.int 1) else addVal s (.int 1)) else .ok s
  -- function_aggregate.go:515-529 SUM
  | .sum, s, v => if s.isNull then .ok v else addVal s v
  -- function_aggregate.go:372-389 MAX
  | .max, s, v => if s.isNull then .ok v else (cmp .gt v s).bind fun c => .ok (if c then v else s)
  -- function_aggregate.go:400-417 MIN
  | .min, s, v => if s.isNull then .ok v else (cmp .lt v s).bind fun c => .ok (if c then v else s)
  -- function_aggregate.go:180-198 BIT_AND
  | .bitAnd, s, v => (toInt64 v).bind fun i =>
      if s.isNull then .ok (.int i) else (toInt64 s).bind fun c => .ok (.int (Arith.bitAnd c i))
  -- function_aggregate.go:208-222 BIT_OR
  | .bitOr, s, v => (toInt64 v).bind fun i => (toInt64 s).bind fun c =>
      if c = -1 then .ok (.int i) else .ok (.int (Arith.bitOr c i))
  -- function_aggregate.go:232-246 BIT_XOR
  | .bitXor, s, v => (toInt64 v).bind fun i => (toInt64 s).bind fun c =>
      if c = 1 then .ok (.int i) else .ok (.int (Arith.bitXor c i))
  -- function_aggregate.go:329-341 LOGICAL_AND
  | .logicalAnd, s, v => (toBool v).bind fun b => .ok (if b then s else .bool false)
  -- function_aggregate.go:351-363 LOGICAL_OR
  | .logicalOr, s, v => (toBool v).bind fun b => .ok (if b then .bool true else s)
  -- function_aggregate.go:50-59 ANY_VALUE
  | .anyValue, s, v => .ok (if s.isNull then v else s)

/-- `Step`: every one of these returns at once on a nil argument. -/
def step (f : Fn) (s v : Val) : Res Val := if v.isNull then .ok s else stepNN f s v

/-- `Done`: function_aggregate.go:272 and 318 (COUNT, COUNTIF: nil becomes 0),
the others return the accumulator. -/
def done : Fn → Val → Val
  | .count, s => if s.isNull then .int 0 else s
  | .countIf, s => if s.isNull then .int 0 else s
  | _, s => s

/-- The aggregate over a group whose rows are visited in the order given. -/
def run (f : Fn) (rows : List Val) : Res Val := (feed (step f) (init f) rows).bind fun s => .ok (done f s)

/-- function_aggregate.go:283-290 COUNT_STAR: Go `int64` increments. -/
def countStar (rows : List (List Val)) : Int := rows.foldl (fun n _ => wrap64 (n + 1)) 0

/-- function_aggregate.go:146-161 AVG Step: the running sum and the count. -/
def avgStep (s : Val × Int) (v : Val) : Res (Val × Int) :=
  if v.isNull then .ok s
  else if s.1.isNull then .ok (v, wrap64 (s.2 + 1))
  else (addVal s.1 v).bind fun t => .ok (t, wrap64 (s.2 + 1))

/-- function_aggregate.go:163-172 AVG Done on INT64 input: the two float64
operands of the final division (`float64(sum)`, `float64(num)`), or NULL. -/
def avg (rows : List Val) : Res (Option (Int × Int)) :=
  (feed avgStep (.null, 0) rows).bind fun s =>
    match s with
    | (.null, _) => .ok none
    | (v, n) => (toInt64 v).bind fun i => .ok (some (f64 i, f64 n))

/-! ## Options -/

/-- function_aggregate_option.go:77-97: one ORDER BY key, after its trip through JSON. -/
structure OrderKey where
  value : Val
  isAsc : Bool

/-- A decoded option argument, function_aggregate_option.go:43-49. -/
inductive OptArg where
  | distinct
  | ignoreNulls
  | limit (n : Int)
  | orderBy (k : OrderKey)

/-- function_aggregate_option.go:110-115 -/
structure AggOpt where
  distinct : Bool := false
  ignoreNulls : Bool := false
  limit : Option Int := none
  orderBy : List OrderKey := []

/-- `(Value).ToString` as DISTINCT and the option scan use it: IntValue
value.go:119 (`fmt.Sprint`), StringValue 267, BytesValue 398 (base64), BoolValue
848.  The remaining types are left to the parameter. -/
def toText (other : Val → Res (List Char)) : Val → Res (List Char)
  | .null => .panic
  | .int i => .ok (decInt i)
  | .bool b => .ok (if b then ['t','r','u','e'] else ['f','a','l','s','e'])
  | .str s => .ok s
  | .bytes b => .ok (Base64.encode b)
  | v => other v

/-- function_aggregate_option.go:131-151: one option recorded. -/
def AggOpt.set (o : AggOpt) : OptArg → AggOpt
  | .distinct => { o with distinct := true }
  | .ignoreNulls => { o with ignoreNulls := true }
  | .limit n => { o with limit := some n }
  | .orderBy k => { o with orderBy := o.orderBy ++ [k] }

/-- function_aggregate_option.go:117-155 parseAggregateOptions.  `text` is
`ToString`; `unmarshal` is `json.Unmarshal` into an AggregatorFuncOption, `none`
for a failure or for any other `type`. -/
def parseOptions (text : Val → Res (List Char)) (unmarshal : List Char → Option OptArg) :
    List Val → List Val × AggOpt → List Val × AggOpt
  | [], acc => acc
  | a :: as, (vs, o) =>
    if a.isNull then parseOptions text unmarshal as (vs ++ [a], o)
    else match text a with
      | .ok t => match unmarshal t with
        | some x => parseOptions text unmarshal as (vs, o.set x)
        | none => parseOptions text unmarshal as (vs ++ [a], o)
      | _ => parseOptions text unmarshal as (vs ++ [a], o)

/-! ## DISTINCT and IGNORE NULLS -/

/-- function_bind.go:52-57: the aggregator's own state around that of the function. -/
structure DState (σ : Type) where
  seen : List (List Char)
  seenNil : Bool
  inner : σ

/-- function_bind.go:59-97 Aggregator.Step after the options have been split off. -/
def aggStep {σ : Type} (text : Val → Res (List Char)) (inner : σ → List Val → AggOpt → Res σ)
    (st : DState σ) (row : List Val × AggOpt) : Res (DState σ) :=
  let opt := row.2
  let values := if opt.ignoreNulls then row.1.filter (fun v => !v.isNull) else row.1
  let call (st : DState σ) := (inner st.inner values opt).bind fun s => .ok { st with inner := s }
  if opt.ignoreNulls ∧ values = [] then .ok st
  else if opt.distinct then
    match values with
    | [] => .err
    | v :: _ =>
      if v.isNull then
        if st.seenNil then .ok st else call { st with seenNil := true }
      else (text v).bind fun key =>
        if key ∈ st.seen then .ok st else call { st with seen := key :: st.seen }
  else call st

/-! ## ARRAY_AGG and STRING_AGG -/

/-- function_aggregate.go:14-17 -/
structure OrderedValue where
  orderBy : List OrderKey
  value : Val

/-- The Boolean result of a comparison whose error is dropped (`cond, _ :=`). -/
def okTrue : Res Bool → Bool
  | .ok b => b
  | _ => false

/-- function_aggregate.go:455-480: the `less` of sortAggregatedValues; `flags`
are the `IsAsc` of `values[0]`. -/
def less : List Bool → List Val → List Val → Bool
  | asc :: fs, k :: ks, l :: ls =>
    if k.isNull then asc
    else if l.isNull then !asc
    else if okTrue (cmp .eq k l) then less fs ks ls
    else if asc then okTrue (cmp .lt k l) else okTrue (cmp .gt k l)
  | _, _, _ => false

/-- A strict weak order, the precondition of `sort.Slice`. -/
structure StrictWeak {α : Type} (r : α → α → Prop) (xs : List α) : Prop where
  irrefl : ∀ x ∈ xs, ¬ r x x
  trans : ∀ x ∈ xs, ∀ y ∈ xs, ∀ z ∈ xs, r x y → r y z → r x z
  cotrans : ∀ x ∈ xs, ∀ y ∈ xs, ∀ z ∈ xs, r x y → r x z ∨ r z y

/-- What the documentation of `sort.Slice` promises: some permutation (the sort is
not stable), in order if `less` is a strict weak order. -/
def SortSlice {α : Type} (r : α → α → Prop) (xs ys : List α) : Prop :=
  ys.Perm xs ∧ (StrictWeak r xs → ys.Pairwise fun a b => ¬ r b a)

/-- `less` on ordered values with the flags of the first. -/
def lessOV (xs : List OrderedValue) (a b : OrderedValue) : Prop :=
  less ((xs.head?.map fun v => v.orderBy.map OrderKey.isAsc).getD [])
    (a.orderBy.map OrderKey.value) (b.orderBy.map OrderKey.value) = true

/-- function_aggregate.go:450-482 sortAggregatedValues.  (A nil `opt` occurs only
when there are no values.) -/
def SortAggregated (opt : Option AggOpt) (xs ys : List OrderedValue) : Prop :=
  match opt with
  | some o => if o.orderBy = [] then ys = xs else SortSlice (lessOV xs) xs ys
  | none => ys = xs

/-- function_aggregate.go:79-85 and 487-493: `values[:min(limit, len)]`; a negative
limit is a slice bounds panic. -/
def applyLimit (opt : Option AggOpt) (xs : List OrderedValue) : Res (List OrderedValue) :=
  match opt.bind AggOpt.limit with
  | none => .ok xs
  | some n =>
    let m := if n < xs.length then n else xs.length
    if m < 0 then .panic else .ok (xs.take m.toNat)

/-- The collected values and the options of the first call. -/
structure Collect where
  opt : Option AggOpt := none
  delim : List Char := []
  values : List OrderedValue := []

/-- function_aggregate.go:67-77 ARRAY_AGG Step. -/
def arrayAggStep (st : Collect) (row : Val × AggOpt) : Res Collect :=
  if row.1.isNull then .err
  else .ok { st with opt := some (st.opt.getD row.2), values := st.values ++ [⟨row.2.orderBy, row.1⟩] }

/-- function_aggregate.go:79-94 ARRAY_AGG Done, as a relation because the sort is
not determined. -/
def ArrayAggDone (st : Collect) (out : Res Val) : Prop :=
  ∃ ys, SortAggregated st.opt st.values ys ∧
    out = (applyLimit st.opt ys).bind fun zs => .ok (.arr (zs.map OrderedValue.value))

/-- function_aggregate.go:23-29 ARRAY Step and 31-39 Done: the ARRAY(subquery) collector. -/
def arrayFn (rows : List Val) : Val := .arr rows

/-- function_aggregate.go:432-448 STRING_AGG Step; function_bind.go:3316-3323 passes
the empty delimiter when there is no second argument. -/
def stringAggStep (delim : List Char) (st : Collect) (row : Val × AggOpt) : Res Collect :=
  if row.1.isNull then .ok st
  else
    let st := if st.opt.isSome then st
      else { st with opt := some row.2, delim := if delim = [] then [','] else delim }
    .ok { st with values := st.values ++ [⟨row.2.orderBy, row.1⟩] }

/-- strings.Join -/
def join (sep : List Char) : List (List Char) → List Char
  | [] => []
  | [a] => a
  | a :: as => a ++ sep ++ join sep as

/-- `ToString` of each value in turn. -/
def texts (text : Val → Res (List Char)) : List Val → Res (List (List Char))
  | [] => .ok []
  | v :: vs => (text v).bind fun t => (texts text vs).bind fun ts => .ok (t :: ts)

/-- function_aggregate.go:484-509 STRING_AGG Done. -/
def StringAggDone (text : Val → Res (List Char)) (st : Collect) (out : Res Val) : Prop :=
  ∃ ys, SortAggregated st.opt st.values ys ∧
    out = (applyLimit st.opt ys).bind fun zs =>
      (texts text (zs.map OrderedValue.value)).bind fun ts =>
        if ts = [] then .ok .null else .ok (.str (join st.delim ts))

/-- The JSON trip of an ORDER BY key (function_aggregate_option.go:82-108):
numbers come back as float64, NUMERIC and BYTES as their text, and the date and
time types, which have no JSON form, as an empty struct. `ratText` is
`big.Rat.MarshalText`. -/
def jsonKey (ratText : Rat → List Char) : Val → Val
  | .null => .null
  | .int i => .int (f64 i)
  | .bool b => .bool b
  | .str s => .str s
  | .bytes b => .str (Base64.encode b)
  | .num r _ => .str (ratText r)
  | .time _ _ => .struct [] []
  | v => v

end Verif.Aggregate
