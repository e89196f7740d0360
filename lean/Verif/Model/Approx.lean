import Verif.Model.Aggregate
import Verif.Go.F64

/-!
# Approximate and statistical aggregates
(internal/function_aggregate.go:535-1018, internal/function_bind.go:3346-3625)

Simplifications.
* `Val` has no FLOAT64, JSON and INTERVAL values.
* Two date/time keys of a Go map are equal when they are the same instant of the same
  type: the decoder builds all of a column's `time.Time` with the same location.
* gonum's `stat` functions are the formulas they evaluate, in exact rational arithmetic.
* The sketch library is abstract, see `Hll`.
-/

namespace Verif.Approx

open Go Verif.Val Verif.Aggregate

/-! ## APPROX_COUNT_DISTINCT -/

/-- function_aggregate.go:725-736 Step: the texts seen so far are the keys of the map. -/
def distinctStep (text : Val → Res (List Char)) (seen : List (List Char)) (v : Val) : Res (List (List Char)) :=
  if v.isNull then .ok seen
  else (text v).bind fun k => .ok (if k ∈ seen then seen else k :: seen)

/-- function_aggregate.go:738-740 Done after all rows. -/
def countDistinct (text : Val → Res (List Char)) (rows : List Val) : Res Int :=
  (feed (distinctStep text) [] rows).bind fun seen => .ok seen.length

/-! ## APPROX_QUANTILES -/

/-- `values[i]` for an int64 index. -/
def at? (values : List Val) (i : Int) : Res Val :=
  if i < 0 then .panic else match values[i.toNat]? with
    | some v => .ok v
    | none => .panic

/-- `float64(100)` -/
@[irreducible] def f100 : F64 := F64.ofInt 100

/-- function_aggregate.go:770-779: the index taken for position `i` of 100. -/
@[irreducible] def quantIdx (length i : F64) : Int :=
  let fIdx := length.mul (i.div f100)
  let idx := fIdx.toInt64
  let idx := if (F64.ofInt idx).lt fIdx then idx + 1 else idx
  if 0 < idx then idx - 1 else idx

/-- function_aggregate.go:769-780: the loop `for i := start; more(i); i = next(i)` collecting
`values[idx(i)]`; `none` when it needs more than `fuel` rounds. -/
def quantLoop (values : List Val) (more : F64 → Bool) (idx : F64 → Int) (next : F64 → F64) : Nat → F64 → Option (Res (List Val))
  | 0, _ => none
  | fuel + 1, i =>
    if more i then
      match at? values (idx i) with
      | .ok v => (quantLoop values more idx next fuel (next i)).map fun r => r.bind fun vs => .ok (v :: vs)
      | .err => some .err
      | .panic => some .panic
    else some (.ok [])

/-- function_aggregate.go:756-783 Done; `last` is `values[len(values)-1]`. -/
def quantiles (fuel : Nat) (num : Int) (values : List Val) : Option (Res Val) :=
  match values with
  | [] => some (.ok .null)
  | v :: vs =>
    let last := (v :: vs).getLast (by simp)
    if num = 0 then some (.ok (.arr [v]))
    else if num = 1 then some (.ok (.arr [v, last]))
    else (quantLoop (v :: vs) (fun i => i.lt f100) (quantIdx (F64.ofInt (v :: vs).length))
        (fun i => i.add (f100.div (F64.ofInt num))) fuel (.fin false 0)).map fun r =>
      r.bind fun qs => .ok (.arr (qs ++ [last]))

/-! ## APPROX_TOP_COUNT and APPROX_TOP_SUM -/

/-- Equality of two map keys of type `Value` (value.go:43-2070): IntValue, BoolValue,
StringValue and the date/time types compare by value, `*NumericValue`, `*ArrayValue` and
`*StructValue` are pointers and every row has its own. -/
def sameKey : Val → Val → Bool
  | .null, .null => true
  | .int a, .int b => decide (a = b)
  | .bool a, .bool b => a == b
  | .str a, .str b => decide (a = b)
  | .time k a, .time l b => decide (k = l) && decide (a = b)
  | _, _ => false

/-- A BytesValue is a slice: using it as a map key panics. -/
def unhashable : Val → Bool
  | .bytes _ => true
  | _ => false

/-- The map as a list of entries; a new key is added, the payload of an existing one changed. -/
def upsert {β : Type} (v : Val) (new : β) (upd : β → Res β) : List (Val × β) → Res (List (Val × β))
  | [] => .ok [(v, new)]
  | (w, x) :: s =>
    if sameKey v w then (upd x).bind fun x' => .ok ((w, x') :: s)
    else (upsert v new upd s).bind fun s' => .ok ((w, x) :: s')

/-- function_aggregate.go:791-812 APPROX_TOP_COUNT Step. -/
def topCountStep (s : List (Val × Int)) (v : Val) : Res (List (Val × Int)) :=
  if unhashable v then .panic else upsert v 1 (fun n => .ok (wrap64 (n + 1))) s

/-- function_aggregate.go:814-834 and 876-902, the part the two `Done` share: the map in some
order, sorted, cut to `num` entries. -/
def TopDone {β : Type} (before : Val × β → Val × β → Prop) (num : Int) (s : List (Val × β))
    (r : Res (Option (List (Val × β)))) : Prop :=
  if s = [] then r = .ok none
  else if (s.length : Int) < num then r = .err
  else if num < 0 then r = .panic
  else ∃ ys, SortSlice before s ys ∧ r = .ok (some (ys.take num.toNat))

/-- The function `r` a call may return, given how the rows were fed. -/
def TopRun {β : Type} (before : Val × β → Val × β → Prop) (num : Int) (fed : Res (List (Val × β)))
    (r : Res (Option (List (Val × β)))) : Prop :=
  match fed with
  | .ok s => TopDone before num s r
  | .err => r = .err
  | .panic => r = .panic

/-- APPROX_TOP_COUNT over a group: more frequent values first. -/
def TopCount (num : Int) (rows : List Val) (r : Res (Option (List (Val × Int)))) : Prop :=
  TopRun (fun a b => b.2 < a.2) num (feed topCountStep [] rows) r

/-- function_aggregate.go:842-874 APPROX_TOP_SUM Step on (value, weight). -/
def topSumStep (s : List (Val × Val)) (r : Val × Val) : Res (List (Val × Val)) :=
  if unhashable r.1 then .panic
  else upsert r.1 r.2 (fun sum => if r.2.isNull then .ok sum else if sum.isNull then .ok r.2 else addVal sum r.2) s

/-- function_aggregate.go:887-896: greater sums first, NULL sums last. -/
def sumBefore (a b : Val × Val) : Prop :=
  a.2.isNull = false ∧ (b.2.isNull = true ∨ okTrue (cmp .gt a.2 b.2) = true)

/-- APPROX_TOP_SUM over a group. -/
def TopSum (num : Int) (rows : List (Val × Val)) (r : Res (Option (List (Val × Val)))) : Prop :=
  TopRun sumBefore num (feed topSumStep [] rows) r

/-! ## Variance and covariance -/

/-- The sum of a list. -/
def total (xs : List Rat) : Rat := xs.foldr (· + ·) 0

/-- stat.Mean -/
def mean (xs : List Rat) : Rat := total xs / xs.length

/-- The float64 quotient `s / d` as the client receives it: 0/0 is NaN, which SQLite stores
as NULL.  (The numerator is 0 whenever the divisor is, here.) -/
def quot (s : Rat) (d : Rat) : Option Rat := if d = 0 then none else some (s / d)

/-- The sum of products of deviations, gonum stat.covarianceMeans. -/
def devs (ps : List (Rat × Rat)) : Rat :=
  let xu := mean (ps.map (·.1))
  let yu := mean (ps.map (·.2))
  total (ps.map fun p => (p.1 - xu) * (p.2 - yu))

/-- stat.Covariance: divides by `n - 1`. -/
def covariance (ps : List (Rat × Rat)) : Option Rat := quot (devs ps) ((ps.length : Rat) - 1)

/-- stat.Variance (stat.MeanVariance): divides by `n - 1`. -/
def variance (xs : List Rat) : Option Rat := quot (devs (xs.map fun x => (x, x))) ((xs.length : Rat) - 1)

/-- stat.PopMeanVariance: divides by `n`. -/
def popVariance (xs : List Rat) : Option Rat := quot (devs (xs.map fun x => (x, x))) xs.length

/-- function_aggregate.go:569-584 and 598-613 Step: rows with a NULL are skipped. -/
def pairs : List (Option Rat × Option Rat) → List (Rat × Rat)
  | [] => []
  | (some x, some y) :: rs => (x, y) :: pairs rs
  | _ :: rs => pairs rs

/-- function_aggregate.go:586-591 COVAR_POP Done. -/
def covarPop (rows : List (Option Rat × Option Rat)) : Option Rat :=
  if pairs rows = [] then none else covariance (pairs rows)

/-- function_aggregate.go:615-620 COVAR_SAMP Done. -/
def covarSamp (rows : List (Option Rat × Option Rat)) : Option Rat :=
  if pairs rows = [] then none else covariance (pairs rows)

/-- function_aggregate.go:675-693 VAR_POP. -/
def varPop (rows : List (Option Rat)) : Option Rat :=
  if rows.filterMap id = [] then none else popVariance (rows.filterMap id)

/-- function_aggregate.go:699-718 VAR_SAMP, also VARIANCE. -/
def varSamp (rows : List (Option Rat)) : Option Rat :=
  if rows.filterMap id = [] then none else variance (rows.filterMap id)

/-! ## HyperLogLog sketches -/

/-- The sketch library: a sketch is the precision and the hashes added to it; `card` is its
estimate.  `hash` is murmur3 of the text or bytes of a value. -/
structure Hll where
  hash : Val → Nat
  card : Nat → List Nat → Int
  /-- A sketch has no memory of order and repetition. -/
  card_set : ∀ p l l', (∀ h, h ∈ l ↔ h ∈ l') → card p l = card p l'

/-- A sketch. -/
abbrev Sketch := Nat × List Nat

/-- function_aggregate.go:918-955 HLL_COUNT.INIT Step: no case of the type switch applies to
nil, which leaves the hash at 0. -/
def initStep (H : Hll) (precision : Nat) (s : Option Sketch) (v : Val) : Option Sketch :=
  let s := s.getD (precision, [])
  some (s.1, s.2 ++ [if v.isNull then 0 else H.hash v])

/-- function_aggregate.go:957-962 HLL_COUNT.INIT over a group. -/
def hllInit (H : Hll) (precision : Nat) (rows : List Val) : Option Sketch :=
  rows.foldl (initStep H precision) none

/-- function_bind.go:3574-3614, function_aggregate.go:968-979, 992-1003: MERGE and MERGE_PARTIAL Step, on
sketches of one precision. -/
def mergeStep (s : Option Sketch) (v : Option Sketch) : Option Sketch :=
  match v, s with
  | none, s => s
  | some h, none => some h
  | some h, some t => some (t.1, t.2 ++ h.2)

/-- function_aggregate.go:1005-1010 HLL_COUNT.MERGE_PARTIAL over a group. -/
def hllMergePartial (sketches : List (Option Sketch)) : Option Sketch := sketches.foldl mergeStep none

/-- function_aggregate.go:981-986 HLL_COUNT.MERGE over a group. -/
def hllMerge (H : Hll) (sketches : List (Option Sketch)) : Int :=
  match sketches.foldl mergeStep none with
  | none => 0
  | some s => H.card s.1 s.2

/-- function_bind.go:3616-3625, function_aggregate.go:1012-1018 HLL_COUNT.EXTRACT. -/
def hllExtract (H : Hll) (s : Option Sketch) : Option Int := s.map fun s => H.card s.1 s.2

end Verif.Approx
