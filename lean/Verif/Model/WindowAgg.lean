import Verif.Model.Window
import Verif.Model.Approx

/-!
# COUNT, COUNTIF, SUM, STRING_AGG, ARRAY_AGG, ANY_VALUE, VAR and COVAR as analytic functions
(internal/function_window.go)

Simplifications: the delimiter of STRING_AGG, a constant of the query, is given once; the float64
arguments of the variance functions are exact numbers (as in Model/Approx.lean).
-/

namespace Verif.WindowAgg

open Go Verif.Val Verif.Aggregate Verif.Window

/-- function_window.go:151-166, 309-331 and 350-374: the loop over the frame that COUNT, STRING_AGG and SUM share.
`seen` is `valueMap`; `body` is what the function does with a value it uses. -/
def loop {σ : Type} (distinct : Bool) (text : Val → Res (List Char)) (body : σ → Val → Res σ) :
    List (List Char) → σ → List Val → Res σ
  | _, s, [] => .ok s
  | seen, s, v :: vs =>
    if v.isNull then loop distinct text body seen s vs
    else if distinct then (text v).bind fun k =>
      if k ∈ seen then loop distinct text body seen s vs
      else (body s v).bind fun s' => loop distinct text body (k :: seen) s' vs
    else (body s v).bind fun s' => loop distinct text body seen s' vs

/-- function_window.go:147-172 WINDOW_COUNT on the frame. -/
def countFrame (distinct : Bool) (text : Val → Res (List Char)) (vs : List Val) : Res Val :=
  (loop distinct text (fun n _ => .ok (wrap64 (n + 1))) [] (0 : Int) vs).bind fun n => .ok (.int n)

/-- function_window.go:181-190 WINDOW_COUNT_STAR on the frame. -/
def countStarFrame (vs : List Val) : Res Val := .ok (.int (wrap64 vs.length))

/-- function_window.go:199-219 WINDOW_COUNTIF: the loop. -/
def countIfLoop : Int → List Val → Res Int
  | n, [] => .ok n
  | n, v :: vs => if v.isNull then countIfLoop n vs
    else (toBool v).bind fun c => countIfLoop (if c then wrap64 (n + 1) else n) vs

/-- function_window.go:199-219 WINDOW_COUNTIF on the frame. -/
def countIfFrame (vs : List Val) : Res Val := (countIfLoop 0 vs).bind fun n => .ok (.int n)

/-- function_window.go:347-379 WINDOW_SUM on the frame: `sum` is nil before the first value. -/
def sumFrame (distinct : Bool) (text : Val → Res (List Char)) (vs : List Val) : Res Val :=
  loop distinct text (fun s v => if s.isNull then .ok v else addVal s v) [] .null vs

/-- function_bind.go:3743-3752 and function_window.go:296-302: the delimiter.  `none` if the call has no second
argument; a NULL one is a nil dereference; the empty one is replaced by a comma. -/
def delimiter (text : Val → Res (List Char)) : Option Val → Res (List Char)
  | none => .ok [',']
  | some d => if d.isNull then .panic else (text d).bind fun t => .ok (if t = [] then [','] else t)

/-- function_window.go:306-338 WINDOW_STRING_AGG on the frame. -/
def stringFrame (distinct : Bool) (text : Val → Res (List Char)) (delim : List Char) (vs : List Val) : Res Val :=
  (loop distinct text (fun s v => (text v).bind fun t => .ok (s ++ [t])) [] [] vs).bind fun ts =>
    .ok (if ts = [] then .null else .str (join delim ts))

/-- function_window.go:54-72: the loop of WINDOW_ARRAY_AGG over the frame. -/
def arrayLoop (ignoreNulls distinct : Bool) (text : Val → Res (List Char)) : List (List Char) → List Val → List Val → Res (List Val)
  | _, acc, [] => .ok acc
  | seen, acc, v :: vs =>
    if ignoreNulls && v.isNull then arrayLoop ignoreNulls distinct text seen acc vs
    else if distinct then
      if v.isNull then .panic
      else (text v).bind fun k =>
        if k ∈ seen then arrayLoop ignoreNulls distinct text seen acc vs
        else arrayLoop ignoreNulls distinct text (k :: seen) (acc ++ [v]) vs
    else arrayLoop ignoreNulls distinct text seen (acc ++ [v]) vs

/-- function_window.go:37-42 WINDOW_ARRAY_AGG Step over the whole input: a NULL argument is an error before
`agg.Step` evaluates the partition of the row. -/
def arraySteps (text : Val → Res (List Char)) : List WRow → Res Unit
  | [] => .ok ()
  | r :: rs => if r.value.isNull then .err else (partitionTexts text r.parts).bind fun _ => arraySteps text rs

/-- function_window.go:37-78 WINDOW_ARRAY_AGG.  Without a frame the result is an empty array. -/
def winArray (ignoreNulls distinct : Bool) (S : Sorter) (text : Val → Res (List Char)) (u : FrameUnit) (b e : Boundary)
    (rows : List WRow) (rowId : Int) : Res Val :=
  (arraySteps text rows).bind fun _ => (frameValues S text u b e rows rowId).bind fun vs =>
    (arrayLoop ignoreNulls distinct text [] [] vs).bind fun us => .ok (.arr us)

/-- function_window.go:20-32 WINDOW_ANY_VALUE: `values[start]`, whatever `end` is. -/
def winAny (S : Sorter) (text : Val → Res (List Char)) (u : FrameUnit) (b e : Boundary) (rows : List WRow) (rowId : Int) : Res Val :=
  (done S text u b e rows rowId).bind fun r => match r with
    | none => .ok .null
    | some (sorted, start, _) => match sorted[start.toNat]? with
      | some q => .ok q.2.value
      | none => .panic

/-- COUNT([DISTINCT] x) OVER (… frame) for the row `rowId`. -/
def winCount (distinct : Bool) (S : Sorter) (text : Val → Res (List Char)) (u : FrameUnit) (b e : Boundary) (rows : List WRow)
    (rowId : Int) : Res Val := (frameValues S text u b e rows rowId).bind (countFrame distinct text)

/-- COUNT(*) OVER (… frame). -/
def winCountStar (S : Sorter) (text : Val → Res (List Char)) (u : FrameUnit) (b e : Boundary) (rows : List WRow)
    (rowId : Int) : Res Val := (frameValues S text u b e rows rowId).bind countStarFrame

/-- COUNTIF(x) OVER (… frame). -/
def winCountIf (S : Sorter) (text : Val → Res (List Char)) (u : FrameUnit) (b e : Boundary) (rows : List WRow)
    (rowId : Int) : Res Val := (frameValues S text u b e rows rowId).bind countIfFrame

/-- SUM([DISTINCT] x) OVER (… frame). -/
def winSum (distinct : Bool) (S : Sorter) (text : Val → Res (List Char)) (u : FrameUnit) (b e : Boundary) (rows : List WRow)
    (rowId : Int) : Res Val := (frameValues S text u b e rows rowId).bind (sumFrame distinct text)

/-- STRING_AGG([DISTINCT] x[, delim]) OVER (… frame): the delimiter is evaluated with the first row. -/
def winString (distinct : Bool) (delim : Option Val) (S : Sorter) (text : Val → Res (List Char)) (u : FrameUnit) (b e : Boundary)
    (rows : List WRow) (rowId : Int) : Res Val :=
  (delimiter text delim).bind fun d => (frameValues S text u b e rows rowId).bind (stringFrame distinct text d)

/-! ## Variance and covariance -/

/-- `ToFloat64` of a number; a method call on nil panics. -/
def toRat : Val → Res Rat
  | .null => .panic
  | .int i => .ok i
  | .num r _ => .ok r
  | _ => .err

/-- The loop over the frame, function_window.go:1269-1275, 1300-1306. -/
def floats : List Val → Res (List Rat)
  | [] => .ok []
  | v :: vs => (toRat v).bind fun x => (floats vs).bind fun xs => .ok (x :: xs)

/-- function_window.go:1264-1286 WINDOW_VAR_POP (`pop`) and 1295-1316 WINDOW_VAR_SAMP: a partition of fewer than
two rows is not looked at. -/
def winVar (pop : Bool) (S : Sorter) (text : Val → Res (List Char)) (u : FrameUnit) (b e : Boundary) (rows : List WRow)
    (rowId : Int) : Res (Option Rat) :=
  (done S text u b e rows rowId).bind fun r => match r with
    | none => .ok none
    | some (sorted, start, stop) =>
      if sorted.length < 2 then .ok none
      else (slice sorted start stop).bind fun qs => (floats (qs.map fun q => q.2.value)).bind fun xs =>
        .ok (if xs = [] then none else if pop then Approx.popVariance xs else Approx.variance xs)

/-- A row of a function of two arguments; `value` is the first. -/
abbrev PRow := WRow × Val

/-- function_window.go:1101-1106, 1149-1154 Step: rows with a NULL never reach `agg.Step`. -/
def pairRows (rows : List PRow) : List WRow :=
  rows.filterMap fun r => if r.1.value.isNull || r.2.isNull then none else some { r.1 with value := .arr [r.1.value, r.2] }

/-- function_window.go:1118-1132: one pair. -/
def pairOf : Val → Res (Rat × Rat)
  | .arr [x, y] => (toRat x).bind fun a => (toRat y).bind fun b => .ok (a, b)
  | _ => .err

/-- function_window.go:1117-1134: the loop over the frame. -/
def pairFloats : List Val → Res (List (Rat × Rat))
  | [] => .ok []
  | v :: vs => (pairOf v).bind fun p => (pairFloats vs).bind fun ps => .ok (p :: ps)

/-- getIndexFromBoundary (function_window_option.go:480-613) when row `cur` may not exist: only the bounds that
depend on the current row read `Values[RowID-1]`. -/
def boundaryOf (u : FrameUnit) (sorted : List IRow) (rows : List WRow) (cur : Nat) (b : Boundary) : Res Int :=
  match u, b with
  | .rows, .unboundedPreceding => .ok 0
  | .range, .unboundedPreceding => .ok 0
  | .rows, .unboundedFollowing => .ok (sorted.length - 1)
  | .range, .unboundedFollowing => .ok (sorted.length - 1)
  | u, b => match rows[cur]? with
    | none => .panic
    | some r => boundaryIndex u sorted cur r b

/-- function_window_option.go:401-459 Done when `rows` are not all rows of the input.  Without any row `RowID` was
never set. -/
def doneSkip (S : Sorter) (text : Val → Res (List Char)) (u : FrameUnit) (b e : Boundary) (rows : List WRow) (rowId : Int) :
    Res (Option (List IRow × Int × Int)) :=
  if rows = [] ∨ rowId ≤ 0 then .err
  else
    (partitionOf text rows (rowId - 1).toNat).bind fun part =>
    let sorted := S.sort lessRow part
    (boundaryOf u sorted rows (rowId - 1).toNat b).bind fun start =>
    (boundaryOf u sorted rows (rowId - 1).toNat e).bind fun stop =>
    if start ≥ sorted.length ∨ stop < 0 then .ok none
    else .ok (some (sorted, (if start < 0 then 0 else start), (if stop ≥ sorted.length then sorted.length - 1 else stop)))

/-- function_window.go:1053-1096, 1101-1144 and 1149-1192: a function `stat` of the pairs of the frame. -/
def winPair {β} (stat : List (Rat × Rat) → Option β) (S : Sorter) (text : Val → Res (List Char)) (u : FrameUnit) (b e : Boundary) (rows : List PRow)
    (rowId : Int) : Res (Option β) :=
  (doneSkip S text u b e (pairRows rows) rowId).bind fun r => match r with
    | none => .ok none
    | some (sorted, start, stop) =>
      if sorted.length < 2 then .ok none
      else (slice sorted start stop).bind fun qs => (pairFloats (qs.map fun q => q.2.value)).bind fun ps =>
        .ok (if ps = [] then none else stat ps)

/-- function_window.go:1101-1144 WINDOW_COVAR_POP and 1149-1192 WINDOW_COVAR_SAMP: both are stat.Covariance. -/
def winCovar (S : Sorter) (text : Val → Res (List Char)) (u : FrameUnit) (b e : Boundary) (rows : List PRow)
    (rowId : Int) : Res (Option Rat) := winPair Approx.covariance S text u b e rows rowId

end Verif.WindowAgg
