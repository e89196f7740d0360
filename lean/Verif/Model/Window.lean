import Verif.Go.Sort
import Verif.Model.Aggregate

/-!
# Analytic (window) functions
(internal/function_window_option.go, internal/function_window.go,
internal/formatter.go:353-404 and 1160-1195)

For every input row the formatter evaluates
`(SELECT fn(args, options…, rowid(row_id)) FROM input)`: the aggregator is fed all
rows of the input, in input order, with the number of the current row, and `Done`
then picks the partition, sorts it and computes the frame.

Simplifications: offsets and indices are unbounded integers (Go `int`); the check
that all rows agree on the frame options, which are constants of the query, is
omitted; every row reaches `agg.Step` (CORR, not modelled, and COVAR, in Model/WindowAgg.lean, skip rows).
-/

namespace Verif.Window

open Go Verif.Val Verif.Aggregate

/-- function_window_option.go:332-335 and 268-275: what one row contributes.  `keys` are the
ORDER BY values as `WINDOW_ORDER_BY` encoded and `UnmarshalJSON` decoded them. -/
structure WRow where
  parts : List Val
  keys : List OrderKey
  value : Val

/-- function_window_option.go:80-86 -/
inductive FrameUnit where
  | none | rows | range
  deriving DecidableEq

/-- function_window_option.go:88-102 -/
inductive Boundary where
  | unboundedPreceding
  | preceding (n : Int)
  | current
  | following (n : Int)
  | unboundedFollowing
  deriving DecidableEq

/-- function_window_option.go:230-266: the JSON trip of an ORDER BY value.
`EncodeValue` leaves INT64 and BOOL as they are, so they become JSON numbers and come
back as float64; other types are encoded texts and come back unchanged. -/
def winKey : Val → Val
  | .int i => .int (f64 i)
  | v => v

/-- function_window_option.go:277-287 `(*WindowFuncStatus).Partition`: the texts
joined with an underscore.  A NULL partition value is a nil dereference. -/
def partitionTexts (text : Val → Res (List Char)) : List Val → Res (List (List Char))
  | [] => .ok []
  | p :: ps => if p.isNull then .panic else
      (text p).bind fun t => (partitionTexts text ps).bind fun ts => .ok (t :: ts)

/-- The partition key of a row. -/
def partitionKey (text : Val → Res (List Char)) (ps : List Val) : Res (List Char) :=
  (partitionTexts text ps).bind fun ts => .ok (join ['_'] ts)

/-- function_window_option.go:386-396: the partition key of every row, in order. -/
def allKeys (text : Val → Res (List Char)) : List WRow → Res (List (List Char))
  | [] => .ok []
  | r :: rs => (partitionKey text r.parts).bind fun k => (allKeys text rs).bind fun ks => .ok (k :: ks)

/-- function_window_option.go:409-437: `less` of the sort in `Done`; NULL first in
either direction. -/
def lessW : List Bool → List Val → List Val → Bool
  | asc :: fs, k :: ks, l :: ls =>
    if k.isNull then true
    else if l.isNull then false
    else if okTrue (cmp .eq k l) then lessW fs ks ls
    else if asc then okTrue (cmp .lt k l) else okTrue (cmp .gt k l)
  | _, _, _ => false

/-- A row with its position in the input: Go compares the row pointers. -/
abbrev IRow := Nat × WRow

/-- The comparison of two rows; the directions are those of `sortedValues[0]`, the
same for all rows. -/
def lessRow (a b : IRow) : Bool :=
  lessW (a.2.keys.map OrderKey.isAsc) (a.2.keys.map OrderKey.value) (b.2.keys.map OrderKey.value)

/-- Rows paired with their positions. -/
def index (rows : List WRow) : List IRow := rows.zipIdx.map fun p => (p.2, p.1)

/-- function_window_option.go:469-478 `FilteredValues`: the rows of the current row's
partition (all rows if there is no PARTITION BY). -/
def partitionOf (text : Val → Res (List Char)) (rows : List WRow) (cur : Nat) : Res (List IRow) :=
  if rows.all (fun r => r.parts.isEmpty) then .ok (index rows)
  else (allKeys text rows).bind fun ks =>
    match ks[cur]? with
    | none => .panic
    | some k => .ok (((index rows).zip ks).filterMap fun p => if p.2 = k then some p.1 else none)

/-- function_window_option.go:515-538 `currentIndexByRows`: the position of the current
row among the sorted ones. -/
def currentIndex (sorted : List IRow) (cur : Nat) : Res Int :=
  match sorted.findIdx? (fun r => r.1 = cur) with
  | some i => .ok i
  | none => .err

/-- function_window_option.go:491-513 getIndexFromBoundaryByRows. -/
def rowsIndex (sorted : List IRow) (cur : Nat) : Boundary → Res Int
  | .unboundedPreceding => .ok 0
  | .current => currentIndex sorted cur
  | .unboundedFollowing => .ok (sorted.length - 1)
  | .preceding n => (currentIndex sorted cur).bind fun i => .ok (i - n)
  | .following n => (currentIndex sorted cur).bind fun i => .ok (i + n)

/-- The last ORDER BY value of a row, `none` without ORDER BY. -/
def lastKey (r : WRow) : Option Val := r.keys.getLast?.map OrderKey.value

/-- function_window_option.go:597-614 lookupMinIndexFromRangeValue, scanning from the
last row to the first; `i` counts the rows before the part still to scan. -/
def lookupMin (v : Val) : Nat → List IRow → Res Int
  | _, [] => .ok (-1)
  | i, r :: rs => (lookupMin v (i + 1) rs).bind fun m =>
    match lastKey r.2 with
    | none => .ok m
    | some k => (cmp .lte v k).bind fun c => .ok (if c then (i : Int) else m)

/-- function_window_option.go:616-633 lookupMaxIndexFromRangeValue. -/
def lookupMax (v : Val) : Nat → Int → List IRow → Res Int
  | _, m, [] => .ok m
  | i, m, r :: rs => match lastKey r.2 with
    | none => lookupMax v (i + 1) m rs
    | some k => (cmp .gte v k).bind fun c => lookupMax v (i + 1) (if c then (i : Int) else m) rs

/-- `value.Add(IntValue(n))` on a float64 key that is an integer.  (A NUMERIC key is changed by this; see
Model/Numeric.lean.) -/
def addKey (v : Val) (n : Int) : Res Val :=
  match v with
  | .null => .panic
  | .int a => .ok (.int (f64 (a + f64 n)))
  | _ => .err

/-- function_window_option.go:540-595 getIndexFromBoundaryByRange. -/
def rangeIndex (sorted : List IRow) (curRow : WRow) : Boundary → Res Int
  | .unboundedPreceding => .ok 0
  | .unboundedFollowing => .ok (sorted.length - 1)
  | .current => match lastKey curRow with
    | none => .err
    | some v => lookupMax v 0 (-1) sorted
  | .preceding n => match lastKey curRow with
    | none => .err
    | some v => (addKey v (-n)).bind fun w => lookupMin w 0 sorted
  | .following n => match lastKey curRow with
    | none => .err
    | some v => (addKey v n).bind fun w => lookupMax w 0 (-1) sorted

/-- function_window_option.go:480-489 getIndexFromBoundary. -/
def boundaryIndex (u : FrameUnit) (sorted : List IRow) (cur : Nat) (curRow : WRow) (b : Boundary) : Res Int :=
  match u with
  | .rows => rowsIndex sorted cur b
  | .range => rangeIndex sorted curRow b
  | .none => currentIndex sorted cur

/-- function_window_option.go:401-459 Done, up to the callback: the sorted partition
and the two clamped indices; `none` when the callback is not called. -/
def done (S : Sorter) (text : Val → Res (List Char)) (u : FrameUnit) (b e : Boundary) (rows : List WRow) (rowId : Int) :
    Res (Option (List IRow × Int × Int)) :=
  if rowId ≤ 0 then .err
  else match rows[(rowId - 1).toNat]? with
    | none => .panic
    | some curRow =>
      (partitionOf text rows (rowId - 1).toNat).bind fun part =>
      let sorted := S.sort lessRow part
      (boundaryIndex u sorted (rowId - 1).toNat curRow b).bind fun start =>
      (boundaryIndex u sorted (rowId - 1).toNat curRow e).bind fun stop =>
      if start ≥ sorted.length ∨ stop < 0 then .ok none
      else .ok (some (sorted, (if start < 0 then 0 else start), (if stop ≥ sorted.length then sorted.length - 1 else stop)))

/-- The Go slice expression `values[start : end+1]`. -/
def slice (sorted : List IRow) (start stop : Int) : Res (List IRow) :=
  if start < 0 ∨ stop + 1 < start ∨ stop + 1 > sorted.length then .panic
  else .ok ((sorted.drop start.toNat).take (stop + 1 - start).toNat)

/-- The frame: the rows an aggregate loops over (`for _, v := range values[start:end+1]`). -/
def frame (S : Sorter) (text : Val → Res (List Char)) (u : FrameUnit) (b e : Boundary) (rows : List WRow) (rowId : Int) : Res (List IRow) :=
  (done S text u b e rows rowId).bind fun r =>
    match r with
    | none => .ok []
    | some (sorted, start, stop) => slice sorted start stop

/-- The values of the frame. -/
def frameValues (S : Sorter) (text : Val → Res (List Char)) (u : FrameUnit) (b e : Boundary) (rows : List WRow) (rowId : Int) : Res (List Val) :=
  (frame S text u b e rows rowId).bind fun rs => .ok (rs.map fun r => r.2.value)

/-- function_window.go:147-172 WINDOW_COUNT, 228-253 WINDOW_MAX, 263-288 WINDOW_MIN,
347-379 WINDOW_SUM, without DISTINCT: the same loops as the plain aggregates. -/
def winAgg (f : Fn) (S : Sorter) (text : Val → Res (List Char)) (u : FrameUnit) (b e : Boundary) (rows : List WRow) (rowId : Int) : Res Val :=
  (frameValues S text u b e rows rowId).bind fun vs => run f vs

/-! ## Numbering functions: no frame, so both indices are the current one -/

/-- The index of the current row, as the numbering functions see it (`start == end`). -/
def position (S : Sorter) (text : Val → Res (List Char)) (rows : List WRow) (rowId : Int) : Res (Option (List IRow × Int)) :=
  (done S text .none .current .current rows rowId).bind fun r =>
    .ok (r.map fun p => (p.1, p.2.1))

/-- function_window.go:1039-1048 WINDOW_ROW_NUMBER. -/
def rowNumber (S : Sorter) (text : Val → Res (List Char)) (rows : List WRow) (rowId : Int) : Res Val :=
  (position S text rows rowId).bind fun r => .ok (match r with
    | none => .null
    | some (_, i) => .int (i + 1))

/-- function_window.go:783-815: the loop of WINDOW_RANK over the last ORDER BY values;
state rank, sameRankNum, maxValue. -/
def rankLoop (asc : Bool) : Int × Int × Int → List Val → Res (Int × Int × Int)
  | s, [] => .ok s
  | (rank, same, mx), v :: vs => (toInt64 v).bind fun cur =>
    if (if asc then mx < cur else mx > cur) then rankLoop asc (rank + same, 1, cur) vs
    else rankLoop asc (rank, same + 1, mx) vs

/-- function_window.go:857-885: the loop of WINDOW_DENSE_RANK. -/
def denseLoop (asc : Bool) : Int × Int → List Val → Res (Int × Int)
  | s, [] => .ok s
  | (rank, mx), v :: vs => (toInt64 v).bind fun cur =>
    if (if asc then mx < cur else mx > cur) then denseLoop asc (rank + 1, cur) vs
    else denseLoop asc (rank, mx) vs

/-- `value.OrderBy[len(value.OrderBy)-1].Value` of each row; a row without ORDER BY is an
index panic. -/
def lastKeys : List IRow → Res (List Val)
  | [] => .ok []
  | r :: rs => match lastKey r.2 with
    | none => .panic
    | some k => (lastKeys rs).bind fun ks => .ok (k :: ks)

/-- The direction of the first sorted row's last key. -/
def lastAsc (sorted : List IRow) : Bool :=
  (sorted.head?.bind fun r => r.2.keys.getLast?.map OrderKey.isAsc).getD true

/-- The start value of `maxValue`. -/
def rankInit (asc : Bool) : Int := if asc then 0 else 9223372036854775807

/-- function_window.go:757-822 WINDOW_RANK. -/
def rank (S : Sorter) (text : Val → Res (List Char)) (rows : List WRow) (rowId : Int) : Res Val :=
  (position S text rows rowId).bind fun r => match r with
    | none => .ok .null
    | some (sorted, i) => (lastKeys sorted).bind fun ks =>
      let asc := lastAsc sorted
      (rankLoop asc (0, 1, rankInit asc) (ks.take (i.toNat + 1))).bind fun s => .ok (.int s.1)

/-- function_window.go:831-889 WINDOW_DENSE_RANK. -/
def denseRank (S : Sorter) (text : Val → Res (List Char)) (rows : List WRow) (rowId : Int) : Res Val :=
  (position S text rows rowId).bind fun r => match r with
    | none => .ok .null
    | some (sorted, i) => (lastKeys sorted).bind fun ks =>
      let asc := lastAsc sorted
      (denseLoop asc (0, rankInit asc) (ks.take (i.toNat + 1))).bind fun s => .ok (.int s.1)

/-- function_window.go:1016-1023: `normalizeValues` from index `i` on, `n` rows left. -/
def ntileValues : (n : Nat) → (i dup : Int) → List Int
  | 0, _, _ => []
  | n + 1, i, dup => if dup > 0 then (i + 1) :: (i + 1) :: ntileValues n (i + 1) (dup - 1)
      else (i + 1) :: ntileValues n (i + 1) dup

/-- function_window.go:1005-1030 WINDOW_NTILE: the bucket of the row at position `start`
in a partition of `len` rows; function_bind.go:4104-4113 rejects `num ≤ 0`. -/
def ntileAt (len : Nat) (num : Int) (start : Nat) : Res Int :=
  if num ≤ 0 then .err
  else
    let dup := (len : Int).tdiv num - 1 + (if (len : Int).tmod num > 0 then 1 else 0)
    match (ntileValues len 0 dup)[start]? with
    | some v => .ok v
    | none => .panic

/-! ## Navigation functions -/

/-- The rows a navigation function keeps: function_window.go:395-403. -/
def navFilter (ignoreNulls : Bool) (vs : List Val) : List Val :=
  if ignoreNulls then vs.filter (fun v => !v.isNull) else vs

/-- function_window.go:389-413 WINDOW_FIRST_VALUE on the frame. -/
def firstValue (ignoreNulls : Bool) (vs : List Val) : Val := ((navFilter ignoreNulls vs).head?).getD .null

/-- function_window.go:422-446 WINDOW_LAST_VALUE on the frame. -/
def lastValue (ignoreNulls : Bool) (vs : List Val) : Val := ((navFilter ignoreNulls vs).getLast?).getD .null

/-- function_window.go:460-487 WINDOW_NTH_VALUE on the frame. -/
def nthValue (ignoreNulls : Bool) (num : Int) (vs : List Val) : Res Val :=
  let fs := navFilter ignoreNulls vs
  if fs = [] then .ok .null
  else if 0 ≤ num ∧ num < fs.length then
    if num - 1 < 0 then .panic else .ok ((fs[(num - 1).toNat]?).getD .null)
  else .ok .null

/-- function_window.go:503-521 WINDOW_LEAD at index `start` of the sorted partition;
function_bind.go:3957-3974 rejects a negative offset. -/
def lead (offset : Int) (dflt : Val) (values : List Val) (start : Nat) : Res Val :=
  if offset < 0 then .err
  else
    let v := if start + offset ≥ values.length then Val.null else (values[(start + offset).toNat]?).getD .null
    .ok (if v.isNull then dflt else v)

/-- function_window.go:537-555 WINDOW_LAG. -/
def lag (offset : Int) (dflt : Val) (values : List Val) (start : Nat) : Res Val :=
  if offset < 0 then .err
  else
    let v := if start - offset < 0 then Val.null else (values[(start - offset).toNat]?).getD .null
    .ok (if v.isNull then dflt else v)

/-- The null handling modifier of an analytic function call. -/
inductive Nulls where
  | unspecified | ignore | respect
  deriving DecidableEq

/-- formatter.go:368-373: IGNORE NULLS is passed unless the query says RESPECT NULLS. -/
def ignores : Nulls → Bool
  | .respect => false
  | _ => true

/-- FIRST_VALUE(x [IGNORE|RESPECT NULLS]) OVER (… frame), for the row `rowId`. -/
def winFirst (n : Nulls) (S : Sorter) (text : Val → Res (List Char)) (u : FrameUnit) (b e : Boundary) (rows : List WRow)
    (rowId : Int) : Res Val :=
  (frameValues S text u b e rows rowId).bind fun vs => .ok (firstValue (ignores n) vs)

/-- LAST_VALUE. -/
def winLast (n : Nulls) (S : Sorter) (text : Val → Res (List Char)) (u : FrameUnit) (b e : Boundary) (rows : List WRow)
    (rowId : Int) : Res Val :=
  (frameValues S text u b e rows rowId).bind fun vs => .ok (lastValue (ignores n) vs)

/-- NTH_VALUE(x, num). -/
def winNth (n : Nulls) (num : Int) (S : Sorter) (text : Val → Res (List Char)) (u : FrameUnit) (b e : Boundary) (rows : List WRow)
    (rowId : Int) : Res Val :=
  (frameValues S text u b e rows rowId).bind fun vs => nthValue (ignores n) num vs

/-- LEAD(x, offset, default) OVER (…): no frame. -/
def winLead (offset : Int) (dflt : Val) (S : Sorter) (text : Val → Res (List Char)) (rows : List WRow) (rowId : Int) : Res Val :=
  (position S text rows rowId).bind fun r => match r with
    | none => .ok dflt
    | some (sorted, i) => lead offset dflt (sorted.map fun r => r.2.value) i.toNat

/-- LAG(x, offset, default) OVER (…). -/
def winLag (offset : Int) (dflt : Val) (S : Sorter) (text : Val → Res (List Char)) (rows : List WRow) (rowId : Int) : Res Val :=
  (position S text rows rowId).bind fun r => match r with
    | none => .ok dflt
    | some (sorted, i) => lag offset dflt (sorted.map fun r => r.2.value) i.toNat

/-- NTILE(num) OVER (…). -/
def winNtile (num : Int) (S : Sorter) (text : Val → Res (List Char)) (rows : List WRow) (rowId : Int) : Res Val :=
  (position S text rows rowId).bind fun r => match r with
    | none => .ok (.int 0)
    | some (sorted, i) => (ntileAt sorted.length num i.toNat).bind fun v => .ok (.int v)

end Verif.Window
