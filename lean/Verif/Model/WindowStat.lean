import Verif.Model.Window
import Verif.Model.Float

/-!
# CUME_DIST, PERCENT_RANK, AVG, PERCENTILE_CONT and PERCENTILE_DISC as analytic functions
(internal/function_window.go)

The results are FLOAT64, see Go/F64.lean.  Simplifications: AVG is modelled on INT64
arguments; the percentile functions are modelled from the point where `Done` hands them
the values of the partition (`values`, an arbitrary order because they take no ORDER BY).
-/

namespace Verif.WindowStat

open Go Verif.Val Verif.Window Verif.Aggregate

/-- function_window.go:979-993 WINDOW_CUME_DIST -/
def cumeDist (S : Sorter) (text : Val → Res (List Char)) (rows : List WRow) (rowId : Int) : Res F64 :=
  (position S text rows rowId).bind fun r => match r with
    | none => .ok (.fin false 0)
    | some (sorted, i) =>
      if sorted.length = 0 then .ok (.fin false 0)
      else .ok ((F64.ofInt (i + 1)).div (F64.ofInt sorted.length))

/-- function_window.go:898-970 WINDOW_PERCENT_RANK: the loop is that of RANK. -/
def percentRank (S : Sorter) (text : Val → Res (List Char)) (rows : List WRow) (rowId : Int) : Res F64 :=
  (position S text rows rowId).bind fun r => match r with
    | none => .ok ((F64.ofInt (0 - 1)).div (F64.ofInt (0 - 1)))
    | some (sorted, i) => (lastKeys sorted).bind fun ks =>
      let asc := lastAsc sorted
      (rankLoop asc (0, 1, rankInit asc) (ks.take (i.toNat + 1))).bind fun s =>
        if ks.length = 1 then .ok (.fin false 0)
        else .ok ((F64.ofInt (s.1 - 1)).div (F64.ofInt (ks.length - 1)))

/-- `ToFloat64` of the argument, value.go:132-134 for INT64. -/
def avgArg : Val → Res F64
  | .null => .panic
  | .int i => .ok (F64.ofInt i)
  | _ => .err

/-- function_window.go:100-125: the loop of WINDOW_AVG over the frame; state: the DISTINCT texts
seen so far and the sum (nil before the first value). -/
def avgLoop (distinct : Bool) (text : Val → Res (List Char)) : List (List Char) → Option F64 → List Val → Res (Option F64)
  | _, sum, [] => .ok sum
  | seen, sum, v :: vs =>
    if v.isNull then avgLoop distinct text seen sum vs
    else
      let use (seen : List (List Char)) : Res (Option F64) :=
        (avgArg v).bind fun x => match sum with
          | none => avgLoop distinct text seen (some x) vs
          | some s => (Float.add s x).bind fun t => avgLoop distinct text seen (some t) vs
      if distinct then (text v).bind fun k => if k ∈ seen then avgLoop distinct text seen sum vs else use (k :: seen)
      else use seen

/-- function_window.go:94-137 WINDOW_AVG on the frame `vs`: the divisor is the length of the frame. -/
def avgFrame (distinct : Bool) (text : Val → Res (List Char)) (vs : List Val) : Res (Option F64) :=
  (avgLoop distinct text [] none vs).bind fun sum => match sum with
    | none => .ok none
    | some s => (Float.div s (F64.ofInt vs.length)).bind fun r => .ok (some r)

/-- AVG([DISTINCT] x) OVER (… frame) for the row `rowId`. -/
def winAvg (distinct : Bool) (S : Sorter) (text : Val → Res (List Char)) (u : FrameUnit) (b e : Boundary) (rows : List WRow)
    (rowId : Int) : Res (Option F64) :=
  (frameValues S text u b e rows rowId).bind fun vs => avgFrame distinct text vs

/-- function_window.go:589-601: the values, and what `ToInt64` makes of them. A NULL that is not
ignored is a method call on nil. -/
def contValues (ignoreNulls : Bool) : List (Option F64) → Res (List Int × List F64)
  | [] => .ok ([], [])
  | none :: vs => if ignoreNulls then contValues ignoreNulls vs else .panic
  | some x :: vs => (Float.toInt64 x).bind fun i => (contValues ignoreNulls vs).bind fun r => .ok (i :: r.1, x :: r.2)

/-- The Go index expression `xs[i]`. -/
def at? {α : Type} (xs : List α) (i : Int) : Res α :=
  if i < 0 then .panic else match xs[i.toNat]? with
    | some x => .ok x
    | none => .panic

/-- function_window.go:621-638: the loop for `maxValue`. -/
def maxLoop (m : F64) : List F64 → F64
  | [] => m
  | x :: xs => maxLoop (if Float.gt x m then x else m) xs

/-- function_window.go:569-673 WINDOW_PERCENTILE_CONT for a FLOAT64 percentile and the FLOAT64
values of the partition. -/
def percentileCont (S : Sorter) (ignoreNulls : Bool) (p : F64) (values : List (Option F64)) : Res (Option F64) :=
  if Float.lt p (.fin false 0) then .err
  else if Float.gt p (F64.ofInt 1) then .err
  else (contValues ignoreNulls values).bind fun r =>
    match r.2 with
    | [] => .ok none
    | x :: xs =>
      let ints := S.sort (fun a b => decide (a < b)) r.1
      let rowNumber := (F64.ofInt 1).add (p.mul (F64.ofInt (ints.length - 1)))
      let floorRow := rowNumber.floor
      let ceilRow := rowNumber.ceil
      (at? ints (floorRow.sub (F64.ofInt 1)).toInt64).bind fun a =>
      (at? ints (ceilRow.sub (F64.ofInt 1)).toInt64).bind fun b =>
      if Float.eq (maxLoop x (x :: xs)) (F64.ofInt 0) then .ok (some (.fin false 0))
      else if ceilRow.eq floorRow && ceilRow.eq rowNumber then .ok (some (F64.ofInt a))
      else (Float.mul (F64.ofInt b) (rowNumber.sub floorRow)).bind fun left =>
        (Float.mul (F64.ofInt a) (ceilRow.sub rowNumber)).bind fun right =>
        (Float.add left right).bind fun s => .ok (some s)

/-- function_window.go:714-723: `less` of PERCENTILE_DISC. -/
def lessDisc (a b : Val) : Bool :=
  if a.isNull then true else if b.isNull then false else okTrue (cmp .lt a b)

/-- function_window.go:689-750 WINDOW_PERCENTILE_DISC for a FLOAT64 percentile. -/
def percentileDisc (S : Sorter) (ignoreNulls : Bool) (p : F64) (values : List Val) : Res Val :=
  if Float.lt p (.fin false 0) then .err
  else if Float.gt p (F64.ofInt 1) then .err
  else
    let sorted := S.sort lessDisc (navFilter ignoreNulls values)
    (Float.mul p (F64.ofInt sorted.length)).bind fun pick =>
    if Float.eq pick (F64.ofInt 0) then at? sorted 0
    else
      let i := if (F64.ofInt pick.toInt64).lt pick then pick.toInt64 + 1 else pick.toInt64
      if i - 1 > 0 then at? sorted (i - 1) else .ok .null

end Verif.WindowStat
