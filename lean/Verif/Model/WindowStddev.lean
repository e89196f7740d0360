import Verif.Model.Corr
import Verif.Model.WindowAgg

/-! # STDDEV_POP, STDDEV_SAMP and CORR as analytic functions (internal/function_window.go) -/

namespace Verif.WindowAgg

open Go Verif.Val Verif.Window Verif.Aggregate

/-- function_window.go:1201-1223 WINDOW_STDDEV_POP (`pop`) and 1232-1253 WINDOW_STDDEV_SAMP, also STDDEV. -/
def winStddev (pop : Bool) (S : Sorter) (text : Val → Res (List Char)) (u : FrameUnit) (b e : Boundary) (rows : List WRow)
    (rowId : Int) : Res (Option Approx.Root) :=
  (done S text u b e rows rowId).bind fun r => match r with
    | none => .ok none
    | some (sorted, start, stop) =>
      if sorted.length < 2 then .ok none
      else (slice sorted start stop).bind fun qs => (floats (qs.map fun q => q.2.value)).bind fun xs =>
        .ok (if xs = [] then none else (if pop then Approx.popVariance xs else Approx.variance xs).map Approx.Root.mk)

/-- function_window.go:1053-1096 WINDOW_CORR: stat.Correlation. -/
def winCorr (S : Sorter) (text : Val → Res (List Char)) (u : FrameUnit) (b e : Boundary) (rows : List PRow)
    (rowId : Int) : Res (Option Approx.Root) := winPair Approx.correlation S text u b e rows rowId

end Verif.WindowAgg
