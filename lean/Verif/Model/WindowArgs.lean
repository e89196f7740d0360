import Verif.Model.Window

/-!
# The arguments of a call of a window function
(internal/function_window_option.go:24-76, 289-328, internal/function_bind.go:127-139, internal/formatter.go:354-404)

The formatter appends the options of the call to its arguments, as texts in JSON; `Step` takes every argument whose text is that of an
option for an option.
-/

namespace Verif.Window

open Go Verif.Val Verif.Aggregate

/-- A decoded option, function_window_option.go:16-23.  A NULL partition value makes the type assertion of line 316 panic: that case is
in `Window` (see `C45_null`) and not here. -/
inductive WinOpt where
  | frameUnit (u : FrameUnit)
  | start (b : Boundary)
  | stop (b : Boundary)
  | partition (v : Val)
  | rowid (i : Int)
  | orderBy (k : OrderKey)

/-- WindowFuncStatus, function_window_option.go:268-275. -/
structure Status where
  frameUnit : FrameUnit := .none
  start : Option Boundary := none
  stop : Option Boundary := none
  parts : List Val := []
  rowid : Int := 0
  keys : List OrderKey := []

/-- function_window_option.go:309-321: one option recorded. -/
def Status.set (s : Status) : WinOpt → Status
  | .frameUnit u => { s with frameUnit := u }
  | .start b => { s with start := some b }
  | .stop b => { s with stop := some b }
  | .partition v => { s with parts := s.parts ++ [v] }
  | .rowid i => { s with rowid := i }
  | .orderBy k => { s with keys := s.keys ++ [k] }

/-- function_window_option.go:289-328 parseWindowOptions.  `text` is `ToString`; `unmarshal` is `json.Unmarshal` into a
WindowFuncOption, `none` for a failure or for any other `type`. -/
def parseWindow (text : Val → Res (List Char)) (unmarshal : List Char → Option WinOpt) : List Val → List Val × Status → List Val × Status
  | [], acc => acc
  | a :: as, (vs, s) =>
    if a.isNull then parseWindow text unmarshal as (vs ++ [a], s)
    else match text a with
      | .ok t => match unmarshal t with
        | some x => parseWindow text unmarshal as (vs, s.set x)
        | none => parseWindow text unmarshal as (vs ++ [a], s)
      | _ => parseWindow text unmarshal as (vs ++ [a], s)

/-- function_bind.go:127-139 WindowAggregator.Step: the arguments of the function, the options of aggregates and those of windows. -/
def splitArgs (text : Val → Res (List Char)) (agg : List Char → Option OptArg) (win : List Char → Option WinOpt) (args : List Val) :
    List Val × AggOpt × Status :=
  let r := parseOptions text agg args ([], {})
  let q := parseWindow text win r.1 ([], {})
  (q.1, r.2, q.2)

/-- `fn.Step(args[0], windowOpt, agg)` of the functions of one argument (function_bind.go:3627-3900): what the row contributes. -/
def oneArg (r : List Val × AggOpt × Status) : Res WRow :=
  match r.1 with
  | v :: _ => .ok ⟨r.2.2.parts, r.2.2.keys, v⟩
  | [] => .panic

end Verif.Window
