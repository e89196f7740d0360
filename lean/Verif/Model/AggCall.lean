import Verif.Model.Aggregate
import Verif.Model.OrderBy

/-!
# Calls of aggregate functions with modifiers
(internal/formatter.go, AggregateFunctionCallNode)

`Model/Aggregate` starts with the options an aggregate function is given; here is which options the formatter makes of the
modifiers of a call.
-/

namespace Verif.AggCall

open Go Verif.Val Verif.Aggregate

/-- IGNORE NULLS and RESPECT NULLS (`NullHandlingModifier`). -/
inductive NullHandling where
  | unspecified | ignore | respect
  deriving DecidableEq, Repr

/-- HAVING MAX and HAVING MIN (`HavingModifier`). -/
inductive Extreme where
  | max | min
  deriving DecidableEq, Repr

/-- The modifiers of a resolved call; its arguments and the columns it sorts by are in the rows. -/
structure Call where
  orderBy : List OrderBy.Item := []
  distinct : Bool := false
  limit : Option Int := none
  nulls : NullHandling := .unspecified
  having : Option Extreme := none

/-- A row of a group: the arguments, the ORDER BY columns and the expression of HAVING MAX or MIN. -/
structure GRow where
  args : List Val
  keys : List Val := []
  having : Option Int := none

/-- formatter.go:321-351: the option functions written after the arguments, with what they yield for a row
(function_aggregate_option.go:51-97).  The order of NULLs of an ORDER BY item and HAVING MAX or MIN are not looked at.
`jsonKey` is the way of a key through the text of the option. -/
def options (ratText : Rat → List Char) (c : Call) (r : GRow) : List OptArg :=
  List.zipWith (fun (i : OrderBy.Item) k => .orderBy ⟨jsonKey ratText k, !i.desc⟩) c.orderBy r.keys
  ++ (if c.distinct then [.distinct] else [])
  ++ (match c.limit with | some n => [.limit n] | none => [])
  ++ (match c.nulls with | .ignore => [.ignoreNulls] | _ => [])

/-- The arguments and the options which `Step` is given for a row. -/
def arg (ratText : Rat → List Char) (c : Call) (r : GRow) : List Val × AggOpt :=
  (r.args, (options ratText c r).foldl AggOpt.set {})

/-- function_bind.go:3165-3350: an aggregate of one argument, `args[0]`. -/
def one (f : Fn) (s : Val) (vs : List Val) (_ : AggOpt) : Res Val :=
  match vs with
  | v :: _ => step f s v
  | [] => .panic

/-- A call of an aggregate function on a group. -/
def call (ratText : Rat → List Char) (text : Val → Res (List Char)) (f : Fn) (c : Call) (rows : List GRow) : Res Val :=
  (feed (aggStep text (one f)) ⟨[], false, init f⟩ (rows.map (arg ratText c))).bind fun st => .ok (done f st.inner)

/-- function_bind.go:3122-3134: ARRAY_AGG. -/
def oneArray (s : Collect) (vs : List Val) (o : AggOpt) : Res Collect :=
  match vs with
  | v :: _ => arrayAggStep s (v, o)
  | [] => .panic

/-- A call of ARRAY_AGG on a group; a relation, as the sort is not determined. -/
def ArrayCall (ratText : Rat → List Char) (text : Val → Res (List Char)) (c : Call) (rows : List GRow) (out : Res Val) : Prop :=
  match feed (aggStep text oneArray) ⟨[], false, {}⟩ (rows.map (arg ratText c)) with
  | .ok st => ArrayAggDone st.inner out
  | .err => out = .err
  | .panic => out = .panic

/-- function_bind.go:3136-3155 and function_aggregate.go:106-116: ARRAY_CONCAT_AGG passes over NULL and collects arrays. -/
def oneConcat (s : Collect) (vs : List Val) (o : AggOpt) : Res Collect :=
  match vs with
  | .null :: _ => .ok s
  | .arr es :: _ => arrayAggStep s (.arr es, o)
  | _ :: _ => .err
  | [] => .panic

/-- function_aggregate.go:129-136: the elements of all arrays. -/
def elements : List OrderedValue → Res (List Val)
  | [] => .ok []
  | ⟨_, .arr es⟩ :: vs => (elements vs).bind fun r => .ok (es ++ r)
  | _ :: _ => .err

/-- function_aggregate.go:118-141 ARRAY_CONCAT_AGG Done. -/
def ConcatDone (st : Collect) (out : Res Val) : Prop :=
  ∃ ys, SortAggregated st.opt st.values ys ∧
    out = (applyLimit st.opt ys).bind fun zs => (elements zs).bind fun es => .ok (.arr es)

/-- A call of ARRAY_CONCAT_AGG on a group. -/
def ConcatCall (ratText : Rat → List Char) (text : Val → Res (List Char)) (c : Call) (rows : List GRow) (out : Res Val) : Prop :=
  match feed (aggStep text oneConcat) ⟨[], false, {}⟩ (rows.map (arg ratText c)) with
  | .ok st => ConcatDone st.inner out
  | .err => out = .err
  | .panic => out = .panic

end Verif.AggCall
