import Verif.Model.Cast
import Verif.Model.TimeZone

/-!
# The current time (internal/formatter.go, internal/function_bind.go, context.go)

A time is represented by its nanoseconds since 1970; DATE, DATETIME and TIME by those of their wall clock.  The process
runs in UTC.  `offset l t` is the offset of a location at a time, a matter of the time zone database.
-/

namespace Verif.Current

open Go Verif.Val Cast Zone

/-- CURRENT_DATE_WITH_TIME and the like: function_date.go:17, function_datetime.go:16, function_time.go:16,
function_timestamp.go:16. -/
def atTime (offset : Loc → Int → Int) (k : TimeKind) (l : Loc) (t : Int) : Val :=
  .time k (if k = .timestamp then t else t + offset l t * sec)

/-- formatter.go:141, 166-172: the arguments of the SQLite function; `fixed` is the time given to WithCurrentTime. -/
def arguments (fixed : Option Int) (zone : Option (List Char)) : List Val :=
  (zone.toList.map fun z => Val.str z) ++ fixed.toList.map fun t => Val.int (wrap64 t)

/-- bindCurrentDate, bindCurrentDatetime, bindCurrentTime, bindCurrentTimestamp: function_bind.go:1887-1921, 2100-2134,
2263-2297, 2426-2460.  `now` is what time.Now returns. -/
def bind (offset : Loc → Int → Int) (load : List Char → Option Loc) (m : Cache) (k : TimeKind) (now : Int) : List Val → Res Val
  | [] => match (toLocation load m []).1 with
    | some l => .ok (atTime offset k l now)
    | none => .err
  | [a, b] => (toI64 a).bind fun n => (toStr b).bind fun z => match (toLocation load m z).1 with
    | some l => .ok (atTime offset k l n)
    | none => .err
  | .int n :: _ => .ok (.time k n)
  | .str z :: _ => match (toLocation load m z).1 with
    | some l => .ok (atTime offset k l now)
    | none => .err
  | _ => .err

/-- A call CURRENT_…() or CURRENT_…(zone) in a query. -/
def current (offset : Loc → Int → Int) (load : List Char → Option Loc) (m : Cache) (k : TimeKind) (fixed : Option Int) (now : Int)
    (zone : Option (List Char)) : Res Val := bind offset load m k now (arguments fixed zone)

/-- A call in the body of a function or in the query of a view: the text is written when the object is created, with the time given to
WithCurrentTime then (`created`), and used as it is by a later call (newFunctionSpec, spec.go:382-389; newCreateViewStmtAction,
analyzer.go:360-366; CallSQL, spec.go:67-103).  `fixed` is the time given to WithCurrentTime for the call that uses the object: nothing
refers to it. -/
def stored (offset : Loc → Int → Int) (load : List Char → Option Loc) (m : Cache) (k : TimeKind) (created _fixed : Option Int) (now : Int)
    (zone : Option (List Char)) : Res Val := bind offset load m k now (arguments created zone)

end Verif.Current
