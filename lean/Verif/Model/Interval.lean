import Verif.Model.Date

/-!
# INTERVAL

internal/function_interval.go, the INTERVAL cases of EXTRACT in internal/function.go:420-444
and of the operators in internal/value.go.  The struct is bigquery.IntervalValue (the
seven fields, all int32).  The functions of that package (text form, comparison) are a dependency and
not modelled; IntervalValueFromDuration is a parameter.
-/

namespace Verif.Interval

open Go

/-- Go's int32 conversion. -/
def wrap32 (x : Int) : Int := (x + 2147483648) % 4294967296 - 2147483648

/-- bigquery.IntervalValue -/
structure Iv where
  years : Int := 0
  months : Int := 0
  days : Int := 0
  hours : Int := 0
  minutes : Int := 0
  seconds : Int := 0
  nanos : Int := 0
  deriving DecidableEq, Repr

/-- The part strings of INTERVAL and EXTRACT; `other` is any other string. -/
inductive IPart where
  | year | month | day | hour | minute | second | nanosecond | millisecond | microsecond | other
  deriving DecidableEq, Repr

/-- function_interval.go:9-27 INTERVAL -/
def interval (v : Int) : IPart → Res Iv
  | .year => .ok { years := wrap32 v }
  | .month => .ok { months := wrap32 v }
  | .day => .ok { days := wrap32 v }
  | .hour => .ok { hours := wrap32 v }
  | .minute => .ok { minutes := wrap32 v }
  | .second => .ok { seconds := wrap32 v }
  | .nanosecond => .ok { nanos := wrap32 v }
  | _ => .err

/-- function_interval.go:29-40 MAKE_INTERVAL -/
def makeInterval (y mo d h mi s : Int) : Iv :=
  { years := wrap32 y, months := wrap32 mo, days := wrap32 d, hours := wrap32 h, minutes := wrap32 mi, seconds := wrap32 s }

/-- function.go:422-444 EXTRACT from an interval. -/
def extract (v : Iv) : IPart → Res Int
  | .year => .ok v.years
  | .month => .ok v.months
  | .day => .ok v.days
  | .hour => .ok v.hours
  | .minute => .ok v.minutes
  | .second => .ok v.seconds
  | .millisecond => .ok (v.nanos.tdiv 1000000)
  | .microsecond => .ok (v.nanos.tdiv 1000)
  | _ => .err

/-- function_interval.go:43-49: days into months.  The two branches are the same. -/
def daysToMonths (v : Iv) : Iv :=
  if v.days > 29 then { v with months := wrap32 (v.months + v.days.tdiv 30), days := v.days.tmod 30 }
  else if v.days < -29 then { v with months := wrap32 (v.months + v.days.tdiv 30), days := v.days.tmod 30 }
  else v

/-- function_interval.go:50-56: months into years, twelve once. -/
def monthsToYears (v : Iv) : Iv :=
  if v.months > 11 then { v with months := wrap32 (v.months - 12), years := wrap32 (v.years + 1) }
  else if v.months < -11 then { v with months := wrap32 (v.months + 12), years := wrap32 (v.years - 1) }
  else v

/-- function_interval.go:42-58 JUSTIFY_DAYS -/
def justifyDays (v : Iv) : Iv := monthsToYears (daysToMonths v)

/-- function_interval.go:61-67 -/
def secondsToMinutes (v : Iv) : Iv :=
  if v.seconds > 59 then { v with minutes := wrap32 (v.minutes + v.seconds.tdiv 60), seconds := v.seconds.tmod 60 }
  else if v.seconds < -59 then { v with minutes := wrap32 (v.minutes + v.seconds.tdiv 60), seconds := v.seconds.tmod 60 }
  else v

/-- function_interval.go:68-74.  The negative branch adds Hours / 60. -/
def minutesToHours (v : Iv) : Iv :=
  if v.minutes > 59 then { v with hours := wrap32 (v.hours + v.minutes.tdiv 60), minutes := v.minutes.tmod 60 }
  else if v.minutes < -59 then { v with hours := wrap32 (v.hours + v.hours.tdiv 60), minutes := v.minutes.tmod 60 }
  else v

/-- function_interval.go:75-81 -/
def hoursToDays (v : Iv) : Iv :=
  if v.hours > 23 then { v with days := wrap32 (v.days + v.hours.tdiv 24), hours := v.hours.tmod 24 }
  else if v.hours < -23 then { v with days := wrap32 (v.days + v.hours.tdiv 24), hours := v.hours.tmod 24 }
  else v

/-- function_interval.go:60-83 JUSTIFY_HOURS -/
def justifyHours (v : Iv) : Iv := hoursToDays (minutesToHours (secondsToMinutes v))

/-- function_interval.go:85-90 JUSTIFY_INTERVAL -/
def justifyInterval (v : Iv) : Iv := justifyDays (justifyHours v)

/-- value.go:1468-1482, 1631-1646, 1915-1930: `+` of a DATE, DATETIME or TIMESTAMP and an INTERVAL. -/
def addIv (t : Int) (v : Iv) : Int :=
  tDate (yearOf (tDay t) + v.years) (monthOf (tDay t) + v.months) (dayOf (tDay t) + v.days)
    (tHour t + v.hours) (tMinute t + v.minutes) (tSecond t + v.seconds) (tNano t + v.nanos)

/-- value.go:1488-1502, 1648-1663, 1932-1947: `-` of a DATE, DATETIME or TIMESTAMP and an INTERVAL. -/
def subIv (t : Int) (v : Iv) : Int :=
  tDate (yearOf (tDay t) - v.years) (monthOf (tDay t) - v.months) (dayOf (tDay t) - v.days)
    (tHour t - v.hours) (tMinute t - v.minutes) (tSecond t - v.seconds) (tNano t - v.nanos)

/-- value.go:1506-1516: DATE - DATE. -/
def dateMinus (a b : Int) : Iv := { days := wrap32 ((tSub a b).tdiv dayNs) }

/-- bigquery.IntervalValueFromDuration (a dependency): hours, minutes, seconds and nanoseconds that add up to the duration.  The hours of
an int64 of nanoseconds fit in an int32. -/
structure Durations where
  ofDuration : Int → Iv
  date : ∀ d, InI64 d → (ofDuration d).years = 0 ∧ (ofDuration d).months = 0 ∧ (ofDuration d).days = 0
  time : ∀ d, InI64 d →
    (ofDuration d).hours * 3600000000000 + (ofDuration d).minutes * 60000000000 + (ofDuration d).seconds * 1000000000 + (ofDuration d).nanos = d

/-- value.go:1662-1667, 1946-1951: DATETIME - DATETIME and TIMESTAMP - TIMESTAMP. -/
def timeMinus (D : Durations) (a b : Int) : Iv := D.ofDuration (tSub a b)

/-- The operators on two values. -/
inductive IvOp where
  | add | sub | mul | div | eq | ne | gt | ge | lt | le
  deriving DecidableEq, Repr

/-- function.go:12-75 with value.go:2066-2100: an operator whose left operand is an INTERVAL; `β` is the right operand. -/
def ivOp {α β} : IvOp → Iv → β → Res α
  | .add, _, _ => .err
  | .sub, _, _ => .err
  | .mul, _, _ => .err
  | .div, _, _ => .err
  | .eq, _, _ => .err
  | .ne, _, _ => .err
  | .gt, _, _ => .err
  | .ge, _, _ => .err
  | .lt, _, _ => .err
  | .le, _, _ => .err

end Verif.Interval
