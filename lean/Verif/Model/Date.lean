import Verif.Go.Time
import Verif.Spec.Calendar

/-!
# DATE, DATETIME, TIME and TIMESTAMP functions

internal/function_date.go, internal/function_datetime.go, internal/function_time.go,
internal/function_timestamp.go and EXTRACT in internal/function.go.

A DATE reaches these functions as midnight (it is stored as text without a time of
day), so a date `n` is the instant `n * dayNs`.  Zones are fixed offsets; the process
zone (time.Unix returns local times) is taken to be UTC.
-/

namespace Verif.Date

open Go

/-- The part strings the functions accept.  `week s` is WEEK (s = 0), WEEK_MONDAY (1), …,
WEEK_SATURDAY (6); `other` stands for every string no function accepts. -/
inductive Part where
  | microsecond | millisecond | second | minute | hour
  | day | week (start : Int) | isoweek | month | quarter | year | isoyear
  | dayofyear | dayofweek | other
  deriving DecidableEq, Repr

/-- function_date.go:291-301 addMonth -/
def addMonth (t m : Int) : Int :=
  let first := tDate (yearOf (tDay t)) (monthOf (tDay t)) 1 0 0 0 0
  let moved := tDay (tAddDate first 0 m 0)
  let year := yearOf moved
  let month := monthOf moved
  let after := tDate year month (dayOf (tDay t)) 0 0 0 0
  if month ≠ monthOf (tDay after) then tAddDate first 0 (m + 1) (-1) else tAddDate t 0 m 0

/-- function_date.go:303-313 addYear -/
def addYear (t y : Int) : Int :=
  let first := tDate (yearOf (tDay t)) (monthOf (tDay t)) 1 0 0 0 0
  let moved := tDay (tAddDate first y 0 0)
  let year := yearOf moved
  let month := monthOf moved
  let after := tDate year month (dayOf (tDay t)) 0 0 0 0
  if month ≠ monthOf (tDay after) then tAddDate first y 1 (-1) else tAddDate t y 0 0

/-- function_date.go:59-73 DATE_ADD.  The amount is not used for QUARTER. -/
def dateAdd (t v : Int) : Part → Res Int
  | .day => .ok (tAddDate t 0 0 v)
  | .week 0 => .ok (tAddDate t 0 0 (wrap64 (v * 7)))
  | .month => .ok (addMonth t v)
  | .year => .ok (addYear t v)
  | .quarter => .ok (addMonth t 3)
  | _ => .err

/-- function_date.go:75-87 DATE_SUB.  There is no QUARTER. -/
def dateSub (t v : Int) : Part → Res Int
  | .day => .ok (tAddDate t 0 0 (wrap64 (-v)))
  | .week 0 => .ok (tAddDate t 0 0 (wrap64 (wrap64 (-v) * 7)))
  | .month => .ok (addMonth t (wrap64 (-v)))
  | .year => .ok (addYear t (wrap64 (-v)))
  | _ => .err

/-- function_date.go:131-134: the loop over the remainder, counting the weekdays hit. -/
def countDays (start boundary : Int) : Nat → Int
  | 0 => 0
  | r + 1 => (if (start + (r + 1 : Nat)) % 7 = boundary then 1 else 0) + countDays start boundary r

/-- function_date.go:103-143 DATE_DIFF for the WEEK parts. -/
def diffWeek (a b boundary : Int) : Int :=
  let neg := decide (tUnix b > tUnix a)
  let start := if neg then a else b
  let stop := if neg then b else a
  let days := (tUnix stop - tUnix start).tdiv 24 |>.tdiv 60 |>.tdiv 60
  let result := days.tdiv 7 + countDays (weekday (tDay start)) boundary (days.tmod 7).toNat
  if neg then -result else result

/-- function_date.go:148-156: a duration in days, rounded away from zero. -/
def durationDays (diff : Int) : Int :=
  let d := diff.tdiv dayNs
  let m := diff.tmod dayNs
  if m > 0 then d + 1 else if m < 0 then d - 1 else d

/-- function_date.go:99-169 DATE_DIFF -/
def dateDiff (a b : Int) : Part → Res Int
  | .week s => .ok (diffWeek a b s)
  | .day => .ok (durationDays (tSub a b))
  | .isoweek =>
    .ok ((yearOf (tDay a) - yearOf (tDay b)) * 48 + isoWeek (tDay a) - isoWeek (tDay b))
  | .month =>
    .ok ((yearOf (tDay a) * 12 + monthOf (tDay a)) - (yearOf (tDay b) * 12 + monthOf (tDay b)))
  | .year => .ok (yearOf (tDay a) - yearOf (tDay b))
  | .isoyear => .ok (isoYear (tDay a) - isoYear (tDay b))
  | _ => .err

/-- function_date.go:182-184: step back until the weekday is the start of the week.
At most six steps are needed; `fuel` is 7. -/
def stepBack (start : Int) : Nat → Int → Int
  | 0, t => t
  | fuel + 1, t => if weekday (tDay t) = start then t else stepBack start fuel (tAddDate t 0 0 (-1))

/-- function_date.go:171 quarterStartMonths[(month-1)/3] -/
def quarterStart (m : Int) : Int := 3 * ((m - 1) / 3) + 1

/-- function_date.go:173-234 DATE_TRUNC.  `time.Time{}` is 0001-01-01. -/
def dateTrunc (t : Int) : Part → Res Int
  | .week s => .ok (stepBack s 7 t)
  | .day => .ok (tDate (yearOf (tDay t)) (monthOf (tDay t)) (dayOf (tDay t)) 0 0 0 0)
  | .isoweek => .ok (tDate (isoYear (tDay t)) 0 (7 * isoWeek (tDay t)) 0 0 0 0)
  | .month => .ok (tAddDate (tDate 1 1 1 0 0 0 0) (yearOf (tDay t) - 1) (monthOf (tDay t) - 1) 0)
  | .quarter => .ok (tDate (yearOf (tDay t)) (quarterStart (monthOf (tDay t))) 1 0 0 0 0)
  | .year => .ok (tAddDate (tDate 1 1 1 0 0 0 0) (yearOf (tDay t) - 1) 0 0)
  | .isoyear =>
    let first := tDate (isoYear (tDay t)) 1 1 0 0 0 0
    .ok (tAddDate first 0 0 (1 - weekday (tDay first)))
  | _ => .err

/-- function_date.go:22-35 DATE(year, month, day) -/
def dateOf (y m d : Int) : Int := tAddDate (tDate 1 1 1 0 0 0 0) (y - 1) (m - 1) (d - 1)

/-- function_date.go:236-239 DATE_FROM_UNIX_DATE -/
def dateFromUnixDate (u : Int) : Int :=
  (wrap64 (wrap64 (u * 24) * hour)).tdiv sec * sec

/-- function_date.go:287-289 UNIX_DATE -/
def unixDate (t : Int) : Int := (tUnix t).tdiv 86400

/-- function_date.go:249-277 LAST_DAY -/
def lastDay (t : Int) : Part → Res Int
  | .year => .ok (tDate (yearOf (tDay t) + 1) 1 0 0 0 0 0)
  | .month => .ok (tAddDate t 0 1 (- dayOf (tDay t)))
  | .week s => .ok (tAddDate t 0 0 (6 + s - weekday (tDay t)))
  | .isoweek => .ok (tAddDate t 0 0 (6 - weekday (tDay t)))
  | .isoyear => .ok (tDate (yearOf (tDay t) + 1) 1 0 0 0 0 0)
  | _ => .err

/-- function.go:450-503 EXTRACT on an instant already moved to its zone. -/
def extract (t : Int) : Part → Res Int
  | .isoyear => .ok (isoYear (tDay t))
  | .year => .ok (yearOf (tDay t))
  | .month => .ok (monthOf (tDay t))
  | .isoweek => .ok (isoWeek (tDay t))
  | .week 0 => .ok (isoWeek (tDay (tAddDate t 0 0 (- weekday (tDay t)))))
  | .day => .ok (dayOf (tDay t))
  | .dayofyear => .ok (ydayOf (tDay t) + 1)
  | .dayofweek => .ok (weekday (tDay t) + 1)
  | .quarter =>
    let day := ydayOf (tDay t) + 1
    .ok (if day ≤ 91 then 1 else if day ≤ 91 * 2 then 2 else if day ≤ 91 * 3 then 3 else 4)
  | .hour => .ok (tHour t)
  | .minute => .ok (tMinute t)
  | .second => .ok (tSecond t)
  | .millisecond => .ok (tNano t / ms)
  | .microsecond => .ok (tNano t / us)
  | _ => .err

/-- The length of a sub-day part as a Duration. -/
def unit : Part → Option Int
  | .microsecond => some us
  | .millisecond => some ms
  | .second => some sec
  | .minute => some Go.minute
  | .hour => some Go.hour
  | _ => none

/-- function_time.go:71-85, function_timestamp.go:58-74, function_datetime.go:108-119:
the sub-day cases of TIME_ADD, TIMESTAMP_ADD and DATETIME_ADD. -/
def addUnit (t v u : Int) : Int := t + wrap64 (v * u)

/-- function_time.go:87-101, function_timestamp.go:76-92, function_datetime.go:144-155:
the sub-day cases of TIME_SUB, TIMESTAMP_SUB and DATETIME_SUB. -/
def subUnit (t v u : Int) : Int := t + wrap64 (wrap64 (-v) * u)

/-- function_time.go:103-118 TIME_DIFF and the sub-day cases of TIMESTAMP_DIFF and DATETIME_DIFF. -/
def diffUnit (a b u : Int) : Int := (tSub a b).tdiv u

/-- function_timestamp.go:58-74 TIMESTAMP_ADD -/
def timestampAdd (t v : Int) (p : Part) : Res Int :=
  match unit p with
  | some u => .ok (addUnit t v u)
  | none => if p = .day then .ok (tAddDate t 0 0 v) else .err

/-- function_timestamp.go:76-92 TIMESTAMP_SUB -/
def timestampSub (t v : Int) (p : Part) : Res Int :=
  match unit p with
  | some u => .ok (subUnit t v u)
  | none => if p = .day then .ok (tAddDate t 0 0 (wrap64 (-v))) else .err

/-- function_timestamp.go:94-115 TIMESTAMP_DIFF and function_datetime.go:180-200 DATETIME_DIFF -/
def timestampDiff (a b : Int) (p : Part) : Res Int :=
  match unit p with
  | some u => .ok (diffUnit a b u)
  | none => dateDiff a b p

/-- function_datetime.go:120-141: the date part comes from DATE_ADD, the time of day is kept. -/
def keepClock (t d : Int) : Int :=
  tDate (yearOf (tDay d)) (monthOf (tDay d)) (dayOf (tDay d)) (tHour t) (tMinute t) (tSecond t) (tNano t)

/-- function_datetime.go:108-142 DATETIME_ADD -/
def datetimeAdd (t v : Int) (p : Part) : Res Int :=
  match unit p with
  | some u => .ok (addUnit t v u)
  | none => (dateAdd t v p).bind fun d => .ok (keepClock t d)

/-- function_datetime.go:144-178 DATETIME_SUB -/
def datetimeSub (t v : Int) (p : Part) : Res Int :=
  match unit p with
  | some u => .ok (subUnit t v u)
  | none => (dateSub t v p).bind fun d => .ok (keepClock t d)

/-- time.Date with the year, month and day of `t`. -/
def sameDay (t h mi s ns : Int) : Int := tDate (yearOf (tDay t)) (monthOf (tDay t)) (dayOf (tDay t)) h mi s ns

/-- function_time.go:120-172 TIME_TRUNC.  MILLISECOND divides the seconds field by 1000 and drops
the nanoseconds; SECOND divides the seconds field by 1e9. -/
def timeTrunc (t : Int) : Part → Res Int
  | .microsecond => .ok t
  | .millisecond => .ok (sameDay t (tHour t) (tMinute t) (tSecond t - (tSecond t).tdiv us) 0)
  | .second => .ok (sameDay t (tHour t) (tMinute t) ((tSecond t).tdiv sec) 0)
  | .minute => .ok (sameDay t (tHour t) (tMinute t) 0 0)
  | .hour => .ok (sameDay t (tHour t) 0 0 0)
  | _ => .err

/-- function_datetime.go:202-274 DATETIME_TRUNC -/
def datetimeTrunc (t : Int) (p : Part) : Res Int :=
  match unit p with
  | some _ => timeTrunc t p
  | none => (dateTrunc t p).bind fun d =>
      .ok (sameDay d (tHour d) (tMinute d) (tSecond d) (tNano d))

/-- function_timestamp.go:117-192 TIMESTAMP_TRUNC in the zone at `offset` from UTC. -/
def timestampTrunc (t offset : Int) (p : Part) : Res Int :=
  let l := t + offset
  match p with
  | .microsecond => .ok t
  | .millisecond =>
    .ok (sameDay l (tHour l) (tMinute l) (tSecond l) (tNano l / ms * ms) - offset)
  | .second => .ok (sameDay l (tHour l) (tMinute l) (tSecond l) 0 - offset)
  | .minute => .ok (sameDay l (tHour l) (tMinute l) 0 0 - offset)
  | .hour => .ok (sameDay l (tHour l) 0 0 0 - offset)
  | p => (dateTrunc l p).bind fun d => .ok (sameDay d 0 0 0 0 - offset)

/-- function_timestamp.go:231-233 TIMESTAMP_SECONDS -/
def timestampSeconds (s : Int) : Int := s * sec
/-- function_timestamp.go:235-237 TIMESTAMP_MILLIS -/
def timestampMillis (s : Int) : Int := wrap64 (s * 1000) * us
/-- function_timestamp.go:239-241 TIMESTAMP_MICROS -/
def timestampMicros (s : Int) : Int := s * us
/-- function_timestamp.go:243-245 UNIX_SECONDS -/
def unixSeconds (t : Int) : Int := tUnix t
/-- function_timestamp.go:247-249 UNIX_MILLIS -/
def unixMillis (t : Int) : Int := tUnixMilli t
/-- function_timestamp.go:251-253 UNIX_MICROS -/
def unixMicros (t : Int) : Int := tUnixMicro t

end Verif.Date
