import Verif.Go.Location
import Verif.Model.Date
import Verif.Model.Cast

/-!
# Times in zones whose offset changes, and the zone of the process

A TIMESTAMP is its moment (nanoseconds since 1970); a DATETIME is the reading of a clock; a DATE the number of its day; a TIME the
nanoseconds since midnight.  DATE, DATETIME and TIME travel between functions as text (encoder.go:630-653, decoder.go:59-75), which is
what the clock of the time.Time shows, whatever its location.  A TIMESTAMP travels as microseconds and is read with time.Unix
(decoder.go:76-84), so its location is `loc`, the zone of the process (time.Local).

Arguments are int64 in the code; time.Date and AddDate with fields so large that their sum overflows are not modelled.  The zone of an
argument is a `Location`: toLocation is modelled in Model/TimeZone.lean.  No zone at all is toLocation(""), UTC.
-/

namespace Verif.Zoned

open Go Verif.Date

/-! ### From fields -/

/-- DATETIME(year, month, day, hour, minute, second), function_datetime.go:21-58 -/
def datetimeFields (y mo d h mi s : Int) : Res Int := .ok (Location.utc.date (tDate y mo d h mi s 0))

/-- DATE(year, month, day), function_date.go:22-35: `dateOf` of Model/Date.lean. -/
def dateFields (y mo d : Int) : Res Int := .ok (tDay (dateOf y mo d))

/-- TIME(hour, minute, second), function_time.go:21-39: what is written of it is the time of day. -/
def timeFields (h mi s : Int) : Res Int := .ok (tod (Location.utc.date (tDate 0 0 0 h mi s 0)))

/-- DATETIME(date, time), function_datetime.go:62-85: the text of a TIME is read as a time in UTC. -/
def datetimeOf (day clock : Int) : Res Int :=
  .ok (Location.utc.date (tDate (yearOf day) (monthOf day) (dayOf day) (tHour clock) (tMinute clock) (tSecond clock) (tNano clock)))

/-! ### TIMESTAMP to DATE, DATETIME and TIME -/

/-- DATE(timestamp, zone), function_date.go:36-48; without a zone, 49-55: the location the value has. -/
def dateOfTs (loc : Location) (z : Option Location) (t : Int) : Res Int := .ok (tDay ((z.getD loc).wall t))

/-- DATETIME(timestamp, zone), function_datetime.go:86-104 -/
def datetimeOfTs (loc : Location) (z : Option Location) (t : Int) : Res Int := .ok ((z.getD loc).wall t)

/-- TIME(timestamp, zone), function_time.go:43-61 -/
def timeOfTs (loc : Location) (z : Option Location) (t : Int) : Res Int := .ok (tod ((z.getD loc).wall t))

/-- EXTRACT(part FROM timestamp AT TIME ZONE zone), function.go:444-503; bindExtract gives "UTC" without a zone. -/
def extractTs (z : Option Location) (t : Int) (p : Part) : Res Int := extract ((z.getD Location.utc).wall t) p

/-- EXTRACT(DATE FROM …), EXTRACT(DATETIME FROM …), EXTRACT(TIME FROM …), function.go:495-500 -/
def extractDate (z : Option Location) (t : Int) : Res Int := .ok (tDay ((z.getD Location.utc).wall t))
@[inherit_doc extractDate] def extractDatetime (z : Option Location) (t : Int) : Res Int := .ok ((z.getD Location.utc).wall t)
@[inherit_doc extractDate] def extractTime (z : Option Location) (t : Int) : Res Int := .ok (tod ((z.getD Location.utc).wall t))

/-- CAST(timestamp AS DATE), encoder.go:391-396: DateValue of the time.Time. -/
def castDate (loc : Location) (t : Int) : Res Int := .ok (tDay (loc.wall t))

/-! ### To TIMESTAMP -/

/-- parseTimestamp, value.go:2377-2412, in a location: a text with a zone of its own is read in that.  The two layouts with the
abbreviation of a zone are not modelled. -/
def parseTimestampIn (z : Location) (s : List Char) : Option Int :=
  match parseDatePart s with
  | none => none
  | some (y, m, d, r) => match r with
    | [] => some (z.date (tDate y m d 0 0 0 0))
    | c :: r => if c = 'T' ∨ c = ' ' then match parseClockPart r with
        | none => none
        | some (k, []) => some (z.date (tDate y m d 0 0 0 0 + k))
        | some (k, zone) => (Cast.parseZone zone).map fun o => tDate y m d 0 0 0 0 + k - o
      else none

/-- The error of a parser. -/
def orErr (o : Option Int) : Res Int := match o with
  | some t => .ok t
  | none => .err

/-- modifyTimeZone, util.go:76-80: the reading written as text and read in the zone. -/
def modifyTimeZone (z : Location) (l : Int) : Res Int := orErr (parseTimestampIn z (dateText l ++ 'T' :: clockText 9 l))

/-- TIMESTAMP(text, zone), function_timestamp.go:33-43 -/
def timestampOfText (z : Option Location) (s : List Char) : Res Int := orErr (parseTimestampIn (z.getD Location.utc) s)

/-- TIMESTAMP(datetime, zone), function_timestamp.go:44-53 -/
def timestampOfDatetime (z : Option Location) (l : Int) : Res Int := modifyTimeZone (z.getD Location.utc) l

/-- TIMESTAMP(date, zone), function_timestamp.go:44-53 -/
def timestampOfDate (z : Option Location) (day : Int) : Res Int := modifyTimeZone (z.getD Location.utc) (day * dayNs)

/-- STRING(timestamp, zone), function_timestamp.go:20-26; bindString, function_bind.go:2462-2488.  The `+00` of the layout is no verb
of Format: it is copied. -/
def stringOfTs (z : Option Location) (t : Int) : Res (List Char) :=
  .ok (dateText ((z.getD Location.utc).wall t) ++ ' ' :: (clockText 9 ((z.getD Location.utc).wall t) ++ ['+', '0', '0']))

/-! ### Dates from numbers of days -/

/-- The literal DATE '…', encoder.go:227-230: time.Unix of the midnight in UTC, in the zone of the process. -/
def dateLiteral (loc : Location) (days : Int) : Res Int := .ok (tDay (loc.wall (days * dayNs)))

/-- DATE_FROM_UNIX_DATE, function_date.go:236-239 -/
def dateFromUnixDateIn (loc : Location) (u : Int) : Res Int :=
  .ok (tDay (loc.wall ((wrap64 (wrap64 (u * 24) * hour)).tdiv sec * sec)))

/-- CURRENT_DATE(), CURRENT_DATETIME() and CURRENT_TIME() with the time given to WithCurrentTime (function_bind.go:1908-1912, 2121-2125,
2284-2288; util.go:82-84). -/
def currentDate (loc : Location) (now : Int) : Res Int := .ok (tDay (loc.wall now))
@[inherit_doc currentDate] def currentDatetime (loc : Location) (now : Int) : Res Int := .ok (loc.wall now)
@[inherit_doc currentDate] def currentTime (loc : Location) (now : Int) : Res Int := .ok (tod (loc.wall now))

/-! ### TIMESTAMP_ADD of days -/

/-- Time.AddDate in a location. -/
def addDateIn (z : Location) (t dy dm dd : Int) : Int := z.date (tAddDate (z.wall t) dy dm dd)

/-- TIMESTAMP_ADD(t, INTERVAL n DAY), function_timestamp.go:69-70 -/
def timestampAddDay (loc : Location) (t n : Int) : Res Int := .ok (addDateIn loc t 0 0 n)

/-- TIMESTAMP_SUB(t, INTERVAL n DAY), function_timestamp.go:87-88 -/
def timestampSubDay (loc : Location) (t n : Int) : Res Int := .ok (addDateIn loc t 0 0 (-n))

/-! ### TIMESTAMP_TRUNC -/

/-- function_date.go:182-184 in a location.  Seven steps are enough if no reading on the way is skipped by the clock; what the loop does
after more steps is not modelled. -/
def stepBackIn (z : Location) (start : Int) : Nat → Int → Int
  | 0, t => t
  | fuel + 1, t => if weekday (tDay (z.wall t)) = start then t else stepBackIn z start fuel (addDateIn z t 0 0 (-1))

/-- DATE_TRUNC, function_date.go:173-234, of the moment `t` in a location: the reading of the clock of the result. -/
def dateTruncIn (z : Location) (t : Int) : Part → Res Int
  | .week s => .ok (z.wall (stepBackIn z s 7 t))
  | .day => .ok (z.wall (z.date (tDate (yearOf (tDay (z.wall t))) (monthOf (tDay (z.wall t))) (dayOf (tDay (z.wall t))) 0 0 0 0)))
  | .isoweek => .ok (z.wall (z.date (tDate (isoYear (tDay (z.wall t))) 0 (7 * isoWeek (tDay (z.wall t))) 0 0 0 0)))
  | .month => .ok (tAddDate (tDate 1 1 1 0 0 0 0) (yearOf (tDay (z.wall t)) - 1) (monthOf (tDay (z.wall t)) - 1) 0)
  | .quarter => .ok (z.wall (z.date (tDate (yearOf (tDay (z.wall t))) (quarterStart (monthOf (tDay (z.wall t)))) 1 0 0 0 0)))
  | .year => .ok (tAddDate (tDate 1 1 1 0 0 0 0) (yearOf (tDay (z.wall t)) - 1) 0 0)
  | .isoyear =>
    let first := z.date (tDate (isoYear (tDay (z.wall t))) 1 1 0 0 0 0)
    .ok (z.wall (addDateIn z first 0 0 (1 - weekday (tDay (z.wall first)))))
  | _ => .err

/-- TIMESTAMP_TRUNC(t, part, zone), function_timestamp.go:117-192 -/
def timestampTruncIn (z : Option Location) (t : Int) (p : Part) : Res Int :=
  let z := z.getD Location.utc
  let l := z.wall t
  match p with
  | .microsecond => .ok t
  | .millisecond => .ok (z.date (sameDay l (tHour l) (tMinute l) (tSecond l) (tNano l / ms * ms)))
  | .second => .ok (z.date (sameDay l (tHour l) (tMinute l) (tSecond l) 0))
  | .minute => .ok (z.date (sameDay l (tHour l) (tMinute l) 0 0))
  | .hour => .ok (z.date (sameDay l (tHour l) 0 0 0))
  | p => (dateTruncIn z t p).bind fun d => .ok (z.date (sameDay d 0 0 0 0))

end Verif.Zoned
