import Verif.Go.Basic
import Verif.Go.Calendar

/-!
# Go's time.Time and time.Duration

Part of the trusted model of Go.  An instant is the number of nanoseconds since
1970-01-01T00:00:00 in its own location: the civil fields are read from it directly.
Only fixed-offset locations occur here (`offset` is added on the way in and
subtracted on the way out); zones whose offset changes are in Go/Location.lean.
-/

namespace Verif.Go

/-- time.Microsecond -/
def us : Int := 1000
/-- time.Millisecond -/
def ms : Int := 1000000
/-- time.Second -/
def sec : Int := 1000000000
/-- time.Minute -/
def minute : Int := 60000000000
/-- time.Hour -/
def hour : Int := 3600000000000
/-- 24 * time.Hour -/
def dayNs : Int := 86400000000000

/-- The day an instant lies on. -/
def tDay (t : Int) : Int := t / dayNs
/-- The nanoseconds since midnight. -/
def tod (t : Int) : Int := t % dayNs
/-- Time.Hour -/
def tHour (t : Int) : Int := tod t / hour
/-- Time.Minute -/
def tMinute (t : Int) : Int := tod t % hour / minute
/-- Time.Second -/
def tSecond (t : Int) : Int := tod t % minute / sec
/-- Time.Nanosecond -/
def tNano (t : Int) : Int := tod t % sec

/-- time.Date -/
def tDate (y mo d h mi s ns : Int) : Int := daysOf y mo d * dayNs + h * hour + mi * minute + s * sec + ns

/-- Time.AddDate -/
def tAddDate (t dy dm dd : Int) : Int :=
  tDate (yearOf (tDay t) + dy) (monthOf (tDay t) + dm) (dayOf (tDay t) + dd) (tHour t) (tMinute t) (tSecond t) (tNano t)

/-- Time.Sub: the difference as a Duration, saturating. -/
def tSub (a b : Int) : Int :=
  if a - b < -9223372036854775808 then -9223372036854775808
  else if 9223372036854775807 < a - b then 9223372036854775807
  else a - b

/-- Time.Unix -/
def tUnix (t : Int) : Int := t / sec
/-- Time.UnixMilli -/
def tUnixMilli (t : Int) : Int := t / ms
/-- Time.UnixMicro -/
def tUnixMicro (t : Int) : Int := t / us

theorem tFields (t : Int) : tHour t * hour + tMinute t * minute + tSecond t * sec + tNano t = tod t := by
  unfold tHour tMinute tSecond tNano tod hour minute sec dayNs
  omega

theorem tDay_tod (t : Int) : tDay t * dayNs + tod t = t := by
  unfold tDay tod dayNs; omega

theorem tDate_now (t : Int) :
    tDate (yearOf (tDay t)) (monthOf (tDay t)) (dayOf (tDay t)) (tHour t) (tMinute t) (tSecond t) (tNano t) = t := by
  have h1 := tFields t
  have h2 := tDay_tod t
  unfold tDate
  rw [daysOf_civil]
  omega

theorem tAddDate_eq (t dy dm dd : Int) : tAddDate t dy dm dd = addDate (tDay t) dy dm dd * dayNs + tod t := by
  have h1 := tFields t
  unfold tAddDate tDate addDate
  omega

theorem tDay_mul (n : Int) : tDay (n * dayNs) = n := by unfold tDay dayNs; omega
theorem tod_mul (n : Int) : tod (n * dayNs) = 0 := by unfold tod dayNs; omega
theorem tDay_add {n k : Int} (h0 : 0 ≤ k) (h1 : k < dayNs) : tDay (n * dayNs + k) = n := by
  unfold tDay; unfold dayNs at *; omega
theorem tod_add {n k : Int} (h0 : 0 ≤ k) (h1 : k < dayNs) : tod (n * dayNs + k) = k := by
  unfold tod; unfold dayNs at *; omega
theorem tod_bound (t : Int) : 0 ≤ tod t ∧ tod t < dayNs := by unfold tod dayNs; omega

end Verif.Go
