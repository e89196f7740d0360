import Verif.Props.DateDiff

/-! # C51: EXTRACT; C52: sub-day truncation; C53: Unix conversions; C83: sub-day arithmetic -/

namespace Verif.Date

open Go Spec

/-! ### C51 -/

/-- EXTRACT(part FROM t) is `v`. -/
def Gets (t : Int) (p : Part) (v : Int) : Prop := extract t p = .ok v

/-- The calendar fields of the date of `t`, except QUARTER and WEEK. -/
def DateFields (t : Int) : Prop :=
  Gets t .year (civil (tDay t)).y ∧ Gets t .month (civil (tDay t)).m ∧ Gets t .day (civil (tDay t)).d ∧
  Gets t .dayofweek (dow (tDay t) + 1) ∧
  (∃ j, civil j = { y := (civil (tDay t)).y, m := 1, d := 1 } ∧ Gets t .dayofyear (tDay t - j + 1)) ∧
  (∃ s, IsTrunc .isoyear (tDay t) s ∧ Gets t .isoyear (civil (s + 3)).y ∧ Gets t .isoweek ((tDay t - s) / 7 + 1))

/-- The clock fields of `t`. -/
def ClockFields (t : Int) : Prop :=
  ∃ h m s n, Gets t .hour h ∧ Gets t .minute m ∧ Gets t .second s ∧ Gets t .millisecond (n / 1000000) ∧
    Gets t .microsecond (n / 1000) ∧ 0 ≤ h ∧ h < 24 ∧ 0 ≤ m ∧ m < 60 ∧ 0 ≤ s ∧ s < 60 ∧ 0 ≤ n ∧ n < 1000000000 ∧
    t = date (tDay t) + ((h * 60 + m) * 60 + s) * 1000000000 + n

/-- QUARTER is the quarter the month lies in. -/
def QuarterField (t : Int) : Prop := Gets t .quarter (((civil (tDay t)).m - 1) / 3 + 1)

/-- WEEK is the number of Sundays of the year up to the date. -/
def WeekField (t : Int) : Prop := Gets t (.week 0) (boundaries (.week 0) (tDay t) (yearStart (yearOf (tDay t)) - 1))

/-- Full C51 -/
def C51_full : Prop :=
  ∀ t, IsDate (tDay t) → DateFields t ∧ ClockFields t ∧ QuarterField t ∧ WeekField t ∧
    dateOf (civil (tDay t)).y (civil (tDay t)).m (civil (tDay t)).d = date (tDay t)

/-- **C51** the year, month, day, weekday, day of the year, ISO year and ISO week. -/
theorem C51_date_partial (t : Int) : DateFields t := by
  refine ⟨rfl, rfl, rfl, ?_, ⟨yearStart (yearOf (tDay t)), ?_, ?_⟩, ⟨isoStart (isoYear (tDay t)), isoyear_trunc _, ?_, ?_⟩⟩
  · show Res.ok _ = Res.ok _
    unfold weekday dow; congr 1; omega
  · have h := Spec.civil_daysOf (y := yearOf (tDay t)) (m := 1) (d := 1) (by omega) (by omega) (by omega)
      (by have := daysIn_pos (yearOf (tDay t)) 1; omega)
    rw [daysOf_month _ (by omega) (by omega), monthBefore_one,
      show yearStart (yearOf (tDay t)) + 0 + 1 - 1 = yearStart (yearOf (tDay t)) by omega] at h
    exact h
  · rfl
  · show Res.ok _ = Res.ok _
    congr 1
    show isoYear (tDay t) = yearOf _
    symm
    apply yearOf_eq
    · unfold isoStart; omega
    · have := yearStart_lt (show isoYear (tDay t) < isoYear (tDay t) + 1 by omega)
      unfold isoStart; omega
  · show Res.ok _ = Res.ok _
    congr 1
    have e : ydayOf (thursday (tDay t)) = thursday (tDay t) - yearStart (isoYear (tDay t)) := rfl
    unfold isoWeek
    rw [e]
    have h := isoYear_spec (tDay t)
    unfold isoStart thursday at *
    omega

/-- **C51** hours, minutes, seconds and fractions. -/
theorem C51_clock_partial (t : Int) : ClockFields t := by
  have h1 := tFields t
  have h2 := tDay_tod t
  refine ⟨tHour t, tMinute t, tSecond t, tNano t, rfl, rfl, rfl, rfl, rfl, ?_, ?_, ?_, ?_, ?_, ?_, ?_, ?_, ?_⟩
  case refine_9 => unfold date; unfold hour minute sec at h1; omega
  all_goals (simp only [tHour, tMinute, tSecond, tNano, tod, dayNs, hour, minute, sec]; omega)

/-- **C51** DATE(year, month, day) of the extracted fields is the date. -/
theorem C51_rebuild_partial (n : Int) : dateOf (civil n).y (civil n).m (civil n).d = date n := by
  unfold dateOf
  simp only [tDate_midnight, tAddDate_eq, tDay_mul, tod_mul, Int.add_zero, addDate_eq]
  have hf := monthNoOf_fields n
  rw [show daysOf 1 1 1 = firstOf 12 by decide, (firstOf_no 12).1, (firstOf_no 12).2]
  show (firstOf (12 + 12 * (yearOf n - 1) + (monthOf n - 1)) + 1 + (dayOf n - 1) - 1) * dayNs = _
  rw [show 12 + 12 * (yearOf n - 1) + (monthOf n - 1) = monthNoOf n by omega]
  unfold date
  rw [show firstOf (monthNoOf n) + 1 + (dayOf n - 1) - 1 = n by omega]

/-- What EXTRACT(QUARTER) computes from the day of the year. -/
private theorem quarter_nat : ∀ leap : Bool, ∀ yd : Nat, yd < (if leap then 366 else 365) →
    ((if (yd : Int) + 1 ≤ 91 then (1 : Int) else if (yd : Int) + 1 ≤ 91 * 2 then 2 else if (yd : Int) + 1 ≤ 91 * 3 then 3 else 4)
      = (monthIn leap yd - 1) / 3 + 1 ↔
    ¬ (leap = false ∧ monthIn leap yd = 4 ∧ yd - monthBefore leap (monthIn leap yd) + 1 = 1) ∧
    ¬ (leap = false ∧ monthIn leap yd = 7 ∧ yd - monthBefore leap (monthIn leap yd) + 1 = 1) ∧
    ¬ (leap = true ∧ monthIn leap yd = 9 ∧ yd - monthBefore leap (monthIn leap yd) + 1 = 30)) := by
  decide +kernel

/-- **C51** QUARTER is right except on 1 April and 1 July of ordinary years and on 30 September of
leap years. -/
theorem C51_quarter_partial (t : Int) :
    QuarterField t ↔
      ¬ (¬ leap (civil (tDay t)).y ∧ (civil (tDay t)).m = 4 ∧ (civil (tDay t)).d = 1) ∧
      ¬ (¬ leap (civil (tDay t)).y ∧ (civil (tDay t)).m = 7 ∧ (civil (tDay t)).d = 1) ∧
      ¬ (leap (civil (tDay t)).y ∧ (civil (tDay t)).m = 9 ∧ (civil (tDay t)).d = 30) := by
  show Res.ok _ = Res.ok _ ↔ _
  rw [Res.ok.injEq]
  have hy := ydayOf_spec (tDay t)
  obtain ⟨k, hk⟩ := Int.eq_ofNat_of_zero_le hy.1
  have hl := leap_iff (yearOf (tDay t))
  have h := quarter_nat (isLeap (yearOf (tDay t))) k (by
    unfold yearLen at hy
    cases e : isLeap (yearOf (tDay t)) <;> simp [e] at hy ⊢ <;> omega)
  simp only [civil, dayOf, monthOf]
  rw [← hl, hk]
  simp only [Bool.not_eq_true]
  exact h

theorem C51_full_false : ¬ C51_full := by
  intro h
  have := (h (date (daysOf 2023 4 1)) (by rw [isDate_iff]; decide)).2.2.1
  rw [C51_quarter_partial] at this
  exact this.1 (by decide)

/-- WEEK of 1 January 2021, before the first Sunday, is 52 instead of 0. -/
theorem C51_week_false : extract (date (daysOf 2021 1 1)) (.week 0) = .ok 52 ∧
    boundaries (.week 0) (daysOf 2021 1 1) (daysOf 2021 1 1 - 1) = 0 := by
  rw [boundaries_eq (counts_week 0 (by omega))]
  decide

/-- **C51** WEEK is right from the first Sunday on, in years whose first Sunday is 4 January or later. -/
theorem C51_week_partial (t : Int) (h1 : 1 ≤ dow (yearStart (yearOf (tDay t))) ∧ dow (yearStart (yearOf (tDay t))) ≤ 4)
    (h2 : yearStart (yearOf (tDay t)) + 7 - dow (yearStart (yearOf (tDay t))) ≤ tDay t) : WeekField t := by
  show Res.ok _ = Res.ok _
  rw [boundaries_eq (counts_week 0 (by omega)), tAddDays]
  have hd : tDay (t + -weekday (tDay t) * dayNs) = tDay t - weekday (tDay t) := by
    unfold tDay dayNs; omega
  rw [hd]
  generalize tDay t = n at *
  have hs := yearOf_spec n
  have hy : isoYear (n - weekday n) = yearOf n := by
    apply yearOf_eq
    · unfold thursday weekday; unfold dow at h1 h2; omega
    · unfold thursday weekday; omega
  have e : ydayOf (thursday (n - weekday n)) = thursday (n - weekday n) - yearStart (yearOf n) := by
    unfold ydayOf; rw [show yearOf (thursday (n - weekday n)) = yearOf n from hy]
  unfold isoWeek
  rw [e]
  generalize yearStart (yearOf n) = J at *
  unfold thursday weekday
  unfold dow at h1 h2
  congr 1
  omega

example : extract (date (daysOf 2015 12 23)) (.week 0) = .ok 51 ∧ extract (date (daysOf 2015 12 23)) .isoweek = .ok 52 ∧
    dow (yearStart 2015) = 4 := by decide

/-! ### C52 -/

/-- `r` is `t` with everything below the unit `u` set to zero. -/
def Floor (u t r : Int) : Prop := r ≤ t ∧ t < r + u ∧ r % u = 0

theorem floor_unique {u t r s : Int} (hu : 0 < u) (hr : Floor u t r) (hs : Floor u t s) : r = s := by
  obtain ⟨a, ha⟩ := Int.dvd_of_emod_eq_zero hr.2.2
  obtain ⟨b, hb⟩ := Int.dvd_of_emod_eq_zero hs.2.2
  have h1 := hr.1; have h2 := hr.2.1; have h3 := hs.1; have h4 := hs.2.1
  have hab : a = b := by
    rcases Int.lt_trichotomy a b with h | h | h
    · have : u * (a + 1) ≤ u * b := Int.mul_le_mul_of_nonneg_left (by omega) (by omega)
      rw [Int.mul_add] at this; omega
    · exact h
    · have : u * (b + 1) ≤ u * a := Int.mul_le_mul_of_nonneg_left (by omega) (by omega)
      rw [Int.mul_add] at this; omega
  rw [ha, hb, hab]

theorem sameDay_eq (t h mi s ns : Int) : sameDay t h mi s ns = tDay t * dayNs + h * hour + mi * minute + s * sec + ns := by
  unfold sameDay tDate; rw [daysOf_civil]

/-- Full C52: TIME_TRUNC, DATETIME_TRUNC and TIMESTAMP_TRUNC (in any fixed-offset zone) set exactly the
fields below the part to zero. -/
def C52_full : Prop :=
  ∀ t offset p u, p ≠ .microsecond → unit p = some u →
    (∃ r, timeTrunc t p = .ok r ∧ Floor u t r) ∧ (∃ r, datetimeTrunc t p = .ok r ∧ Floor u t r) ∧
    (∃ r, timestampTrunc t offset p = .ok r ∧ Floor u (t + offset) (r + offset))

theorem time_eq_datetime (t : Int) (p : Part) (u : Int) (hu : unit p = some u) : datetimeTrunc t p = timeTrunc t p := by
  unfold datetimeTrunc; rw [hu]

/-- **C52** TIMESTAMP_TRUNC, all parts. -/
theorem C52_timestamp_partial (t offset : Int) (p : Part) (u : Int) (hp : p ≠ .microsecond) (hu : unit p = some u) :
    ∃ r, timestampTrunc t offset p = .ok r ∧ Floor u (t + offset) (r + offset) := by
  unfold Floor
  cases p <;> simp only [unit, Option.some.injEq, reduceCtorEq] at hu <;> first | contradiction | skip
  all_goals subst hu; unfold timestampTrunc
  all_goals refine ⟨_, rfl, ?_⟩
  all_goals rw [sameDay_eq, Int.sub_add_cancel]
  all_goals generalize t + offset = l
  all_goals (simp only [tDay, tHour, tMinute, tSecond, tNano, tod, dayNs, hour, minute, sec, ms]; omega)

/-- **C52** TIME_TRUNC and DATETIME_TRUNC to MINUTE and HOUR. -/
theorem C52_minute_hour_partial (t : Int) :
    (∃ r, timeTrunc t .minute = .ok r ∧ datetimeTrunc t .minute = .ok r ∧ Floor Go.minute t r) ∧
    (∃ r, timeTrunc t .hour = .ok r ∧ datetimeTrunc t .hour = .ok r ∧ Floor Go.hour t r) := by
  refine ⟨⟨_, rfl, rfl, ?_⟩, ⟨_, rfl, rfl, ?_⟩⟩
  all_goals rw [sameDay_eq]
  all_goals unfold Floor tDay tHour
  all_goals (try unfold tMinute)
  all_goals (unfold tod dayNs hour minute; omega)

theorem timeTrunc_ms (t : Int) : timeTrunc t .millisecond = .ok (t - t % sec) := by
  show Res.ok _ = _
  have h1 : (tSecond t).tdiv us = 0 := by
    have h : 0 ≤ tSecond t ∧ tSecond t < 60 := by unfold tSecond tod dayNs minute sec; omega
    rw [Int.tdiv_eq_ediv_of_nonneg h.1]; unfold us; omega
  rw [sameDay_eq, h1]
  congr 1
  unfold tDay tHour tMinute tSecond tod dayNs hour minute sec
  omega

theorem timeTrunc_sec (t : Int) : timeTrunc t .second = .ok (t - t % Go.minute) := by
  show Res.ok _ = _
  have h1 : (tSecond t).tdiv sec = 0 := by
    have h : 0 ≤ tSecond t ∧ tSecond t < 60 := by unfold tSecond tod dayNs minute sec; omega
    rw [Int.tdiv_eq_ediv_of_nonneg h.1]; unfold sec; omega
  rw [sameDay_eq, h1]
  congr 1
  unfold tDay tHour tMinute tod dayNs hour minute sec
  omega

/-- **C52** TIME_TRUNC and DATETIME_TRUNC to MILLISECOND give whole seconds, to SECOND whole minutes:
right exactly when the dropped fields were zero already. -/
theorem C52_ms_second_partial (t : Int) :
    ((∃ r, timeTrunc t .millisecond = .ok r ∧ Floor ms t r) ↔ t % sec < ms) ∧
    ((∃ r, timeTrunc t .second = .ok r ∧ Floor sec t r) ↔ t % Go.minute < sec) := by
  constructor
  · constructor
    · rintro ⟨r, hr, hf⟩
      rw [timeTrunc_ms] at hr
      cases hr
      have := hf.2.1
      omega
    · intro h
      refine ⟨_, timeTrunc_ms t, ?_⟩
      unfold Floor; unfold sec ms at *; omega
  · constructor
    · rintro ⟨r, hr, hf⟩
      rw [timeTrunc_sec] at hr
      cases hr
      have := hf.2.1
      omega
    · intro h
      refine ⟨_, timeTrunc_sec t, ?_⟩
      unfold Floor; unfold sec Go.minute at *; omega

/-- TIME_TRUNC('15:30:45', SECOND) is 15:30:00. -/
theorem C52_full_false : ¬ C52_full := by
  intro h
  have := (h (45 * sec) 0 .second sec (by simp) rfl).1
  rw [(C52_ms_second_partial _).2] at this
  revert this; decide

example : timestampTrunc (1700000000123456000) (9 * hour) .millisecond = .ok 1700000000123000000 := by decide

/-! ### C53 -/

/-- Full C53 -/
def C53_full : Prop :=
  ∀ x, InI64 x → unixSeconds (timestampSeconds x) = x ∧ unixMillis (timestampMillis x) = x ∧
    unixMicros (timestampMicros x) = x

/-- TIMESTAMP_MILLIS wraps around. -/
theorem C53_full_false : ¬ C53_full := by
  intro h
  have := (h 9223372036854775807 (by decide)).2.1
  revert this; decide

/-- **C53** seconds and microseconds: all integers; milliseconds: exactly when the microseconds
fit 64 bits. -/
theorem C53_inverse_partial (x : Int) :
    unixSeconds (timestampSeconds x) = x ∧ unixMicros (timestampMicros x) = x ∧
    (unixMillis (timestampMillis x) = x ↔ InI64 (x * 1000)) := by
  refine ⟨?_, ?_, ?_⟩
  · unfold unixSeconds timestampSeconds tUnix sec; omega
  · unfold unixMicros timestampMicros tUnixMicro us; omega
  · unfold unixMillis timestampMillis tUnixMilli us ms
    constructor
    · intro h
      have := wrap64_inI64 (x * 1000)
      unfold InI64 at *
      unfold wrap64 at *
      omega
    · intro h
      rw [wrap64_eq h]; omega

/-- **C53** in the other direction the instant is rounded down to the unit. -/
theorem C53_floor (t : Int) :
    Floor sec t (timestampSeconds (unixSeconds t)) ∧
    (InI64 (unixMillis t * 1000) → Floor ms t (timestampMillis (unixMillis t))) ∧
    Floor us t (timestampMicros (unixMicros t)) := by
  refine ⟨?_, fun h => ?_, ?_⟩
  · unfold Floor timestampSeconds unixSeconds tUnix sec; omega
  · unfold timestampMillis
    rw [wrap64_eq h]
    unfold Floor unixMillis tUnixMilli ms us; omega
  · unfold Floor timestampMicros unixMicros tUnixMicro us; omega

example : unixSeconds (-1) = -1 ∧ unixMillis (-1) = -1 ∧ InI64 (unixMillis (-1) * 1000) := by decide

/-! ### C83 -/

/-- The instants SQL has: 0001-01-01 to 9999-12-31. -/
def IsInstant (t : Int) : Prop := IsDate (tDay t)

/-- Full C83: adding a sub-day amount moves the instant by exactly that duration, subtracting undoes
it, and the difference in that unit is the amount. -/
def C83_full : Prop :=
  ∀ t v p u, unit p = some u → InI64 v → IsInstant t → IsInstant (t + v * u) →
    timestampAdd t v p = .ok (t + v * u) ∧ timestampSub (t + v * u) v p = .ok t ∧
    timestampDiff (t + v * u) t p = .ok v

theorem C83_full_false : ¬ C83_full := by
  intro h
  have := (h 0 10000000000 .second sec rfl (by decide) (by unfold IsInstant; rw [isDate_iff]; decide)
    (by unfold IsInstant; rw [isDate_iff]; decide)).1
  revert this; decide

theorem unit_pos {p u} (h : unit p = some u) : 1000 ≤ u ∧ u ≤ 3600000000000 := by
  cases p <;> simp only [unit, Option.some.injEq, reduceCtorEq] at h <;> subst h <;> decide

/-- **C83** TIMESTAMP_ADD, DATETIME_ADD and TIME_ADD are right exactly when the amount is less than
2^63 nanoseconds (292 years). -/
theorem C83_add_partial (t v : Int) (p : Part) (u : Int) (hu : unit p = some u) :
    timestampAdd t v p = datetimeAdd t v p ∧ (timestampAdd t v p = .ok (t + v * u) ↔ InI64 (v * u)) := by
  have e : timestampAdd t v p = .ok (t + wrap64 (v * u)) := by unfold timestampAdd; rw [hu]; rfl
  refine ⟨by unfold timestampAdd datetimeAdd; rw [hu], ?_⟩
  rw [e, Res.ok.injEq, ← wrap64_eq_iff]
  omega

/-- **C83** within that range subtraction undoes addition and the difference is the amount. -/
theorem C83_inverse_partial (t v : Int) (p : Part) (u : Int) (hu : unit p = some u) (h : InI64 (v * u))
    (hn : InI64 (-(v * u))) :
    timestampSub (t + v * u) v p = .ok t ∧ datetimeSub (t + v * u) v p = .ok t ∧
    timestampDiff (t + v * u) t p = .ok v := by
  have hp := unit_pos hu
  have hv : InI64 (-v) := by
    unfold InI64 at *
    have h1 : (v * u).natAbs = v.natAbs * u.natAbs := Int.natAbs_mul v u
    have h2 : v.natAbs * 1 ≤ v.natAbs * u.natAbs := Nat.mul_le_mul_left _ (by omega)
    omega
  have hs : subUnit (t + v * u) v u = t := by
    unfold subUnit
    rw [wrap64_eq hv, show -v * u = -(v * u) by rw [Int.neg_mul], wrap64_eq hn]
    omega
  refine ⟨?_, ?_, ?_⟩
  · unfold timestampSub; rw [hu]; exact congrArg _ hs
  · unfold datetimeSub; rw [hu]; exact congrArg _ hs
  · unfold timestampDiff
    rw [hu]
    show Res.ok (diffUnit _ _ _) = _
    have : tSub (t + v * u) t = v * u := by
      unfold tSub; unfold InI64 at h
      rw [if_neg (by omega), if_neg (by omega)]
      omega
    unfold diffUnit
    rw [this, Int.mul_tdiv_cancel _ (by omega)]

/-- **C83** differences are whole units, truncated toward zero, for instants less than 292 years apart. -/
theorem C83_diff_partial (a b : Int) (p : Part) (u : Int) (hu : unit p = some u) (h : InI64 (a - b)) :
    timestampDiff a b p = .ok ((a - b).tdiv u) := by
  unfold timestampDiff
  rw [hu]
  unfold InI64 at h
  show Res.ok ((tSub a b).tdiv u) = _
  unfold tSub
  rw [if_neg (by omega), if_neg (by omega)]

/-- **C83** TIME_ADD wraps around midnight: the time of day moves by the amount modulo 24 hours. -/
theorem C83_time_partial (t v u : Int) (h : InI64 (v * u)) : tod (addUnit t v u) = (tod t + v * u) % dayNs := by
  unfold addUnit
  rw [wrap64_eq h]
  unfold tod dayNs; omega

example : unit .hour = some hour ∧ InI64 (5 * hour) ∧ timestampAdd 0 5 .hour = .ok 18000000000000 := by decide

end Verif.Date
