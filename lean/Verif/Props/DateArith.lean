import Verif.Lemmas.Date

/-! # C46: day arithmetic; C47: month and year arithmetic -/

namespace Verif.Date

open Go Spec

/-- The DATE value of a day number. -/
def date (n : Int) : Int := n * dayNs

theorem tdiv_mul_bound (x : Int) : -(x.natAbs : Int) ≤ x.tdiv sec * sec ∧ x.tdiv sec * sec ≤ x.natAbs := by
  have h := Int.mul_tdiv_add_tmod x sec
  unfold sec at *
  rcases Int.le_total 0 x with h0 | h0
  · have h1 := Int.tmod_nonneg 1000000000 h0
    have h2 : 0 ≤ x.tdiv 1000000000 := Int.tdiv_nonneg h0 (by decide)
    omega
  · obtain ⟨y, rfl⟩ : ∃ y, x = -y := ⟨-x, by omega⟩
    rw [Int.neg_tdiv] at *
    rw [Int.neg_tmod] at h
    have h1 := Int.tmod_nonneg 1000000000 (show 0 ≤ y by omega)
    have h2 : 0 ≤ y.tdiv 1000000000 := Int.tdiv_nonneg (by omega) (by decide)
    omega

/-- Full C46, over the dates SQL has (years 1 to 9999). -/
def C46_full : Prop :=
  ∀ n v, IsDate n → IsDate (n + v) →
    dateAdd (date n) v .day = .ok (date (n + v)) ∧
    dateSub (date (n + v)) v .day = .ok (date n) ∧
    dateDiff (date (n + v)) (date n) .day = .ok v ∧
    unixDate (date n) = n ∧ dateFromUnixDate n = date n

theorem dateDiff_day (n v : Int) (hv : -4000000 ≤ v ∧ v ≤ 4000000) :
    dateDiff (date (n + v)) (date n) .day = .ok v ↔ -106752 ≤ v ∧ v ≤ 106752 := by
  have e : date (n + v) - date n = v * dayNs := by unfold date dayNs; omega
  unfold dayNs at e
  simp only [dateDiff, Res.ok.injEq]
  rcases Int.lt_or_le (v * 86400000000000) (-9223372036854775808) with h | h
  · have hs : tSub (date (n + v)) (date n) = -9223372036854775808 := by
      unfold tSub; rw [if_pos (by omega)]
    rw [hs, show durationDays (-9223372036854775808) = -106752 by decide]
    omega
  · rcases Int.lt_or_le 9223372036854775807 (v * 86400000000000) with h2 | h2
    · have hs : tSub (date (n + v)) (date n) = 9223372036854775807 := by
        unfold tSub; rw [if_neg (by omega), if_pos (by omega)]
      rw [hs, show durationDays 9223372036854775807 = 106752 by decide]
      omega
    · have hs : tSub (date (n + v)) (date n) = v * 86400000000000 := by
        unfold tSub; rw [if_neg (by omega), if_neg (by omega), e]
      have h5 : durationDays (v * 86400000000000) = v := by
        have h3 : (v * 86400000000000).tdiv 86400000000000 = v := Int.mul_tdiv_cancel _ (by decide)
        have h4 : (v * 86400000000000).tmod 86400000000000 = 0 := Int.mul_tmod_left _ _
        simp only [durationDays, dayNs, h3, h4]
        simp
      rw [hs, h5]
      omega

/-- DATE_FROM_UNIX_DATE is right exactly within 106751 days of 1970-01-01. -/
theorem dateFromUnixDate_iff (n : Int) (hn : IsDate n) :
    dateFromUnixDate n = date n ↔ -106751 ≤ n ∧ n ≤ 106751 := by
  rw [isDate_iff] at hn
  unfold dateFromUnixDate date
  rw [wrap64_eq (x := n * 24) (by unfold InI64; omega)]
  have e : n * 24 * hour = n * dayNs := by unfold hour dayNs; omega
  rw [e]
  constructor
  · intro h
    have h1 := wrap64_inI64 (n * dayNs)
    have h2 := tdiv_mul_bound (wrap64 (n * dayNs))
    unfold InI64 at h1
    unfold dayNs at *
    omega
  · intro h
    rw [wrap64_eq (by unfold InI64 dayNs; omega)]
    rw [show n * dayNs = n * 86400 * sec by unfold dayNs sec; omega]
    rw [Int.mul_tdiv_cancel _ (by decide)]

/-- DATE_DIFF('0294-01-01' + 200000 days, …) and DATE_FROM_UNIX_DATE of old dates are wrong. -/
theorem C46_full_false : ¬ C46_full := by
  intro h
  have := (h 0 200000 (by rw [isDate_iff]; decide) (by rw [isDate_iff]; decide)).2.2.1
  rw [dateDiff_day 0 200000 (by decide)] at this
  omega

/-- **C46** adding and subtracting days and weeks and UNIX_DATE are exact for all dates; DATE_DIFF
in days is exact exactly up to 106752 days, DATE_FROM_UNIX_DATE exactly up to 106751 days from 1970. -/
theorem C46_days_partial (n v : Int) (h1 : IsDate n) (h2 : IsDate (n + v)) :
    dateAdd (date n) v .day = .ok (date (n + v)) ∧
    dateSub (date (n + v)) v .day = .ok (date n) ∧
    (dateDiff (date (n + v)) (date n) .day = .ok v ↔ -106752 ≤ v ∧ v ≤ 106752) ∧
    unixDate (date n) = n ∧
    (dateFromUnixDate n = date n ↔ -106751 ≤ n ∧ n ≤ 106751) := by
  have b1 := (isDate_iff _).mp h1
  have b2 := (isDate_iff _).mp h2
  refine ⟨?_, ?_, dateDiff_day n v (by omega), ?_, dateFromUnixDate_iff n h1⟩
  · simp only [dateAdd, tAddDays, date, Res.ok.injEq, dayNs]; omega
  · simp only [dateSub, tAddDays, date, Res.ok.injEq, dayNs]
    rw [wrap64_eq (by unfold InI64; omega)]; omega
  · unfold unixDate tUnix date
    rw [show n * dayNs / sec = n * 86400 by unfold dayNs sec; omega]
    exact Int.mul_tdiv_cancel _ (by decide)

/-- **C46** weeks are seven days, in both directions. -/
theorem C46_weeks (n w : Int) (h1 : IsDate n) (h2 : IsDate (n + 7 * w)) :
    dateAdd (date n) w (.week 0) = .ok (date (n + 7 * w)) ∧
    dateSub (date (n + 7 * w)) w (.week 0) = .ok (date n) := by
  rw [isDate_iff] at h1 h2
  constructor
  · simp only [dateAdd, tAddDays, date, Res.ok.injEq, dayNs]
    rw [wrap64_eq (by unfold InI64; omega)]; omega
  · simp only [dateSub, tAddDays, date, Res.ok.injEq, dayNs]
    rw [wrap64_eq (x := -w) (by unfold InI64; omega), wrap64_eq (by unfold InI64; omega)]; omega

example : IsDate 19782 ∧ IsDate (19782 + 366) ∧ dateAdd (date 19782) 366 .day = .ok (date 20148) := by
  refine ⟨?_, ?_, by decide⟩ <;> rw [isDate_iff] <;> decide

/-- `r` is `n` moved by `k` months: the month moves by exactly `k` and the day of the month is
kept, or is the last day of the month if the month is shorter. -/
def Moved (n k r : Int) : Prop :=
  12 * (civil r).y + (civil r).m = 12 * (civil n).y + (civil n).m + k ∧
  (civil r).d = min (civil n).d (daysIn (civil r).y (civil r).m)

theorem moved_shifted (n k : Int) : Moved n k (shifted n k) := by
  have h := shifted_spec n k
  have h1 := monthNoOf_fields (shifted n k)
  have h2 := monthNoOf_fields n
  rw [h.1] at h1
  unfold Moved civil
  simp only
  rw [h.2, h1.1, h1.2.1, h2.1, h2.2.1, lenOf_eq]
  refine ⟨by omega, rfl⟩

/-- The moved date is unique. -/
theorem moved_unique {n k r s : Int} (hr : Moved n k r) (hs : Moved n k s) : r = s := by
  have v1 := Spec.civil_valid r
  have v2 := Spec.civil_valid s
  have e1 : (civil r).y = (civil s).y := by unfold Moved at *; omega
  have e2 : (civil r).m = (civil s).m := by unfold Moved at *; omega
  apply civil_inj
  have e3 : (civil r).d = (civil s).d := by
    rw [hr.2, hs.2, e1, e2]
  cases h1 : civil r; cases h2 : civil s
  simp_all

/-- Full C47: DATE_ADD and DATE_SUB of months, quarters and years. -/
def C47_full : Prop :=
  ∀ n v, IsDate n → InI64 v → InI64 (-v) →
    (∃ r, dateAdd (date n) v .month = .ok (date r) ∧ Moved n v r) ∧
    (∃ r, dateSub (date n) v .month = .ok (date r) ∧ Moved n (-v) r) ∧
    (∃ r, dateAdd (date n) v .year = .ok (date r) ∧ Moved n (12 * v) r) ∧
    (∃ r, dateSub (date n) v .year = .ok (date r) ∧ Moved n (-(12 * v)) r) ∧
    (∃ r, dateAdd (date n) v .quarter = .ok (date r) ∧ Moved n (3 * v) r) ∧
    (∃ r, dateSub (date n) v .quarter = .ok (date r) ∧ Moved n (-(3 * v)) r)

/-- Subtracting a quarter is an error. -/
theorem C47_full_false : ¬ C47_full := by
  intro h
  obtain ⟨r, hr, -⟩ := (h 0 1 (by rw [isDate_iff]; decide) (by decide) (by decide)).2.2.2.2.2
  simp [dateSub] at hr

/-- DATE_ADD of quarters is right for one quarter only. -/
theorem C47_quarter_partial (n v : Int) :
    (∃ r, dateAdd (date n) v .quarter = .ok (date r) ∧ Moved n (3 * v) r) ↔ v = 1 := by
  have e : dateAdd (date n) v .quarter = .ok (date (shifted n 3)) := by
    simp only [dateAdd, date, addMonth_date]
  constructor
  · rintro ⟨r, hr, hm⟩
    rw [e] at hr
    have : shifted n 3 = r := by
      simp only [Res.ok.injEq, date, dayNs] at hr; omega
    subst this
    have := (moved_shifted n 3).1
    have := hm.1
    omega
  · rintro rfl
    exact ⟨_, e, moved_shifted n 3⟩

/-- **C47** months and years, added and subtracted. -/
theorem C47_month_year_partial (n v : Int) (hv : InI64 (-v)) :
    (∃ r, dateAdd (date n) v .month = .ok (date r) ∧ Moved n v r) ∧
    (∃ r, dateSub (date n) v .month = .ok (date r) ∧ Moved n (-v) r) ∧
    (∃ r, dateAdd (date n) v .year = .ok (date r) ∧ Moved n (12 * v) r) ∧
    (∃ r, dateSub (date n) v .year = .ok (date r) ∧ Moved n (-(12 * v)) r) := by
  refine ⟨⟨_, by simp only [dateAdd, date, addMonth_date], moved_shifted _ _⟩,
    ⟨_, by simp only [dateSub, wrap64_eq hv, date, addMonth_date], moved_shifted _ _⟩,
    ⟨_, by simp only [dateAdd, date, addYear_date], moved_shifted _ _⟩,
    ⟨shifted n (12 * -v), by simp only [dateSub, wrap64_eq hv, date, addYear_date], ?_⟩⟩
  rw [show -(12 * v) = 12 * -v by omega]
  exact moved_shifted _ _

/-- 2024-01-31 plus one month is 2024-02-29, minus eleven months 2023-02-28. -/
example : dateAdd (date (daysOf 2024 1 31)) 1 .month = .ok (date (daysOf 2024 2 29)) ∧
    dateSub (date (daysOf 2024 1 31)) 11 .month = .ok (date (daysOf 2023 2 28)) ∧
    dateAdd (date (daysOf 2024 2 29)) 1 .year = .ok (date (daysOf 2025 2 28)) := by decide

/-- **C47** DATETIME_ADD and DATETIME_SUB move the date like DATE_ADD and keep the time of day. -/
theorem C47_datetime_partial (t v : Int) (hv : InI64 (-v)) :
    (∃ r, datetimeAdd t v .month = .ok r ∧ Moved (tDay t) v (tDay r) ∧ tod r = tod t) ∧
    (∃ r, datetimeSub t v .month = .ok r ∧ Moved (tDay t) (-v) (tDay r) ∧ tod r = tod t) ∧
    (∃ r, datetimeAdd t v .year = .ok r ∧ Moved (tDay t) (12 * v) (tDay r) ∧ tod r = tod t) ∧
    (∃ r, datetimeSub t v .year = .ok r ∧ Moved (tDay t) (-(12 * v)) (tDay r) ∧ tod r = tod t) := by
  have hb := tod_bound t
  have hk : ∀ d, keepClock t d = tDay d * dayNs + tod t := by
    intro d
    have := tFields t
    unfold keepClock tDate
    rw [daysOf_civil]
    omega
  have hm : ∀ k, Moved (tDay t) k (tDay (shifted (tDay t) k * dayNs + tod t)) ∧
      tod (shifted (tDay t) k * dayNs + tod t) = tod t := by
    intro k
    rw [tDay_add hb.1 hb.2, tod_add hb.1 hb.2]
    exact ⟨moved_shifted _ _, rfl⟩
  refine ⟨⟨_, rfl, ?_⟩, ⟨_, rfl, ?_⟩, ⟨_, rfl, ?_⟩, ⟨_, rfl, ?_⟩⟩
  · rw [hk, addMonth_day]; exact hm _
  · rw [hk, addMonth_day, wrap64_eq hv]; exact hm _
  · rw [hk, addYear_day]; exact hm _
  · rw [hk, addYear_day, wrap64_eq hv, show -(12 * v) = 12 * -v by omega]; exact hm _

end Verif.Date
