import Verif.Props.DateTrunc

/-! # C50: DATE_DIFF counts boundaries -/

namespace Verif.Date

open Go Spec

/-- `F` numbers the periods of a part: it grows by one exactly at the starts. -/
def Counts (p : Spec.Part) (F : Int → Int) : Prop :=
  ∀ n, (Starts p (n + 1) → F (n + 1) = F n + 1) ∧ (¬ Starts p (n + 1) → F (n + 1) = F n)

theorem crossings_eq {p F} (h : Counts p F) {a b : Int} (hab : b ≤ a) : crossings p b a = F a - F b := by
  obtain ⟨k, hk⟩ := Int.eq_ofNat_of_zero_le (show 0 ≤ a - b by omega)
  obtain rfl : a = b + (k : Int) := by omega
  clear hk hab
  unfold crossings
  rw [show (b + (k : Int) - b).toNat = k by omega]
  induction k with
  | zero => simp
  | succ k ih =>
    rw [List.range_succ, List.countP_append, Int.natCast_add, ih]
    have hs := h (b + k)
    rw [show b + ((k + 1 : Nat) : Int) = b + k + 1 by omega]
    by_cases hst : Starts p (b + k + 1)
    · have : Starts p (b + 1 + (k : Int)) := by rwa [show b + 1 + (k : Int) = b + k + 1 by omega]
      rw [hs.1 hst, List.countP_singleton]
      simp [this]; omega
    · have : ¬ Starts p (b + 1 + (k : Int)) := by rwa [show b + 1 + (k : Int) = b + k + 1 by omega]
      rw [hs.2 hst, List.countP_singleton]
      simp [this]

theorem boundaries_eq {p F} (h : Counts p F) (a b : Int) : boundaries p a b = F a - F b := by
  unfold boundaries
  split
  · exact crossings_eq h (by omega)
  · rw [crossings_eq h (by omega)]; omega

/-- Boundaries are antisymmetric. -/
theorem boundaries_neg {p F} (h : Counts p F) (a b : Int) : boundaries p a b = - boundaries p b a := by
  rw [boundaries_eq h, boundaries_eq h]; omega

theorem counts_day : Counts .day id := fun n => ⟨fun _ => rfl, fun h => absurd trivial h⟩

theorem counts_week (s : Int) (hs : 0 ≤ s ∧ s ≤ 6) : Counts (.week s) (fun n => (n + 4 - s) / 7) := by
  intro n
  have e : Starts (.week s) (n + 1) ↔ (n + 1 - 3) % 7 = s := Iff.rfl
  rw [e]
  simp only
  omega

theorem month_succ (n : Int) : (firstOf (monthNoOf (n + 1)) = n + 1 ∧ monthNoOf (n + 1) = monthNoOf n + 1) ∨
    (firstOf (monthNoOf (n + 1)) ≠ n + 1 ∧ monthNoOf (n + 1) = monthNoOf n) := by
  have h := monthNoOf_spec n
  rcases Int.lt_or_le (n + 1) (firstOf (monthNoOf n + 1)) with h1 | h1
  · have e : monthNoOf (n + 1) = monthNoOf n := monthNoOf_eq (by omega) h1
    right; rw [e]; exact ⟨by omega, rfl⟩
  · have h2 : n + 1 = firstOf (monthNoOf n + 1) := by omega
    have h3 := firstOf_lt (show monthNoOf n + 1 < monthNoOf n + 1 + 1 by omega)
    have e : monthNoOf (n + 1) = monthNoOf n + 1 := monthNoOf_eq (by omega) (by omega)
    left; rw [e]; exact ⟨by omega, rfl⟩

theorem counts_month : Counts .month monthNoOf := by
  intro n
  have := month_succ n
  rw [monthPart_month]
  omega

theorem counts_year : Counts .year yearOf := by
  intro n
  have h1 := (monthNoOf_fields n).1
  have h2 := (monthNoOf_fields (n + 1)).1
  have := month_succ n
  rw [monthPart_year]
  omega

theorem counts_quarter : Counts .quarter (fun n => monthNoOf n / 3) := by
  intro n
  have := month_succ n
  rw [monthPart_quarter]
  simp only
  omega

theorem isoYear_eq {n y : Int} (h1 : isoStart y ≤ n) (h2 : n < isoStart (y + 1)) : isoYear n = y := by
  have := isoYear_spec n
  have a := isoStart_le_iff (x := isoYear n + 1) (y := y)
  have b := isoStart_le_iff (x := y + 1) (y := isoYear n)
  rcases Int.lt_trichotomy (isoYear n) y with h | h | h
  · have := a.mpr (by omega); omega
  · exact h
  · have := b.mpr (by omega); omega

theorem counts_isoyear : Counts .isoyear isoYear := by
  intro n
  have h := isoYear_spec n
  rw [starts_isoyear]
  rcases Int.lt_or_le (n + 1) (isoStart (isoYear n + 1)) with h1 | h1
  · have e : isoYear (n + 1) = isoYear n := isoYear_eq (by omega) h1
    refine ⟨fun ⟨y, hy⟩ => ?_, fun _ => e⟩
    have a := isoStart_le_iff (x := isoYear n + 1) (y := y)
    have b := isoStart_le_iff (x := y) (y := isoYear n)
    omega
  · have h2 : n + 1 = isoStart (isoYear n + 1) := by omega
    have h3 := isoStart_mono (show isoYear n + 1 < isoYear n + 1 + 1 by omega)
    exact ⟨fun _ => isoYear_eq (by omega) (by omega), fun hn => absurd ⟨_, h2⟩ hn⟩

theorem countDays_eq (w s : Int) (hs : 0 ≤ s ∧ s ≤ 6) (r : Nat) : countDays w s r = (w + r - s) / 7 - (w - s) / 7 := by
  induction r with
  | zero => simp [countDays]
  | succ r ih =>
    rw [countDays, ih]
    split <;> omega

theorem tUnix_date (n : Int) : tUnix (date n) = n * 86400 := by unfold tUnix date dayNs sec; omega

private theorem days_eq (d : Int) (h : 0 ≤ d) : (((d * 86400).tdiv 24).tdiv 60).tdiv 60 = d := by
  rw [Int.tdiv_eq_ediv_of_nonneg (show 0 ≤ d * 86400 by omega),
    Int.tdiv_eq_ediv_of_nonneg (show 0 ≤ d * 86400 / 24 by omega),
    Int.tdiv_eq_ediv_of_nonneg (show 0 ≤ d * 86400 / 24 / 60 by omega)]
  omega

theorem diffWeek_eq (a b s : Int) (hs : 0 ≤ s ∧ s ≤ 6) :
    diffWeek (date a) (date b) s = (a + 4 - s) / 7 - (b + 4 - s) / 7 := by
  unfold diffWeek
  simp only [tUnix_date, gt_iff_lt, decide_eq_true_eq]
  have key : ∀ x y : Int, y ≤ x →
      ((((x * 86400 - y * 86400).tdiv 24).tdiv 60).tdiv 60).tdiv 7 = (x - y) / 7 ∧
      ((((((x * 86400 - y * 86400).tdiv 24).tdiv 60).tdiv 60).tmod 7).toNat : Int) = (x - y) % 7 := by
    intro x y h
    rw [← Int.sub_mul, days_eq _ (by omega), Int.tdiv_eq_ediv_of_nonneg (by omega),
      Int.tmod_eq_emod_of_nonneg (by omega)]
    omega
  by_cases h : a * 86400 < b * 86400
  · simp only [h, if_true, tUnix_date]
    have k := key b a (by omega)
    rw [k.1, countDays_eq _ _ hs, k.2]
    simp only [date, tDay_mul, weekday]
    omega
  · simp only [h, if_false, tUnix_date]
    have k := key a b (by omega)
    rw [k.1, countDays_eq _ _ hs, k.2]
    simp only [date, tDay_mul, weekday]
    omega

/-- Full C50 -/
def C50_full : Prop :=
  ∀ p a b, IsDate a → IsDate b → p.ok → dateDiff (date a) (date b) (toPart p) = .ok (boundaries p a b)

/-- DATE_DIFF in quarters is an error. -/
theorem C50_full_false : ¬ C50_full := by
  intro h
  have := h .quarter 0 0 (by rw [isDate_iff]; decide) (by rw [isDate_iff]; decide) trivial
  simp [dateDiff, toPart] at this

/-- DATE_DIFF('2016-01-04', '2015-12-28', ISOWEEK) is -4: the weeks of 2015 (ISO) had 53. -/
theorem C50_isoweek_false : dateDiff (date (daysOf 2016 1 4)) (date (daysOf 2015 12 28)) .isoweek = .ok (-4) ∧
    boundaries .isoweek (daysOf 2016 1 4) (daysOf 2015 12 28) = 1 := by
  refine ⟨by decide, ?_⟩
  have h : Counts .isoweek (fun n => (n + 4 - 1) / 7) := counts_week 1 (by omega)
  rw [boundaries_eq h]
  decide

/-- **C50** for WEEK (any start day), MONTH, YEAR and ISOYEAR: all pairs of dates. -/
theorem C50_diff_partial (p : Spec.Part) (hp : p.ok) (h1 : p ≠ .isoweek) (h2 : p ≠ .quarter) (h3 : p ≠ .day)
    (a b : Int) : dateDiff (date a) (date b) (toPart p) = .ok (boundaries p a b) := by
  cases p with
  | day => exact absurd rfl h3
  | week s => rw [boundaries_eq (counts_week s hp)]; exact congrArg Res.ok (diffWeek_eq a b s hp)
  | isoweek => exact absurd rfl h1
  | quarter => exact absurd rfl h2
  | month =>
    rw [boundaries_eq counts_month]
    simp only [toPart, dateDiff, date, tDay_mul, monthNoOf, monthNo]
    congr 1; omega
  | year =>
    rw [boundaries_eq counts_year]
    simp only [toPart, dateDiff, date, tDay_mul]
  | isoyear =>
    rw [boundaries_eq counts_isoyear]
    simp only [toPart, dateDiff, date, tDay_mul]

/-- **C50** DAY is right exactly up to 106752 days apart. -/
theorem C50_day_partial (a b : Int) (ha : IsDate a) (hb : IsDate b) :
    dateDiff (date a) (date b) .day = .ok (boundaries .day a b) ↔ -106752 ≤ a - b ∧ a - b ≤ 106752 := by
  rw [isDate_iff] at ha hb
  have h := dateDiff_day b (a - b) (by omega)
  rw [show b + (a - b) = a by omega] at h
  rw [boundaries_eq counts_day]
  exact h

/-- **C50** ISOWEEK is right when both dates are in the same year and the same ISO year. -/
theorem C50_isoweek_partial (a b : Int) (h1 : yearOf a = yearOf b) (h2 : isoYear a = isoYear b) :
    dateDiff (date a) (date b) .isoweek = .ok (boundaries .isoweek a b) := by
  have h : Counts .isoweek (fun n => (n + 4 - 1) / 7) := counts_week 1 (by omega)
  rw [boundaries_eq h]
  simp only [dateDiff, date, tDay_mul]
  have e : ∀ n, ydayOf (thursday n) = thursday n - yearStart (isoYear n) := fun n => rfl
  unfold isoWeek
  rw [e, e, h1, h2]
  unfold thursday
  congr 1
  omega

/-- The number of the week, counted from the one of 1970-01-01, in which ISO year `y` begins: the one of its 4th of January. -/
def firstWeek (y : Int) : Int := (yearStart y + 3 + 3) / 7

/-- **C50** ISOWEEK is right exactly when the ISO years of the two dates begin 48 weeks apart for each year between the dates: the code takes a
year for 48 weeks. -/
theorem C50_isoweek_iff (a b : Int) : dateDiff (date a) (date b) .isoweek = .ok (boundaries .isoweek a b) ↔
    firstWeek (isoYear a) - firstWeek (isoYear b) = 48 * (yearOf a - yearOf b) := by
  have h : Counts .isoweek (fun n => (n + 4 - 1) / 7) := counts_week 1 (by omega)
  rw [boundaries_eq h]
  simp only [dateDiff, date, tDay_mul]
  have e : ∀ n, ydayOf (thursday n) = thursday n - yearStart (isoYear n) := fun n => rfl
  have hw : ∀ n, isoWeek n = (n + 4 - 1) / 7 - firstWeek (isoYear n) + 1 := by
    intro n
    unfold isoWeek firstWeek
    rw [e]
    have h0 : 0 ≤ thursday n - yearStart (isoYear n) := by
      have := (yearOf_spec (thursday n)).1
      unfold isoYear; omega
    unfold thursday at *
    omega
  rw [hw, hw, Res.ok.injEq]
  omega

/-- **C50** swapping the dates negates the answer. -/
theorem C50_antisymmetric_partial (p : Spec.Part) (hp : p.ok) (h1 : p ≠ .isoweek) (h2 : p ≠ .quarter) (h3 : p ≠ .day)
    (a b r : Int) (h : dateDiff (date a) (date b) (toPart p) = .ok r) :
    dateDiff (date b) (date a) (toPart p) = .ok (-r) := by
  rw [C50_diff_partial p hp h1 h2 h3] at h ⊢
  cases h
  congr 1
  cases p with
  | day => exact absurd rfl h3
  | week s => exact boundaries_neg (counts_week s hp) _ _
  | isoweek => exact absurd rfl h1
  | quarter => exact absurd rfl h2
  | month => exact boundaries_neg counts_month _ _
  | year => exact boundaries_neg counts_year _ _
  | isoyear => exact boundaries_neg counts_isoyear _ _

/-- DATETIME_DIFF and TIMESTAMP_DIFF in months, years and ISO years look only at the dates. -/
theorem C50_datetime_partial (p : Spec.Part) (h : p = .month ∨ p = .year ∨ p = .isoyear) (t u : Int) :
    timestampDiff t u (toPart p) = .ok (boundaries p (tDay t) (tDay u)) := by
  rcases h with rfl | rfl | rfl
  · have := C50_diff_partial .month trivial (by simp) (by simp) (by simp) (tDay t) (tDay u)
    rw [← this]; simp [timestampDiff, toPart, unit, dateDiff, date, tDay_mul]
  · have := C50_diff_partial .year trivial (by simp) (by simp) (by simp) (tDay t) (tDay u)
    rw [← this]; simp [timestampDiff, toPart, unit, dateDiff, date, tDay_mul]
  · have := C50_diff_partial .isoyear trivial (by simp) (by simp) (by simp) (tDay t) (tDay u)
    rw [← this]; simp [timestampDiff, toPart, unit, dateDiff, date, tDay_mul]

/-- DATETIME_DIFF in days rounds up: two different times on one day are a day apart. -/
theorem C50_datetime_day_wrong (n k : Int) (h0 : 0 < k) (h1 : k < dayNs) :
    timestampDiff (date n + k) (date n) .day = .ok 1 ∧ boundaries .day (tDay (date n + k)) (tDay (date n)) = 0 := by
  constructor
  · show Res.ok (durationDays (tSub (date n + k) (date n))) = _
    have hs : tSub (date n + k) (date n) = k := by
      unfold tSub; unfold dayNs at h1
      rw [if_neg (by omega), if_neg (by omega)]; omega
    have hd : durationDays k = 1 := by
      unfold durationDays
      have h2 : k.tdiv dayNs = 0 := by
        rw [Int.tdiv_eq_ediv_of_nonneg (by omega)]; exact Int.ediv_eq_zero_of_lt (by omega) h1
      have h3 : k.tmod dayNs = k := by
        rw [Int.tmod_eq_emod_of_nonneg (by omega)]; exact Int.emod_eq_of_lt (by omega) h1
      simp only [h2, h3, gt_iff_lt, h0, if_true]
      rfl
    rw [hs, hd]
  · rw [boundaries_eq counts_day]
    unfold date
    rw [tDay_add (by omega) h1, tDay_mul]
    simp

example : boundaries (.week 0) (daysOf 2017 10 15) (daysOf 2017 10 14) = 1 ∧
    boundaries .year (daysOf 2017 12 31) (daysOf 2014 1 1) = 3 := by
  rw [boundaries_eq (counts_week 0 (by omega)), boundaries_eq counts_year]
  decide

end Verif.Date
