import Verif.Props.DateArith

/-! # C48: DATE_TRUNC; C49: LAST_DAY -/

namespace Verif.Date

open Go Spec

/-- The part string of a calendar part. -/
def toPart : Spec.Part → Part
  | .day => .day
  | .week s => .week s
  | .isoweek => .isoweek
  | .month => .month
  | .quarter => .quarter
  | .year => .year
  | .isoyear => .isoyear

theorem isTrunc_unique {p : Spec.Part} {n r s : Int} (hr : IsTrunc p n r) (hs : IsTrunc p n s) : r = s := by
  have h1 := hr.2.2 s hs.1 hs.2.1
  have h2 := hs.2.2 r hr.1 hr.2.1
  omega

theorem isLast_unique {p : Spec.Part} {n r s : Int} (hr : IsLast p n r) (hs : IsLast p n s) : r = s := by
  have a1 := hr.2.1
  have a2 := hs.2.1
  have h1 := hr.2.2 (s + 1) hs.1 (by omega)
  have h2 := hs.2.2 (r + 1) hr.1 (by omega)
  omega

theorem starts_month (n : Int) : Starts .month n ↔ firstOf (monthNoOf n) = n := by
  have := (monthNoOf_fields n).2.2
  show dayOf n = 1 ↔ _
  omega

theorem starts_quarter (n : Int) : Starts .quarter n ↔ firstOf (monthNoOf n) = n ∧ monthNoOf n % 3 = 0 := by
  have := (monthNoOf_fields n)
  show dayOf n = 1 ∧ monthOf n % 3 = 1 ↔ _
  omega

theorem starts_year (n : Int) : Starts .year n ↔ firstOf (monthNoOf n) = n ∧ monthNoOf n % 12 = 0 := by
  have := (monthNoOf_fields n)
  show dayOf n = 1 ∧ monthOf n = 1 ↔ _
  omega

theorem firstOf_year (y : Int) : firstOf (12 * y) = yearStart y := by
  unfold firstOf
  rw [show 12 * y / 12 = y by omega, show 12 * y % 12 + 1 = 1 by omega, daysOf_month _ (by omega) (by omega),
    monthBefore_one]
  omega

/-- Periods of `w` whole months (1, 3 or 12). -/
theorem period_trunc (w n : Int) (hw : 0 < w) :
    firstOf (w * (monthNoOf n / w)) ≤ n ∧ n < firstOf (w * (monthNoOf n / w) + w) := by
  have h := monthNoOf_spec n
  have h0 := Int.mul_ediv_add_emod (monthNoOf n) w
  have h1 := Int.emod_nonneg (monthNoOf n) (show w ≠ 0 by omega)
  have h2 := Int.emod_lt_of_pos (monthNoOf n) hw
  have h3 := firstOf_le (show w * (monthNoOf n / w) ≤ monthNoOf n by omega)
  have h4 := firstOf_le (show monthNoOf n + 1 ≤ w * (monthNoOf n / w) + w by omega)
  omega

/-- `Starts p` holds exactly of the first days of the periods of `w` months. -/
def MonthPart (p : Spec.Part) (w : Int) : Prop := ∀ n, Starts p n ↔ firstOf (monthNoOf n) = n ∧ monthNoOf n % w = 0

theorem monthPart_month : MonthPart .month 1 := fun n => by rw [starts_month]; omega
theorem monthPart_quarter : MonthPart .quarter 3 := starts_quarter
theorem monthPart_year : MonthPart .year 12 := starts_year

theorem monthPart_first {p w} (hp : MonthPart p w) (k : Int) : Starts p (firstOf (w * k)) := by
  rw [hp, (firstOf_no _).1]
  exact ⟨rfl, Int.mul_emod_right w k⟩

theorem monthPart_between {p w} (hp : MonthPart p w) (hw : 0 < w) {s k : Int} (hs : Starts p s)
    (h1 : s < firstOf (w * k + w)) : s ≤ firstOf (w * k) := by
  rw [hp] at hs
  have hm : monthNoOf s < w * k + w := by
    rcases Int.lt_or_le (monthNoOf s) (w * k + w) with h | h
    · exact h
    · have := firstOf_le h; omega
  obtain ⟨q, hq⟩ := Int.dvd_of_emod_eq_zero hs.2
  have hqk : q ≤ k := by
    rcases Int.lt_or_le k q with h | h
    · have : w * (k + 1) ≤ w * q := Int.mul_le_mul_of_nonneg_left (by omega) (by omega)
      rw [Int.mul_add] at this
      omega
    · exact h
  have h2 : w * q ≤ w * k := Int.mul_le_mul_of_nonneg_left hqk (by omega)
  have := firstOf_le (show monthNoOf s ≤ w * k by omega)
  omega

theorem monthPart_trunc {p w} (hp : MonthPart p w) (hw : 0 < w) (n : Int) :
    IsTrunc p n (firstOf (w * (monthNoOf n / w))) := by
  have h := period_trunc w n hw
  refine ⟨monthPart_first hp _, h.1, fun s hs hsn => monthPart_between hp hw hs (by omega)⟩

theorem monthPart_last {p w} (hp : MonthPart p w) (hw : 0 < w) (n : Int) :
    IsLast p n (firstOf (w * (monthNoOf n / w) + w) - 1) := by
  have h := period_trunc w n hw
  refine ⟨?_, by omega, fun s hs hsn => ?_⟩
  · rw [Int.sub_add_cancel, show w * (monthNoOf n / w) + w = w * (monthNoOf n / w + 1) by rw [Int.mul_add]; omega]
    exact monthPart_first hp _
  · rcases Int.lt_or_le s (firstOf (w * (monthNoOf n / w) + w)) with h1 | h1
    · have := monthPart_between hp hw hs h1
      omega
    · omega

/-! ### Weeks -/

theorem week_trunc (s n : Int) (hs : 0 ≤ s ∧ s ≤ 6) : IsTrunc (.week s) n (n - (n + 4 - s) % 7) := by
  refine ⟨?_, by omega, fun r hr hrn => ?_⟩
  · show (n - (n + 4 - s) % 7 - 3) % 7 = s
    omega
  · have : (r - 3) % 7 = s := hr
    omega

theorem week_last (s n : Int) (hs : 0 ≤ s ∧ s ≤ 6) : IsLast (.week s) n (n - (n + 4 - s) % 7 + 6) := by
  refine ⟨?_, by omega, fun r hr hrn => ?_⟩
  · show (n - (n + 4 - s) % 7 + 6 + 1 - 3) % 7 = s
    omega
  · have : (r - 3) % 7 = s := hr
    omega

theorem isoweek_week (n : Int) : Starts .isoweek n ↔ Starts (.week 1) n := Iff.rfl

theorem stepBack_eq (s : Int) (hs : 0 ≤ s ∧ s ≤ 6) (fuel : Nat) :
    ∀ n : Int, (n + 4 - s) % 7 < fuel → stepBack s fuel (date n) = date (n - (n + 4 - s) % 7) := by
  induction fuel with
  | zero => intro n h; omega
  | succ fuel ih =>
    intro n h
    unfold stepBack
    simp only [date, tDay_mul, tAddDays, weekday]
    split
    · rw [show (n + 4 - s) % 7 = 0 by omega]; simp
    · have e : n * dayNs + -1 * dayNs = date (n - 1) := by unfold date dayNs; omega
      rw [e, ih (n - 1) (by omega), show (n - 1 + 4 - s) % 7 = (n + 4 - s) % 7 - 1 by omega]
      unfold date dayNs; omega

/-! ### ISO years -/

/-- The Monday of the week containing 4 January. -/
def isoStart (y : Int) : Int := yearStart y + 3 - (yearStart y + 6) % 7

theorem civil_jan4 (n : Int) : (civil n).m = 1 ∧ (civil n).d = 4 ↔ ∃ y, n = yearStart y + 3 := by
  constructor
  · intro ⟨h1, h2⟩
    have h := monthNoOf_fields n
    have h3 : monthOf n = 1 := h1
    have h4 : dayOf n = 4 := h2
    refine ⟨yearOf n, ?_⟩
    rw [← firstOf_year, h.1, show 12 * (monthNoOf n / 12) = monthNoOf n by omega]
    omega
  · rintro ⟨y, rfl⟩
    have h := in_month (k := 12 * y) (d := 4) (by omega) (by have := lenOf_bound (12 * y); omega)
    rw [firstOf_year, show yearStart y + 4 - 1 = yearStart y + 3 by omega] at h
    have h2 := (monthNoOf_fields (yearStart y + 3)).2.1
    rw [h.1] at h2
    exact ⟨by show monthOf _ = 1; omega, h.2⟩

theorem starts_isoyear (n : Int) : Starts .isoyear n ↔ ∃ y, n = isoStart y := by
  unfold isoStart
  constructor
  · rintro ⟨h1, k, hk0, hk1, hk⟩
    obtain ⟨y, hy⟩ := (civil_jan4 (n + k)).mp hk
    have : (n - 3) % 7 = 1 := h1
    exact ⟨y, by omega⟩
  · rintro ⟨y, rfl⟩
    refine ⟨?_, (yearStart y + 6) % 7, by omega, by omega, ?_⟩
    · show (yearStart y + 3 - (yearStart y + 6) % 7 - 3) % 7 = 1
      omega
    · rw [Int.sub_add_cancel]
      exact (civil_jan4 _).mpr ⟨y, rfl⟩

theorem isoStart_le (y n : Int) : isoStart y ≤ n ↔ yearStart y ≤ thursday n := by
  unfold isoStart thursday; omega

theorem isoYear_spec (n : Int) : isoStart (isoYear n) ≤ n ∧ n < isoStart (isoYear n + 1) := by
  have h := yearOf_spec (thursday n)
  have h1 := isoStart_le (isoYear n) n
  have h2 := isoStart_le (isoYear n + 1) n
  unfold isoYear at *
  omega

theorem isoStart_mono {x y : Int} (h : x < y) : isoStart x < isoStart y := by
  have := yearStart_lt h
  unfold isoStart; omega

theorem isoStart_le_iff {x y : Int} : isoStart x ≤ isoStart y ↔ x ≤ y := by
  constructor
  · intro h
    rcases Int.lt_or_le y x with h1 | h1
    · have := isoStart_mono h1; omega
    · exact h1
  · intro h
    rcases Int.lt_or_eq_of_le h with h1 | h1
    · have := isoStart_mono h1; omega
    · subst h1; omega

theorem isoyear_trunc (n : Int) : IsTrunc .isoyear n (isoStart (isoYear n)) := by
  have h := isoYear_spec n
  refine ⟨(starts_isoyear _).mpr ⟨_, rfl⟩, h.1, fun s hs hsn => ?_⟩
  obtain ⟨y, rfl⟩ := (starts_isoyear _).mp hs
  rw [isoStart_le_iff]
  rcases Int.lt_or_le (isoYear n) y with h1 | h1
  · have := isoStart_le_iff.mpr (show isoYear n + 1 ≤ y by omega); omega
  · exact h1

theorem isoyear_last (n : Int) : IsLast .isoyear n (isoStart (isoYear n + 1) - 1) := by
  have h := isoYear_spec n
  refine ⟨(starts_isoyear _).mpr ⟨isoYear n + 1, by omega⟩, by omega, fun s hs hsn => ?_⟩
  obtain ⟨y, rfl⟩ := (starts_isoyear _).mp hs
  rcases Int.lt_or_le (isoYear n) y with h1 | h1
  · have := isoStart_le_iff.mpr (show isoYear n + 1 ≤ y by omega); omega
  · have := isoStart_le_iff.mpr h1; omega

/-! ### C48 -/

/-- Full C48 -/
def C48_full : Prop :=
  ∀ p n, IsDate n → p.ok → ∃ r, dateTrunc (date n) (toPart p) = .ok (date r) ∧ IsTrunc p n r

theorem date_inj {a b : Int} (h : date a = date b) : a = b := by unfold date dayNs at h; omega

theorem isoweek_value (n : Int) :
    ∃ r, dateTrunc (date n) .isoweek = .ok (date r) ∧ r ≤ n - 22 := by
  refine ⟨daysOf (isoYear n) 0 (7 * isoWeek n), ?_, ?_⟩
  · simp only [dateTrunc, date, tDay_mul, tDate_midnight]
  · rw [daysOf_monthNo]
    have h1 := firstOf_lt (show monthNo (isoYear n) 0 < 12 * isoYear n by unfold monthNo; omega)
    have h2 := lenOf_eq (monthNo (isoYear n) 0)
    have h3 : monthNo (isoYear n) 0 % 12 + 1 = 12 := by unfold monthNo; omega
    rw [h3, show daysIn (monthNo (isoYear n) 0 / 12) 12 = 31 from rfl] at h2
    unfold lenOf at h2
    rw [show monthNo (isoYear n) 0 + 1 = 12 * isoYear n by unfold monthNo; omega, firstOf_year] at h2
    have h4 : ydayOf (thursday n) = thursday n - yearStart (isoYear n) := rfl
    unfold isoWeek
    rw [h4]
    unfold thursday
    omega

/-- DATE_TRUNC to ISOWEEK is wrong for every date. -/
theorem C48_isoweek_never (n r : Int) : ¬ (dateTrunc (date n) .isoweek = .ok (date r) ∧ IsTrunc .isoweek n r) := by
  rintro ⟨h1, h2⟩
  obtain ⟨q, hq, hle⟩ := isoweek_value n
  rw [hq] at h1
  have := date_inj (Res.ok.inj h1)
  have h3 : IsTrunc .isoweek n (n - (n + 4 - 1) % 7) := week_trunc 1 n (by omega)
  have := isTrunc_unique h2 h3
  omega

theorem C48_full_false : ¬ C48_full := by
  intro h
  obtain ⟨r, hr⟩ := h .isoweek 0 (by rw [isDate_iff]; decide) trivial
  exact C48_isoweek_never 0 r hr

/-- **C48** for every part but the ISO ones. -/
theorem C48_trunc_partial (p : Spec.Part) (hp : p.ok) (h1 : p ≠ .isoweek) (h2 : p ≠ .isoyear) (n : Int) :
    ∃ r, dateTrunc (date n) (toPart p) = .ok (date r) ∧ IsTrunc p n r := by
  have hf := monthNoOf_fields n
  cases p with
  | day =>
    refine ⟨n, ?_, trivial, Int.le_refl _, fun s _ h => h⟩
    simp only [toPart, dateTrunc, date, tDay_mul, tDate_midnight, daysOf_civil]
  | week s => exact ⟨_, congrArg Res.ok (stepBack_eq s hp 7 n (by omega)), week_trunc s n hp⟩
  | isoweek => exact absurd rfl h1
  | isoyear => exact absurd rfl h2
  | month =>
    refine ⟨_, ?_, monthPart_trunc monthPart_month (by omega) n⟩
    simp only [toPart, dateTrunc, date, tDate_midnight, tAddDate_eq, tDay_mul, tod_mul, Int.add_zero, addDate_eq]
    rw [show daysOf 1 1 1 = firstOf 12 by decide, (firstOf_no 12).1, (firstOf_no 12).2]
    rw [show 12 + 12 * (yearOf n - 1) + (monthOf n - 1) = 1 * (monthNoOf n / 1) by omega]
    rw [Int.add_sub_cancel]
  | quarter =>
    refine ⟨_, ?_, monthPart_trunc monthPart_quarter (by omega) n⟩
    simp only [toPart, dateTrunc, date, tDate_midnight, tDay_mul]
    rw [daysOf_monthNo, show monthNo (yearOf n) (quarterStart (monthOf n)) = 3 * (monthNoOf n / 3) by
      unfold monthNo quarterStart; omega]
    simp
  | year =>
    refine ⟨_, ?_, monthPart_trunc monthPart_year (by omega) n⟩
    simp only [toPart, dateTrunc, date, tDate_midnight, tAddDate_eq, tDay_mul, tod_mul, Int.add_zero, addDate_eq]
    rw [show daysOf 1 1 1 = firstOf 12 by decide, (firstOf_no 12).1, (firstOf_no 12).2]
    rw [show 12 + 12 * (yearOf n - 1) = 12 * (monthNoOf n / 12) by omega]
    rw [Int.add_sub_cancel]

/-- **C48** ISOYEAR is right exactly when 1 January of the ISO year is not a Friday or Saturday. -/
theorem C48_isoyear_partial (n : Int) :
    (∃ r, dateTrunc (date n) .isoyear = .ok (date r) ∧ IsTrunc .isoyear n r) ↔
      dow (yearStart (isoYear n)) ≠ 5 ∧ dow (yearStart (isoYear n)) ≠ 6 := by
  have e : dateTrunc (date n) .isoyear =
      .ok (date (yearStart (isoYear n) + 1 - weekday (yearStart (isoYear n)))) := by
    simp only [dateTrunc, date, tDay_mul, tDate_midnight, tAddDays]
    rw [daysOf_month _ (by omega) (by omega), monthBefore_one]
    rw [show yearStart (isoYear n) + 0 + 1 - 1 = yearStart (isoYear n) by omega]
    unfold dayNs
    congr 1
    omega
  have ht := isoyear_trunc n
  unfold isoStart at ht
  generalize yearStart (isoYear n) = J at *
  constructor
  · rintro ⟨r, h1, h2⟩
    rw [e] at h1
    have h3 := date_inj (Res.ok.inj h1)
    have h4 := isTrunc_unique h2 ht
    unfold weekday at h3
    unfold dow
    omega
  · intro h
    refine ⟨_, e, ?_⟩
    rwa [show J + 1 - weekday J = J + 3 - (J + 6) % 7 by unfold dow at h; unfold weekday; omega]

/-- **C48** truncating twice changes nothing, and the result is not after the date. -/
theorem C48_idempotent_partial (p : Spec.Part) (hp : p.ok) (h1 : p ≠ .isoweek) (h2 : p ≠ .isoyear) (n : Int) :
    ∃ r, dateTrunc (date n) (toPart p) = .ok (date r) ∧ r ≤ n ∧ dateTrunc (date r) (toPart p) = .ok (date r) := by
  obtain ⟨r, hr, ht⟩ := C48_trunc_partial p hp h1 h2 n
  obtain ⟨q, hq, hu⟩ := C48_trunc_partial p hp h1 h2 r
  refine ⟨r, hr, ht.2.1, ?_⟩
  have : q = r := isTrunc_unique hu ⟨ht.1, Int.le_refl _, fun s _ h => h⟩
  rw [hq, this]

example : dateTrunc (date (daysOf 2024 5 17)) .quarter = .ok (date (daysOf 2024 4 1)) ∧
    dateTrunc (date (daysOf 2024 5 17)) (.week 1) = .ok (date (daysOf 2024 5 13)) ∧
    dateTrunc (date (daysOf 2024 5 17)) .isoyear = .ok (date (daysOf 2024 1 1)) := by decide

/-! ### C49 -/

/-- Full C49 -/
def C49_full : Prop :=
  ∀ p n, IsDate n → p.ok → p ≠ .day → ∃ r, lastDay (date n) (toPart p) = .ok (date r) ∧ IsLast p n r

/-- LAST_DAY to QUARTER is an error for every date. -/
theorem C49_full_false : ¬ C49_full := by
  intro h
  obtain ⟨r, hr, -⟩ := h .quarter 0 (by rw [isDate_iff]; decide) trivial (by simp)
  simp [lastDay, toPart] at hr

/-- **C49** for YEAR and MONTH. -/
theorem C49_year_month_partial (n : Int) :
    (∃ r, lastDay (date n) .year = .ok (date r) ∧ IsLast .year n r) ∧
    (∃ r, lastDay (date n) .month = .ok (date r) ∧ IsLast .month n r) := by
  have hf := monthNoOf_fields n
  refine ⟨⟨_, ?_, monthPart_last monthPart_year (by omega) n⟩, ⟨_, ?_, monthPart_last monthPart_month (by omega) n⟩⟩
  · simp only [lastDay, date, tDate_midnight, tDay_mul]
    rw [daysOf_monthNo, show monthNo (yearOf n + 1) 1 = 12 * (monthNoOf n / 12) + 12 by unfold monthNo; omega]
    rfl
  · simp only [lastDay, date, tAddDate_eq, tDay_mul, tod_mul, Int.add_zero, addDate_eq]
    rw [show monthNoOf n + 12 * 0 + 1 = 1 * (monthNoOf n / 1) + 1 by omega]
    congr 2
    omega

/-- **C49** a week starting on weekday `s` is right exactly when the date's weekday, counted from
Sunday, is not before `s`: always for WEEK, and for WEEK(MONDAY) except on Sundays. -/
theorem C49_week_partial (n s : Int) (hs : 0 ≤ s ∧ s ≤ 6) :
    (∃ r, lastDay (date n) (.week s) = .ok (date r) ∧ IsLast (.week s) n r) ↔ s ≤ dow n := by
  have e : lastDay (date n) (.week s) = .ok (date (n + (6 + s - weekday n))) := by
    simp only [lastDay, date, tAddDays, tDay_mul]; unfold dayNs; congr 1; omega
  have ht := week_last s n hs
  constructor
  · rintro ⟨r, h1, h2⟩
    rw [e] at h1
    have h3 := date_inj (Res.ok.inj h1)
    have h4 := isLast_unique h2 ht
    unfold weekday at h3
    unfold dow
    omega
  · intro h
    refine ⟨_, e, ?_⟩
    rwa [show n + (6 + s - weekday n) = n - (n + 4 - s) % 7 + 6 by unfold dow at h; unfold weekday; omega]

/-- LAST_DAY to ISOWEEK is wrong for every date. -/
theorem C49_isoweek_never (n r : Int) : ¬ (lastDay (date n) .isoweek = .ok (date r) ∧ IsLast .isoweek n r) := by
  rintro ⟨h1, h2⟩
  have e : lastDay (date n) .isoweek = .ok (date (n + (6 - weekday n))) := by
    simp only [lastDay, date, tAddDays, tDay_mul]; unfold dayNs; congr 1; omega
  rw [e] at h1
  have h3 := date_inj (Res.ok.inj h1)
  have h4 := isLast_unique h2 (show IsLast .isoweek n _ from week_last 1 n (by omega))
  unfold weekday at h3
  omega

/-- **C49** ISOYEAR answers 31 December: right exactly when the ISO year ends then. -/
theorem C49_isoyear_partial (n : Int) :
    (∃ r, lastDay (date n) .isoyear = .ok (date r) ∧ IsLast .isoyear n r) ↔
      isoStart (isoYear n + 1) = yearStart (yearOf n + 1) := by
  have e : lastDay (date n) .isoyear = .ok (date (yearStart (yearOf n + 1) - 1)) := by
    simp only [lastDay, date, tDate_midnight, tDay_mul]
    rw [daysOf_month _ (by omega) (by omega), monthBefore_one]
    unfold dayNs; congr 1; omega
  constructor
  · rintro ⟨r, h1, h2⟩
    rw [e] at h1
    have h3 := date_inj (Res.ok.inj h1)
    have h4 := isLast_unique h2 (isoyear_last n)
    omega
  · intro h
    refine ⟨_, e, ?_⟩
    rw [← h]
    exact isoyear_last n

example : lastDay (date (daysOf 2024 2 10)) .month = .ok (date (daysOf 2024 2 29)) ∧
    lastDay (date (daysOf 2024 5 17)) (.week 1) = .ok (date (daysOf 2024 5 19)) ∧
    lastDay (date (daysOf 2024 5 19)) (.week 1) = .ok (date (daysOf 2024 5 26)) := by decide

end Verif.Date
