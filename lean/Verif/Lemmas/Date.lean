import Verif.Model.Date

/-! # Lemmas on the date functions -/

namespace Verif.Date

open Go Spec

theorem monthNoOf_fields (n : Int) : yearOf n = monthNoOf n / 12 ∧ monthOf n = monthNoOf n % 12 + 1 ∧
    firstOf (monthNoOf n) + dayOf n - 1 = n := by
  have h := Go.civil_valid n
  have e := daysOf_civil n
  rw [daysOf_monthNo] at e
  unfold monthNoOf
  refine ⟨by unfold monthNo; omega, by unfold monthNo; omega, by omega⟩

/-- The length of month number `k`. -/
def lenOf (k : Int) : Int := firstOf (k + 1) - firstOf k

theorem lenOf_eq (k : Int) : lenOf k = daysIn (k / 12) (k % 12 + 1) := by
  unfold lenOf
  rw [firstOf_succ, ← monthLen_eq _ (by omega) (by omega)]
  omega

theorem lenOf_bound (k : Int) : 28 ≤ lenOf k := by
  rw [lenOf_eq]; exact daysIn_pos _ _

theorem in_month {k d : Int} (h0 : 1 ≤ d) (h1 : d ≤ lenOf k) :
    monthNoOf (firstOf k + d - 1) = k ∧ dayOf (firstOf k + d - 1) = d := by
  have hk : monthNoOf (firstOf k + d - 1) = k := by
    unfold lenOf at h1
    exact monthNoOf_eq (by omega) (by omega)
  have := (monthNoOf_fields (firstOf k + d - 1)).2.2
  rw [hk] at this
  exact ⟨hk, by omega⟩

theorem firstOf_no (k : Int) : monthNoOf (firstOf k) = k ∧ dayOf (firstOf k) = 1 := by
  have := in_month (k := k) (d := 1) (by omega) (by have := lenOf_bound k; omega)
  rwa [show firstOf k + 1 - 1 = firstOf k by omega] at this

theorem dayOf_bound (n : Int) : 1 ≤ dayOf n ∧ dayOf n ≤ lenOf (monthNoOf n) := by
  have h := monthNoOf_fields n
  have h2 := monthNoOf_spec n
  unfold lenOf
  omega

theorem addDate_eq (n dy dm dd : Int) :
    addDate n dy dm dd = firstOf (monthNoOf n + 12 * dy + dm) + dayOf n + dd - 1 := by
  unfold addDate
  rw [daysOf_monthNo]
  have h : monthNo (yearOf n + dy) (monthOf n + dm) = monthNoOf n + 12 * dy + dm := by
    unfold monthNoOf monthNo; omega
  rw [h]; omega

theorem tDate_midnight (y m d : Int) : tDate y m d 0 0 0 0 = daysOf y m d * dayNs := by
  unfold tDate; omega

/-- What adding `k` months to day `n` gives. -/
def shifted (n k : Int) : Int := firstOf (monthNoOf n + k) + min (dayOf n) (lenOf (monthNoOf n + k)) - 1

theorem shifted_spec (n k : Int) : monthNoOf (shifted n k) = monthNoOf n + k ∧
    dayOf (shifted n k) = min (dayOf n) (lenOf (monthNoOf n + k)) := by
  have h1 := dayOf_bound n
  have h2 := lenOf_bound (monthNoOf n + k)
  exact in_month (by omega) (by omega)

private theorem shift_core (n k : Int) :
    (monthOf (firstOf (monthNoOf n + k)) =
      monthOf (daysOf (yearOf (firstOf (monthNoOf n + k))) (monthOf (firstOf (monthNoOf n + k))) (dayOf n))) ↔
      dayOf n ≤ lenOf (monthNoOf n + k) := by
  generalize monthNoOf n + k = j
  have h0 := dayOf_bound n
  have hj := lenOf_bound j
  have hj1 := lenOf_bound (j + 1)
  have hlen : lenOf (monthNoOf n) ≤ 31 := by
    rw [lenOf_eq]; unfold daysIn; repeat' split
    all_goals omega
  have h1 := monthNoOf_fields (firstOf j)
  rw [(firstOf_no j).1] at h1
  rw [daysOf_monthNo, show monthNo (yearOf (firstOf j)) (monthOf (firstOf j)) = j by unfold monthNo; omega]
  rw [h1.2.1]
  generalize dayOf n = d at *
  constructor
  · intro h
    rcases Int.lt_or_le (lenOf j) d with h2 | h2
    · have h3 : monthNoOf (firstOf j + (d - 1)) = j + 1 := by
        unfold lenOf at *
        exact monthNoOf_eq (by omega) (by omega)
      have h4 := (monthNoOf_fields (firstOf j + (d - 1))).2.1
      rw [h3] at h4
      omega
    · exact h2
  · intro h
    have h3 := (in_month h0.1 h).1
    have h4 := (monthNoOf_fields (firstOf j + d - 1)).2.1
    rw [h3] at h4
    rw [show firstOf j + (d - 1) = firstOf j + d - 1 by omega, h4]

theorem first_eq (n : Int) : daysOf (yearOf n) (monthOf n) 1 = firstOf (monthNoOf n) := by
  rw [daysOf_monthNo]; unfold monthNoOf; omega

/-- addMonth moves the month and clamps the day.  The time of day is kept unless the day was clamped. -/
theorem addMonth_day (t m : Int) : tDay (addMonth t m) = shifted (tDay t) m := by
  unfold addMonth
  simp only [tDate_midnight, tDay_mul, tAddDate_eq, tod_mul, Int.add_zero, first_eq]
  have hf := firstOf_no (monthNoOf (tDay t))
  have hm : addDate (firstOf (monthNoOf (tDay t))) 0 m 0 = firstOf (monthNoOf (tDay t) + m) := by
    rw [addDate_eq, hf.1, hf.2]
    rw [show monthNoOf (tDay t) + 12 * 0 + m = monthNoOf (tDay t) + m by omega]; omega
  rw [hm]
  have hc := shift_core (tDay t) m
  have hb := tod_bound t
  have hd := dayOf_bound (tDay t)
  unfold shifted
  by_cases h : dayOf (tDay t) ≤ lenOf (monthNoOf (tDay t) + m)
  · rw [if_neg (by simpa using hc.mpr h), tDay_add hb.1 hb.2, addDate_eq]
    rw [show monthNoOf (tDay t) + 12 * 0 + m = monthNoOf (tDay t) + m by omega]; omega
  · rw [if_pos (by simpa using fun e => h (hc.mp e)), tDay_mul, addDate_eq, hf.1, hf.2]
    rw [show monthNoOf (tDay t) + 12 * 0 + (m + 1) = monthNoOf (tDay t) + m + 1 by omega]
    unfold lenOf at *
    omega

theorem addYear_day (t y : Int) : tDay (addYear t y) = shifted (tDay t) (12 * y) := by
  unfold addYear
  simp only [tDate_midnight, tDay_mul, tAddDate_eq, tod_mul, Int.add_zero, first_eq]
  have hf := firstOf_no (monthNoOf (tDay t))
  have hm : addDate (firstOf (monthNoOf (tDay t))) y 0 0 = firstOf (monthNoOf (tDay t) + 12 * y) := by
    rw [addDate_eq, hf.1, hf.2]
    rw [show monthNoOf (tDay t) + 12 * y + 0 = monthNoOf (tDay t) + 12 * y by omega]; omega
  rw [hm]
  have hc := shift_core (tDay t) (12 * y)
  have hb := tod_bound t
  have hd := dayOf_bound (tDay t)
  unfold shifted
  by_cases h : dayOf (tDay t) ≤ lenOf (monthNoOf (tDay t) + 12 * y)
  · rw [if_neg (by simpa using hc.mpr h), tDay_add hb.1 hb.2, addDate_eq]
    rw [show monthNoOf (tDay t) + 12 * y + 0 = monthNoOf (tDay t) + 12 * y by omega]; omega
  · rw [if_pos (by simpa using fun e => h (hc.mp e)), tDay_mul, addDate_eq, hf.1, hf.2]
    unfold lenOf at *
    omega

/-- On a date the results are dates. -/
theorem addMonth_date (n m : Int) : addMonth (n * dayNs) m = shifted n m * dayNs := by
  have h := addMonth_day (n * dayNs) m
  rw [tDay_mul] at h
  have h2 : tod (addMonth (n * dayNs) m) = 0 := by
    unfold addMonth
    simp only [tDate_midnight, tDay_mul, tAddDate_eq, tod_mul, Int.add_zero, apply_ite tod, ite_self]
  have := tDay_tod (addMonth (n * dayNs) m)
  rw [h, h2] at this
  omega

theorem addYear_date (n y : Int) : addYear (n * dayNs) y = shifted n (12 * y) * dayNs := by
  have h := addYear_day (n * dayNs) y
  rw [tDay_mul] at h
  have h2 : tod (addYear (n * dayNs) y) = 0 := by
    unfold addYear
    simp only [tDate_midnight, tDay_mul, tAddDate_eq, tod_mul, Int.add_zero, apply_ite tod, ite_self]
  have := tDay_tod (addYear (n * dayNs) y)
  rw [h, h2] at this
  omega

theorem tAddDays (t k : Int) : tAddDate t 0 0 k = t + k * dayNs := by
  rw [tAddDate_eq, addDate_days]
  have := tDay_tod t
  unfold dayNs at *
  omega

end Verif.Date
