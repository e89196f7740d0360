import Verif.Model.Interval
import Verif.Props.DateArith

/-!
# C56: justification of intervals; C84: INTERVAL keeps its amount; C85: adding an interval;
C86: the difference of two dates; C293: of two times; C294: operators of intervals
-/

namespace Verif.Interval

open Go Spec Date

/-- The length of an interval in nanoseconds with months of 30 days and days of 24 hours. -/
def total (v : Iv) : Int :=
  (((v.years * 12 + v.months) * 30 + v.days) * 24 + v.hours) * 3600000000000 +
    v.minutes * 60000000000 + v.seconds * 1000000000 + v.nanos

/-- A field within a thousand million either way. -/
def Small (x : Int) : Prop := -1000000000 ≤ x ∧ x ≤ 1000000000

/-- An interval with small fields. -/
def SmallIv (v : Iv) : Prop := Small v.years ∧ Small v.months ∧ Small v.days ∧ Small v.hours ∧ Small v.minutes ∧ Small v.seconds

instance (x : Int) : Decidable (Small x) := by unfold Small; infer_instance
instance (v : Iv) : Decidable (SmallIv v) := by unfold SmallIv; infer_instance

/-- Full C56. -/
def C56_full : Prop :=
  ∀ v, SmallIv v →
    (total (justifyDays v) = total v ∧ (justifyDays v).days.natAbs ≤ 29 ∧ (justifyDays v).months.natAbs ≤ 11) ∧
    (total (justifyHours v) = total v ∧ (justifyHours v).hours.natAbs ≤ 23 ∧ (justifyHours v).minutes.natAbs ≤ 59 ∧
      (justifyHours v).seconds.natAbs ≤ 59) ∧
    total (justifyInterval v) = total v

theorem wrap32_eq {x : Int} (h0 : -2147483648 ≤ x) (h1 : x ≤ 2147483647) : wrap32 x = x := by unfold wrap32; omega

theorem wrap32_iff (x : Int) : wrap32 x = x ↔ -2147483648 ≤ x ∧ x ≤ 2147483647 := by
  unfold wrap32; omega

/-- Go's division as the quotient and the remainder. -/
theorem tdivmod (x : Int) {k : Int} (hk : 0 < k) :
    x = k * x.tdiv k + x.tmod k ∧ x.tmod k < k ∧ -k < x.tmod k ∧ (0 ≤ x → 0 ≤ x.tmod k ∧ 0 ≤ x.tdiv k) ∧
      (x ≤ 0 → x.tmod k ≤ 0 ∧ x.tdiv k ≤ 0) := by
  have h := Int.mul_tdiv_add_tmod x k
  have h1 := Int.tmod_lt_of_pos x hk
  have h2 : -k < x.tmod k := by
    have := Int.tmod_lt_of_pos (-x) hk
    rw [Int.neg_tmod] at this
    omega
  refine ⟨by omega, h1, h2, fun h0 => ⟨Int.tmod_nonneg k h0, Int.tdiv_nonneg h0 (by omega)⟩, fun h0 => ?_⟩
  have h3 := Int.tmod_nonneg k (show 0 ≤ -x by omega)
  have h4 := Int.tdiv_nonneg (show 0 ≤ -x by omega) (Int.le_of_lt hk)
  rw [Int.neg_tmod] at h3
  rw [Int.neg_tdiv] at h4
  omega

theorem daysToMonths_spec {v : Iv} (h : Small v.months) (hd : -1100000000 ≤ v.days ∧ v.days ≤ 1100000000) :
    let w := daysToMonths v
    v.months * 30 + v.days = w.months * 30 + w.days ∧ w.days.natAbs ≤ 29 ∧ w.months = v.months + v.days.tdiv 30 ∧
      w.years = v.years ∧ w.hours = v.hours ∧ w.minutes = v.minutes ∧ w.seconds = v.seconds ∧ w.nanos = v.nanos := by
  have d := tdivmod v.days (k := 30) (by omega)
  unfold Small at *
  have e : wrap32 (v.months + v.days.tdiv 30) = v.months + v.days.tdiv 30 := wrap32_eq (by omega) (by omega)
  unfold daysToMonths
  simp only
  split
  · simp only [e]; refine ⟨by omega, by omega, ?_⟩ <;> simp
  · split
    · simp only [e]; refine ⟨by omega, by omega, ?_⟩ <;> simp
    · refine ⟨by omega, by omega, by omega, ?_⟩ <;> simp

theorem monthsToYears_spec {v : Iv} (hy : Small v.years) (hm : -1100000000 ≤ v.months ∧ v.months ≤ 1100000000) :
    let w := monthsToYears v
    v.years * 12 + v.months = w.years * 12 + w.months ∧ (w.months.natAbs ≤ 11 ↔ v.months.natAbs ≤ 23) ∧
      w.days = v.days ∧ w.hours = v.hours ∧ w.minutes = v.minutes ∧ w.seconds = v.seconds ∧ w.nanos = v.nanos := by
  unfold Small at *
  unfold monthsToYears
  simp only
  split
  · simp only [wrap32_eq (x := v.months - 12) (by omega) (by omega), wrap32_eq (x := v.years + 1) (by omega) (by omega)]
    refine ⟨by omega, by omega, ?_⟩ <;> simp
  · split
    · simp only [wrap32_eq (x := v.months + 12) (by omega) (by omega), wrap32_eq (x := v.years - 1) (by omega) (by omega)]
      refine ⟨by omega, by omega, ?_⟩ <;> simp
    · refine ⟨by omega, by omega, ?_⟩ <;> simp

theorem justifyDays_spec {v : Iv} (hy : Small v.years) (h : Small v.months)
    (hd : -1100000000 ≤ v.days ∧ v.days ≤ 1100000000) :
    total (justifyDays v) = total v ∧ (justifyDays v).days.natAbs ≤ 29 ∧
      ((justifyDays v).months.natAbs ≤ 11 ↔ (v.months + v.days.tdiv 30).natAbs ≤ 23) ∧
      (justifyDays v).hours = v.hours ∧ (justifyDays v).minutes = v.minutes ∧ (justifyDays v).seconds = v.seconds ∧
      (justifyDays v).nanos = v.nanos := by
  have a := daysToMonths_spec h hd
  have dd := tdivmod v.days (k := 30) (by omega)
  have hs : Small (daysToMonths v).years := by rw [a.2.2.2.1]; exact hy
  have b := monthsToYears_spec (v := daysToMonths v) hs (by rw [a.2.2.1]; unfold Small at *; omega)
  unfold justifyDays
  simp only at a b
  refine ⟨?_, by omega, by rw [b.2.1, a.2.2.1], by omega, by omega, by omega, by omega⟩
  unfold total
  omega

/-- **C56** JUSTIFY_DAYS keeps the total and leaves the days in range; the months are left in
range exactly when there were at most 23 of them. -/
theorem C56_days_partial (v : Iv) (h : SmallIv v) :
    total (justifyDays v) = total v ∧ (justifyDays v).days.natAbs ≤ 29 ∧
      ((justifyDays v).months.natAbs ≤ 11 ↔ (v.months + v.days.tdiv 30).natAbs ≤ 23) := by
  have := justifyDays_spec h.1 h.2.1 (by have := h.2.2.1; unfold Small at this; omega)
  exact ⟨this.1, this.2.1, this.2.2.1⟩

theorem secondsToMinutes_spec {v : Iv} (h : SmallIv v) :
    let w := secondsToMinutes v
    v.minutes * 60 + v.seconds = w.minutes * 60 + w.seconds ∧ w.seconds.natAbs ≤ 59 ∧
      w.minutes = v.minutes + v.seconds.tdiv 60 ∧
      w.years = v.years ∧ w.months = v.months ∧ w.days = v.days ∧ w.hours = v.hours ∧ w.nanos = v.nanos := by
  have d := tdivmod v.seconds (k := 60) (by omega)
  obtain ⟨h1, h2, h3, h4, h5, h6⟩ := h
  unfold Small at *
  have e : wrap32 (v.minutes + v.seconds.tdiv 60) = v.minutes + v.seconds.tdiv 60 := wrap32_eq (by omega) (by omega)
  unfold secondsToMinutes
  simp only
  split
  · simp only [e]; refine ⟨by omega, by omega, ?_⟩ <;> simp
  · split
    · simp only [e]; refine ⟨by omega, by omega, ?_⟩ <;> simp
    · refine ⟨by omega, by omega, by omega, ?_⟩ <;> simp

theorem minutesToHours_spec {v : Iv} (hh : Small v.hours) (hm : -1100000000 ≤ v.minutes ∧ v.minutes ≤ 1100000000) :
    let w := minutesToHours v
    (v.hours * 60 + v.minutes = w.hours * 60 + w.minutes ↔ -59 ≤ v.minutes ∨ v.hours.tdiv 60 = v.minutes.tdiv 60) ∧
      w.minutes.natAbs ≤ 59 ∧ w.hours.natAbs ≤ 1100000000 ∧
      w.years = v.years ∧ w.months = v.months ∧ w.days = v.days ∧ w.seconds = v.seconds ∧ w.nanos = v.nanos := by
  have d := tdivmod v.minutes (k := 60) (by omega)
  have d2 := tdivmod v.hours (k := 60) (by omega)
  unfold Small at *
  have e : wrap32 (v.hours + v.minutes.tdiv 60) = v.hours + v.minutes.tdiv 60 := wrap32_eq (by omega) (by omega)
  have e2 : wrap32 (v.hours + v.hours.tdiv 60) = v.hours + v.hours.tdiv 60 := wrap32_eq (by omega) (by omega)
  unfold minutesToHours
  simp only
  split
  · simp only [e]; refine ⟨by omega, by omega, by omega, ?_⟩ <;> simp
  · split
    · simp only [e2]; refine ⟨by omega, by omega, by omega, ?_⟩ <;> simp
    · refine ⟨by omega, by omega, by omega, ?_⟩ <;> simp

theorem hoursToDays_spec {v : Iv} (hd : Small v.days) (hh : v.hours.natAbs ≤ 1100000000) :
    let w := hoursToDays v
    v.days * 24 + v.hours = w.days * 24 + w.hours ∧ w.hours.natAbs ≤ 23 ∧ w.days.natAbs ≤ 1100000000 ∧
      w.years = v.years ∧ w.months = v.months ∧ w.minutes = v.minutes ∧ w.seconds = v.seconds ∧ w.nanos = v.nanos := by
  have d := tdivmod v.hours (k := 24) (by omega)
  unfold Small at *
  have e : wrap32 (v.days + v.hours.tdiv 24) = v.days + v.hours.tdiv 24 := wrap32_eq (by omega) (by omega)
  unfold hoursToDays
  simp only
  split
  · simp only [e]; refine ⟨by omega, by omega, by omega, ?_⟩ <;> simp
  · split
    · simp only [e]; refine ⟨by omega, by omega, by omega, ?_⟩ <;> simp
    · refine ⟨by omega, by omega, by omega, ?_⟩ <;> simp

theorem justifyHours_spec {v : Iv} (h : SmallIv v) :
    (total (justifyHours v) = total v ↔
        -59 ≤ v.minutes + v.seconds.tdiv 60 ∨ v.hours.tdiv 60 = (v.minutes + v.seconds.tdiv 60).tdiv 60) ∧
      (justifyHours v).hours.natAbs ≤ 23 ∧ (justifyHours v).minutes.natAbs ≤ 59 ∧ (justifyHours v).seconds.natAbs ≤ 59 ∧
      (justifyHours v).days.natAbs ≤ 1100000000 ∧ (justifyHours v).years = v.years ∧ (justifyHours v).months = v.months := by
  have a := secondsToMinutes_spec h
  have dd := tdivmod v.seconds (k := 60) (by omega)
  obtain ⟨h1, h2, h3, h4, h5, h6⟩ := h
  simp only at a
  obtain ⟨a1, a2, a3, a4, a5, a6, a7, a8⟩ := a
  have b := minutesToHours_spec (v := secondsToMinutes v) (by rw [a7]; exact h4) (by rw [a3]; unfold Small at *; omega)
  simp only at b
  obtain ⟨b1, b2, b3, b4, b5, b6, b7, b8⟩ := b
  have c := hoursToDays_spec (v := minutesToHours (secondsToMinutes v)) (by rw [b6, a6]; exact h3) b3
  simp only at c
  obtain ⟨c1, c2, c3, c4, c5, c6, c7, c8⟩ := c
  unfold justifyHours
  refine ⟨?_, c2, by omega, by omega, c3, by omega, by omega⟩
  rw [← a3, ← a7, ← b1]
  unfold total
  omega

/-- **C56** JUSTIFY_HOURS leaves all fields in range and keeps the total exactly when there are
no 60 minutes to carry downwards (or the wrong carry happens to be right). -/
theorem C56_hours_partial (v : Iv) (h : SmallIv v) :
    (total (justifyHours v) = total v ↔
        -59 ≤ v.minutes + v.seconds.tdiv 60 ∨ v.hours.tdiv 60 = (v.minutes + v.seconds.tdiv 60).tdiv 60) ∧
      (justifyHours v).hours.natAbs ≤ 23 ∧ (justifyHours v).minutes.natAbs ≤ 59 ∧ (justifyHours v).seconds.natAbs ≤ 59 := by
  have := justifyHours_spec h
  exact ⟨this.1, this.2.1, this.2.2.1, this.2.2.2.1⟩

/-- **C56** JUSTIFY_INTERVAL keeps the total under the same condition and leaves every field but
months in range. -/
theorem C56_interval_partial (v : Iv) (h : SmallIv v) :
    (total (justifyInterval v) = total v ↔
        -59 ≤ v.minutes + v.seconds.tdiv 60 ∨ v.hours.tdiv 60 = (v.minutes + v.seconds.tdiv 60).tdiv 60) ∧
      (justifyInterval v).days.natAbs ≤ 29 ∧ (justifyInterval v).hours.natAbs ≤ 23 ∧
      (justifyInterval v).minutes.natAbs ≤ 59 ∧ (justifyInterval v).seconds.natAbs ≤ 59 := by
  have a := justifyHours_spec h
  have b := justifyDays_spec (v := justifyHours v) (by rw [a.2.2.2.2.2.1]; exact h.1) (by rw [a.2.2.2.2.2.2]; exact h.2.1)
    (by omega)
  unfold justifyInterval
  refine ⟨by rw [b.1]; exact a.1, b.2.1, by omega, by omega, by omega⟩

/-- **C56** An interval that is in range is not changed: JUSTIFY_DAYS leaves alone exactly the intervals of at most 29 days and 11 months
either way. -/
theorem C56_days_unchanged (v : Iv) : justifyDays v = v ↔ v.days.natAbs ≤ 29 ∧ v.months.natAbs ≤ 11 := by
  constructor
  · intro h
    have hd : v.days.natAbs ≤ 29 := by
      have hm := congrArg Iv.days h
      have t := tdivmod v.days (k := 30) (by decide)
      unfold justifyDays monthsToYears daysToMonths at hm
      (repeat' split at hm) <;> simp only at hm <;> omega
    refine ⟨hd, ?_⟩
    have hm := congrArg Iv.months h
    have e : daysToMonths v = v := by unfold daysToMonths; rw [if_neg (by omega), if_neg (by omega)]
    unfold justifyDays at hm
    rw [e] at hm
    unfold monthsToYears at hm
    (repeat' split at hm) <;> simp only [wrap32] at hm <;> omega
  · rintro ⟨h1, h2⟩
    have e : daysToMonths v = v := by unfold daysToMonths; rw [if_neg (by omega), if_neg (by omega)]
    unfold justifyDays
    rw [e]
    unfold monthsToYears
    rw [if_neg (by omega), if_neg (by omega)]

/-- **C56** and JUSTIFY_HOURS exactly those of at most 23 hours, 59 minutes and 59 seconds either way. -/
theorem C56_hours_unchanged (v : Iv) :
    justifyHours v = v ↔ v.hours.natAbs ≤ 23 ∧ v.minutes.natAbs ≤ 59 ∧ v.seconds.natAbs ≤ 59 := by
  have es : v.seconds.natAbs ≤ 59 → secondsToMinutes v = v := fun h => by
    unfold secondsToMinutes; rw [if_neg (by omega), if_neg (by omega)]
  have em : v.minutes.natAbs ≤ 59 → minutesToHours v = v := fun h => by
    unfold minutesToHours; rw [if_neg (by omega), if_neg (by omega)]
  constructor
  · intro h
    have h1 : v.seconds.natAbs ≤ 59 := by
      have hm := congrArg Iv.seconds h
      have t := tdivmod v.seconds (k := 60) (by decide)
      unfold justifyHours hoursToDays minutesToHours secondsToMinutes at hm
      (repeat' split at hm) <;> simp only at hm <;> omega
    have h2 : v.minutes.natAbs ≤ 59 := by
      have hm := congrArg Iv.minutes h
      have t := tdivmod v.minutes (k := 60) (by decide)
      unfold justifyHours at hm
      rw [es h1] at hm
      unfold hoursToDays minutesToHours at hm
      (repeat' split at hm) <;> simp only at hm <;> omega
    refine ⟨?_, h2, h1⟩
    have hm := congrArg Iv.hours h
    have t := tdivmod v.hours (k := 24) (by decide)
    unfold justifyHours at hm
    rw [es h1, em h2] at hm
    unfold hoursToDays at hm
    (repeat' split at hm) <;> simp only at hm <;> omega
  · rintro ⟨h1, h2, h3⟩
    unfold justifyHours
    rw [es h3, em h2]
    unfold hoursToDays
    rw [if_neg (by omega), if_neg (by omega)]

example : justifyDays { months := -11, days := 29 } = { months := -11, days := 29 } ∧ justifyDays { days := 30 } = { months := 1 } := by decide

/-- Ninety minutes backwards become no hour at all. -/
theorem C56_full_false : ¬ C56_full := by
  intro h
  have := (h { minutes := -90 } (by decide)).2.1.1
  exact absurd this (by decide)

/-- 36 months stay 24 months. -/
theorem C56_months_false : ∃ v, SmallIv v ∧ ¬ (justifyDays v).months.natAbs ≤ 11 :=
  ⟨{ months := 36 }, by decide, by decide⟩

example : SmallIv { days := 65, hours := 49, minutes := 130 } ∧
    justifyInterval { days := 65, hours := 49, minutes := 130 } = { months := 2, days := 7, hours := 3, minutes := 10 } := by
  decide

/-! ### C84 -/

/-- Full C84: the part an INTERVAL was written with reads back as the number written. -/
def C84_full : Prop :=
  ∀ n, InI64 n → ∀ p, p ∈ [IPart.year, .month, .day, .hour, .minute, .second] →
    ∃ v, interval n p = .ok v ∧ extract v p = .ok n ∧ ∀ q, q ∈ [IPart.year, .month, .day, .hour, .minute, .second] →
      q ≠ p → extract v q = .ok 0

/-- **C84** exactly when the number fits in 32 bits. -/
theorem C84_partial (n : Int) (p : IPart) (hp : p ∈ [IPart.year, .month, .day, .hour, .minute, .second]) :
    ∃ v, interval n p = .ok v ∧ (extract v p = .ok n ↔ -2147483648 ≤ n ∧ n ≤ 2147483647) ∧
      ∀ q, q ∈ [IPart.year, .month, .day, .hour, .minute, .second] → q ≠ p → extract v q = .ok 0 := by
  rw [← wrap32_iff]
  simp only [List.mem_cons, List.not_mem_nil, or_false] at hp
  rcases hp with rfl | rfl | rfl | rfl | rfl | rfl <;>
    refine ⟨_, rfl, by simp [extract], fun q hq hne => ?_⟩ <;>
    simp only [List.mem_cons, List.not_mem_nil, or_false] at hq <;>
    rcases hq with rfl | rfl | rfl | rfl | rfl | rfl <;>
    first | rfl | exact absurd rfl hne

/-- Three thousand million seconds are stored as minus 1294967296. -/
theorem C84_full_false : ¬ C84_full := by
  intro h
  obtain ⟨v, hv, he, _⟩ := h 3000000000 (by decide) .second (by decide)
  cases hv
  exact absurd he (by decide)

/-- **C84** MAKE_INTERVAL keeps every field that fits in 32 bits. -/
theorem C84_make (y mo d h mi s : Int) (hb : ∀ x ∈ [y, mo, d, h, mi, s], -2147483648 ≤ x ∧ x ≤ 2147483647) :
    extract (makeInterval y mo d h mi s) .year = .ok y ∧ extract (makeInterval y mo d h mi s) .month = .ok mo ∧
    extract (makeInterval y mo d h mi s) .day = .ok d ∧ extract (makeInterval y mo d h mi s) .hour = .ok h ∧
    extract (makeInterval y mo d h mi s) .minute = .ok mi ∧ extract (makeInterval y mo d h mi s) .second = .ok s := by
  have w : ∀ x ∈ [y, mo, d, h, mi, s], wrap32 x = x := fun x hx => wrap32_eq (hb x hx).1 (hb x hx).2
  simp only [List.mem_cons, List.not_mem_nil, or_false, forall_eq_or_imp, forall_eq] at w
  simp [extract, makeInterval, w]

private theorem tdiv_spec (x : Int) (d : Nat) (hd : 0 < d) :
    (x.tdiv d).natAbs * d ≤ x.natAbs ∧ x.natAbs < ((x.tdiv d).natAbs + 1) * d ∧ 0 ≤ x.tdiv d * x := by
  have e : (x.tdiv d).natAbs = x.natAbs / d := by rw [Int.natAbs_tdiv]; rfl
  rw [e]
  refine ⟨Nat.div_mul_le_self _ _, ?_, ?_⟩
  · have := Nat.lt_mul_div_succ x.natAbs hd
    rw [Nat.mul_comm]
    exact this
  · rcases Int.le_total 0 x with h | h
    · exact Int.mul_nonneg (Int.tdiv_nonneg h (Int.natCast_nonneg d)) h
    · have := Int.tdiv_nonneg (a := -x) (b := d) (by omega) (Int.natCast_nonneg d)
      rw [Int.neg_tdiv] at this
      exact Int.mul_nonneg_of_nonpos_of_nonpos (by omega) h

/-- **C84** The fraction of a second is read in whole milliseconds or microseconds, cut off towards zero; intervals cannot be made of such parts. -/
theorem C84_fraction (v : Iv) (n : Int) : ∃ ms us, extract v .millisecond = .ok ms ∧ extract v .microsecond = .ok us ∧
    (ms.natAbs * 1000000 ≤ v.nanos.natAbs ∧ v.nanos.natAbs < (ms.natAbs + 1) * 1000000 ∧ 0 ≤ ms * v.nanos) ∧
    (us.natAbs * 1000 ≤ v.nanos.natAbs ∧ v.nanos.natAbs < (us.natAbs + 1) * 1000 ∧ 0 ≤ us * v.nanos) ∧
    interval n .millisecond = .err ∧ interval n .microsecond = .err ∧ interval n .other = .err := by
  exact ⟨_, _, rfl, rfl, tdiv_spec v.nanos 1000000 (by decide), tdiv_spec v.nanos 1000 (by decide), rfl, rfl, rfl⟩

example : extract { nanos := -1500000 } .millisecond = .ok (-1) ∧ extract { nanos := -1500000 } .microsecond = .ok (-1500) := ⟨rfl, rfl⟩

/-! ### C85 -/

/-- An interval of days and time only. -/
def Short (v : Iv) : Prop := v.years = 0 ∧ v.months = 0

/-- Full C85: adding and then subtracting days and time gives the value back and moves it by their
length, and adding n months keeps the day or takes the last day of the month, as DATE_ADD does. -/
def C85_full : Prop :=
  (∀ t v, Short v → addIv t v = t + total v ∧ subIv t v = t - total v) ∧
  (∀ n k, Small k → Moved n k (tDay (addIv (date n) { months := k })))

theorem addIv_eq (t : Int) (v : Iv) :
    addIv t v = addDate (tDay t) v.years v.months v.days * dayNs + tod t +
      (v.hours * 3600000000000 + v.minutes * 60000000000 + v.seconds * 1000000000 + v.nanos) := by
  have h := tFields t
  unfold addIv tDate addDate
  unfold hour minute sec at *
  omega

theorem subIv_eq (t : Int) (v : Iv) :
    subIv t v = addDate (tDay t) (-v.years) (-v.months) (-v.days) * dayNs + tod t -
      (v.hours * 3600000000000 + v.minutes * 60000000000 + v.seconds * 1000000000 + v.nanos) := by
  have h := tFields t
  unfold subIv tDate addDate
  simp only [Int.sub_eq_add_neg] at *
  unfold hour minute sec at *
  omega

/-- **C85** days and time move a value by exactly their length, in both directions. -/
theorem C85_short_partial (t : Int) (v : Iv) (h : Short v) :
    addIv t v = t + total v ∧ subIv t v = t - total v := by
  have e := tDay_tod t
  rw [addIv_eq, subIv_eq, h.1, h.2, addDate_days]
  simp only [Int.neg_zero, addDate_days]
  unfold total
  rw [h.1, h.2]
  unfold dayNs at *
  omega

/-- **C85** years and months: right exactly when the day exists in the month reached. -/
theorem C85_months_partial (n : Int) (v : Iv) (hd : v.days = 0) (hh : v.hours = 0) (hm : v.minutes = 0)
    (hs : v.seconds = 0) (hn : v.nanos = 0) :
    (∃ r, addIv (date n) v = date r ∧ (Moved n (12 * v.years + v.months) r ↔
      (civil n).d ≤ daysIn ((12 * (civil n).y + (civil n).m - 1 + (12 * v.years + v.months)) / 12)
        ((12 * (civil n).y + (civil n).m - 1 + (12 * v.years + v.months)) % 12 + 1))) := by
  have hl : 12 * (civil n).y + (civil n).m - 1 = monthNoOf n := by unfold civil monthNoOf monthNo; simp only; omega
  rw [hl, ← lenOf_eq]
  show ∃ r, addIv (date n) v = date r ∧ (Moved n (12 * v.years + v.months) r ↔
    dayOf n ≤ lenOf (monthNoOf n + (12 * v.years + v.months)))
  refine ⟨addDate n v.years v.months 0, ?_, ?_⟩
  · rw [addIv_eq, hd, hh, hm, hs, hn]
    unfold date
    rw [tDay_mul, tod_mul]
    omega
  · rw [addDate_eq, show monthNoOf n + 12 * v.years + v.months = monthNoOf n + (12 * v.years + v.months) by omega]
    have hb := dayOf_bound n
    have hm := moved_shifted n (12 * v.years + v.months)
    constructor
    · intro h
      have e := moved_unique h hm
      unfold shifted at e
      omega
    · intro h
      have e : firstOf (monthNoOf n + (12 * v.years + v.months)) + dayOf n + 0 - 1 = shifted n (12 * v.years + v.months) := by
        unfold shifted
        omega
      rw [e]
      exact hm

/-- 31 January plus one month is 2 or 3 March. -/
theorem C85_full_false : ¬ C85_full := by
  intro h
  have := (h.2 30 1 (by decide)).1
  exact absurd this (by decide)

/-! ### C86 -/

/-- Full C86: the difference of two dates is the number of days between them, and adding it back
gives the first date. -/
def C86_full : Prop :=
  ∀ a b, IsDate a → IsDate b → dateMinus (date a) (date b) = { days := a - b } ∧
    addIv (date b) (dateMinus (date a) (date b)) = date a

/-- **C86** exactly up to 106751 days, some 292 years. -/
theorem C86_partial (a b : Int) (ha : IsDate a) (hb : IsDate b) :
    dateMinus (date a) (date b) = { days := a - b } ↔ -106751 ≤ a - b ∧ a - b ≤ 106751 := by
  rw [isDate_iff] at ha hb
  have e : date a - date b = (a - b) * 86400000000000 := by unfold date dayNs; omega
  unfold dateMinus
  simp only [Iv.mk.injEq, and_true, true_and]
  unfold dayNs
  rcases Int.lt_or_le ((a - b) * 86400000000000) (-9223372036854775808) with h | h
  · have hs : tSub (date a) (date b) = -9223372036854775808 := by unfold tSub; rw [if_pos (by omega)]
    rw [hs, show wrap32 ((-9223372036854775808 : Int).tdiv 86400000000000) = -106751 by decide]
    omega
  · rcases Int.lt_or_le 9223372036854775807 ((a - b) * 86400000000000) with h2 | h2
    · have hs : tSub (date a) (date b) = 9223372036854775807 := by
        unfold tSub; rw [if_neg (by omega), if_pos (by omega)]
      rw [hs, show wrap32 ((9223372036854775807 : Int).tdiv 86400000000000) = 106751 by decide]
      omega
    · have hs : tSub (date a) (date b) = (a - b) * 86400000000000 := by
        unfold tSub; rw [if_neg (by omega), if_neg (by omega), e]
      rw [hs, Int.mul_tdiv_cancel _ (by decide), wrap32_eq (by omega) (by omega)]
      omega

/-- **C86** within that range the difference can be added back. -/
theorem C86_back_partial (a b : Int) (ha : IsDate a) (hb : IsDate b) (h : -106751 ≤ a - b ∧ a - b ≤ 106751) :
    addIv (date b) (dateMinus (date a) (date b)) = date a := by
  rw [(C86_partial a b ha hb).mpr h, (C85_short_partial _ _ ⟨rfl, rfl⟩).1]
  unfold total date dayNs
  simp only
  omega

/-- 9999-12-31 minus 0001-01-01 is 106751 days. -/
theorem C86_full_false : ¬ C86_full := by
  intro h
  have ha : IsDate 2932896 := by rw [isDate_iff]; decide
  have hb : IsDate (-719162) := by rw [isDate_iff]; decide
  have := (C86_partial _ _ ha hb).mp (h _ _ ha hb).1
  omega

/-! ### C293 -/

/-- A DATETIME or TIMESTAMP of the years 1 to 9999. -/
def IsMoment (t : Int) : Prop := IsDate (tDay t)

/-- Full C293: the difference of two times is the time between them, without days and months, and adding it back gives the first one. -/
def C293_full (D : Durations) : Prop :=
  ∀ a b, IsMoment a → IsMoment b → Short (timeMinus D a b) ∧ (timeMinus D a b).days = 0 ∧ total (timeMinus D a b) = a - b ∧
    addIv b (timeMinus D a b) = a ∧ subIv a (timeMinus D a b) = b

theorem tSub_inI64 (a b : Int) : InI64 (tSub a b) := by
  unfold tSub InI64; split
  · omega
  · split <;> omega

theorem tSub_iff (a b : Int) : tSub a b = a - b ↔ InI64 (a - b) := by
  unfold tSub InI64; split
  · omega
  · split <;> omega

/-- **C293** exactly up to 2⁶³ nanoseconds, some 292 years, however the duration is split. -/
theorem C293_partial (D : Durations) (a b : Int) :
    Short (timeMinus D a b) ∧ (timeMinus D a b).days = 0 ∧ (total (timeMinus D a b) = a - b ↔ InI64 (a - b)) ∧
      (addIv b (timeMinus D a b) = a ↔ InI64 (a - b)) ∧ (subIv a (timeMinus D a b) = b ↔ InI64 (a - b)) := by
  obtain ⟨h1, h2, h3⟩ := D.date _ (tSub_inI64 a b)
  have h4 := D.time _ (tSub_inI64 a b)
  have hs : Short (timeMinus D a b) := ⟨h1, h2⟩
  have ht : total (timeMinus D a b) = tSub a b := by
    unfold total timeMinus
    rw [h1, h2, h3]
    omega
  obtain ⟨ha, -⟩ := C85_short_partial b _ hs
  obtain ⟨-, hb⟩ := C85_short_partial a _ hs
  rw [ha, hb, ht, ← tSub_iff]
  exact ⟨hs, h3, Iff.rfl, by omega, by omega⟩

/-- 9999-12-31 minus 0001-01-01. -/
theorem C293_full_false (D : Durations) : ¬ C293_full D := by
  intro h
  have ha : IsMoment (date 2932896) := by unfold IsMoment; rw [isDate_iff]; decide
  have hb : IsMoment (date (-719162)) := by unfold IsMoment; rw [isDate_iff]; decide
  have := ((C293_partial D _ _).2.2.1).mp (h _ _ ha hb).2.2.1
  exact absurd this (by decide)

/-- One way of splitting. -/
def durations : Durations where
  ofDuration d := { hours := d.tdiv 3600000000000, minutes := (d.tmod 3600000000000).tdiv 60000000000,
                    seconds := (d.tmod 60000000000).tdiv 1000000000, nanos := d.tmod 1000000000 }
  date := fun _ _ => ⟨rfl, rfl, rfl⟩
  time := fun d _ => by
    have h1 := Int.mul_tdiv_add_tmod d 3600000000000
    have h2 := Int.mul_tdiv_add_tmod (d.tmod 3600000000000) 60000000000
    have h3 := Int.mul_tdiv_add_tmod (d.tmod 60000000000) 1000000000
    have h4 : (d.tmod 3600000000000).tmod 60000000000 = d.tmod 60000000000 := Int.tmod_tmod_of_dvd _ (by decide)
    have h5 : (d.tmod 60000000000).tmod 1000000000 = d.tmod 1000000000 := Int.tmod_tmod_of_dvd _ (by decide)
    rw [h4] at h2
    rw [h5] at h3
    simp only
    omega

/-- The case of the tests of the repository: 36:34:56.789. -/
example : timeMinus durations (18779 * 86400000000000 + 45296789000000) (18778 * 86400000000000) =
    { hours := 36, minutes := 34, seconds := 56, nanos := 789000000 } := by decide

/-! ### C294 -/

/-- Full C294: intervals are compared by their length, with months of 30 days and days of 24 hours. -/
def C294_full : Prop :=
  ∀ a b : Iv, ivOp .eq a b = .ok (decide (total a = total b)) ∧ ivOp .ne a b = .ok (decide (total a ≠ total b)) ∧
    ivOp .lt a b = .ok (decide (total a < total b)) ∧ ivOp .le a b = .ok (decide (total a ≤ total b)) ∧
    ivOp .gt a b = .ok (decide (total b < total a)) ∧ ivOp .ge a b = .ok (decide (total b ≤ total a))

/-- **C294** there is no wrong answer: every operator with an INTERVAL on the left is an error. -/
theorem C294_partial {α β} (op : IvOp) (a : Iv) (b : β) : ivOp (α := α) op a b = .err := by
  cases op <;> rfl

theorem C294_full_false : ¬ C294_full := by
  intro h
  have := (h {} {}).1
  rw [C294_partial] at this
  cases this

end Verif.Interval
