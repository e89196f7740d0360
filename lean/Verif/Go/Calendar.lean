/-!
# The proleptic Gregorian calendar of Go's time package

Part of the trusted model of Go.  A date is the number of days since 1970-01-01.
`yearOf` follows time.absDate (400-, 100-, 4- and 1-year cycles), `daysOf` follows
time.Date: months outside 1..12 carry into the year, days are added.
All arithmetic is on unbounded integers; the overflow of Go's 64-bit second counter
beyond ±292 billion years is not modelled.
-/

namespace Verif.Go

/-- time.isLeap -/
def isLeap (y : Int) : Bool := decide (y % 4 = 0 ∧ (y % 100 ≠ 0 ∨ y % 400 = 0))

/-- The day number of January 1 of year `y`. -/
def yearStart (y : Int) : Int := 365 * (y - 1) + (y - 1) / 4 - (y - 1) / 100 + (y - 1) / 400 - 719162

/-- The number of days in year `y`. -/
def yearLen (y : Int) : Int := if isLeap y then 366 else 365

/-- time.absDate: the year containing day `n`. -/
def yearOf (n : Int) : Int :=
  let d := n + 719162
  let r := d % 146097
  let b := min 3 (r / 36524)
  let r1 := r - 36524 * b
  let r2 := r1 % 1461
  400 * (d / 146097) + 100 * b + 4 * (r1 / 1461) + min 3 (r2 / 365) + 1

/-- The day of the year, counted from 0. -/
def ydayOf (n : Int) : Int := n - yearStart (yearOf n)

theorem yearStart_succ (y : Int) : yearStart (y + 1) = yearStart y + yearLen y := by
  unfold yearStart yearLen isLeap
  split <;> simp_all <;> omega

theorem yearLen_pos (y : Int) : 365 ≤ yearLen y ∧ yearLen y ≤ 366 := by unfold yearLen; split <;> omega

theorem yearStart_le {x y : Int} (h : x ≤ y) : yearStart x ≤ yearStart y := by unfold yearStart; omega

theorem yearStart_lt {x y : Int} (h : x < y) : yearStart x + 365 ≤ yearStart y := by unfold yearStart; omega

private theorem cycle (a b c e : Int) (hb : 0 ≤ b ∧ b ≤ 3) (hc : 0 ≤ c ∧ c ≤ 24) (he : 0 ≤ e ∧ e ≤ 3) :
    yearStart (400 * a + 100 * b + 4 * c + e + 1) = 146097 * a + 36524 * b + 1461 * c + 365 * e - 719162 := by
  unfold yearStart
  have h4 : (400 * a + 100 * b + 4 * c + e + 1 - 1) / 4 = 100 * a + 25 * b + c := by omega
  have h100 : (400 * a + 100 * b + 4 * c + e + 1 - 1) / 100 = 4 * a + b := by omega
  have h400 : (400 * a + 100 * b + 4 * c + e + 1 - 1) / 400 = a := by omega
  rw [h4, h100, h400]; omega

private theorem cycleLen (a b c e : Int) (hb : 0 ≤ b ∧ b ≤ 3) (hc : 0 ≤ c ∧ c ≤ 24) (he : e = 3) (h : c < 24 ∨ b = 3) :
    yearLen (400 * a + 100 * b + 4 * c + e + 1) = 366 := by
  unfold yearLen isLeap
  rw [if_pos]
  simp only [decide_eq_true_eq]
  omega

/-- Day `n` lies in the year `yearOf n`. -/
theorem yearOf_spec (n : Int) : yearStart (yearOf n) ≤ n ∧ n < yearStart (yearOf n + 1) := by
  rw [yearStart_succ]
  unfold yearOf
  simp only
  generalize hd : n + 719162 = d
  obtain ⟨a, ha⟩ : ∃ a, d / 146097 = a := ⟨_, rfl⟩
  obtain ⟨r, hr⟩ : ∃ r, d % 146097 = r := ⟨_, rfl⟩
  rw [ha, hr]
  have h1 : d = 146097 * a + r ∧ 0 ≤ r ∧ r < 146097 := by omega
  obtain ⟨b, hb⟩ : ∃ b, min 3 (r / 36524) = b := ⟨_, rfl⟩
  rw [hb]
  obtain ⟨r1, hr1⟩ : ∃ r1, r - 36524 * b = r1 := ⟨_, rfl⟩
  rw [hr1]
  have h2 : 0 ≤ b ∧ b ≤ 3 ∧ 0 ≤ r1 ∧ (r1 < 36524 ∨ (b = 3 ∧ r1 < 36525)) := by omega
  obtain ⟨c, hc⟩ : ∃ c, r1 / 1461 = c := ⟨_, rfl⟩
  obtain ⟨r2, hr2⟩ : ∃ r2, r1 % 1461 = r2 := ⟨_, rfl⟩
  rw [hc, hr2]
  have h3 : r1 = 1461 * c + r2 ∧ 0 ≤ r2 ∧ r2 < 1461 ∧ 0 ≤ c ∧ c ≤ 24 := by omega
  obtain ⟨e, he⟩ : ∃ e, min 3 (r2 / 365) = e := ⟨_, rfl⟩
  rw [he]
  have h4 : 0 ≤ e ∧ e ≤ 3 ∧ 365 * e ≤ r2 ∧ (r2 < 365 * (e + 1) ∨ (e = 3 ∧ r2 = 1460)) := by omega
  rw [cycle a b c e (by omega) (by omega) (by omega)]
  have hlen := yearLen_pos (400 * a + 100 * b + 4 * c + e + 1)
  refine ⟨by omega, ?_⟩
  rcases h4.2.2.2 with h5 | h5
  · omega
  · rw [cycleLen a b c e (by omega) (by omega) h5.1 (by omega)]
    omega

theorem yearOf_eq {n y : Int} (h1 : yearStart y ≤ n) (h2 : n < yearStart (y + 1)) : yearOf n = y := by
  have := yearOf_spec n
  rcases Int.lt_trichotomy (yearOf n) y with h | h | h
  · have := yearStart_le (show yearOf n + 1 ≤ y by omega); omega
  · exact h
  · have := yearStart_le (show y + 1 ≤ yearOf n by omega); omega

theorem yearOf_mono {n m : Int} (h : n ≤ m) : yearOf n ≤ yearOf m := by
  have h1 := yearOf_spec n
  have h2 := yearOf_spec m
  rcases Int.lt_or_le (yearOf m) (yearOf n) with h3 | h3
  · have := yearStart_le (show yearOf m + 1 ≤ yearOf n by omega); omega
  · exact h3

theorem ydayOf_spec (n : Int) : 0 ≤ ydayOf n ∧ ydayOf n < yearLen (yearOf n) := by
  have := yearOf_spec n
  rw [yearStart_succ] at this
  unfold ydayOf; omega

/-- The number of days of the year before month `m` (1..12, 13 for the whole year). -/
def monthBefore (leap : Bool) (m : Int) : Int :=
  let k : Int := if leap then 1 else 0
  if m ≤ 1 then 0
  else if m = 2 then 31
  else if m = 3 then 59 + k
  else if m = 4 then 90 + k
  else if m = 5 then 120 + k
  else if m = 6 then 151 + k
  else if m = 7 then 181 + k
  else if m = 8 then 212 + k
  else if m = 9 then 243 + k
  else if m = 10 then 273 + k
  else if m = 11 then 304 + k
  else if m = 12 then 334 + k
  else 365 + k

/-- The month of a day of the year. -/
def monthIn (leap : Bool) (yd : Int) : Int :=
  let k : Int := if leap then 1 else 0
  if yd < 31 then 1
  else if yd < 59 + k then 2
  else if yd < 90 + k then 3
  else if yd < 120 + k then 4
  else if yd < 151 + k then 5
  else if yd < 181 + k then 6
  else if yd < 212 + k then 7
  else if yd < 243 + k then 8
  else if yd < 273 + k then 9
  else if yd < 304 + k then 10
  else if yd < 334 + k then 11
  else 12

/-- The number of days of a month. -/
def monthLen (y m : Int) : Int := monthBefore (isLeap y) (m + 1) - monthBefore (isLeap y) m

/-- time.absDate: month and day of the month. -/
def monthOf (n : Int) : Int := monthIn (isLeap (yearOf n)) (ydayOf n)
/-- The day of the month, counted from 1. -/
def dayOf (n : Int) : Int := ydayOf n - monthBefore (isLeap (yearOf n)) (monthOf n) + 1

/-- time.Date for whole days: the day number of year `y`, month `m`, day `d`, with `m` and `d`
normalised. -/
def daysOf (y m d : Int) : Int :=
  let y' := y + (m - 1) / 12
  yearStart y' + monthBefore (isLeap y') ((m - 1) % 12 + 1) + d - 1

private theorem monthIn_nat : ∀ leap : Bool, ∀ n : Nat, n < (if leap then 366 else 365) →
    1 ≤ monthIn leap n ∧ monthIn leap n ≤ 12 ∧ monthBefore leap (monthIn leap n) ≤ n ∧
      (n : Int) < monthBefore leap (monthIn leap n + 1) := by
  decide +kernel

theorem monthIn_spec (leap : Bool) (yd : Int) (h0 : 0 ≤ yd) (h1 : yd < if leap then 366 else 365) :
    1 ≤ monthIn leap yd ∧ monthIn leap yd ≤ 12 ∧ monthBefore leap (monthIn leap yd) ≤ yd ∧
      yd < monthBefore leap (monthIn leap yd + 1) := by
  obtain ⟨n, rfl⟩ := Int.eq_ofNat_of_zero_le h0
  refine monthIn_nat leap n ?_
  cases leap <;> simp at h1 ⊢ <;> omega

theorem month_cases {m : Int} (h0 : 1 ≤ m) (h1 : m ≤ 12) :
    m = 1 ∨ m = 2 ∨ m = 3 ∨ m = 4 ∨ m = 5 ∨ m = 6 ∨ m = 7 ∨ m = 8 ∨ m = 9 ∨ m = 10 ∨ m = 11 ∨ m = 12 := by
  omega

theorem monthBefore_succ (leap : Bool) {m : Int} (h0 : 1 ≤ m) (h1 : m ≤ 12) :
    monthBefore leap m + 28 ≤ monthBefore leap (m + 1) ∧ monthBefore leap (m + 1) ≤ monthBefore leap m + 31 := by
  rcases month_cases h0 h1 with h | h | h | h | h | h | h | h | h | h | h | h <;> subst h <;> cases leap <;> decide

theorem monthBefore_mono (leap : Bool) {a b : Int} (h0 : 1 ≤ a) (h1 : a ≤ b) (h2 : b ≤ 13) :
    monthBefore leap a ≤ monthBefore leap b := by
  obtain ⟨k, hk⟩ := Int.eq_ofNat_of_zero_le (show 0 ≤ b - a by omega)
  induction k generalizing b with
  | zero => have : b = a := by omega
            subst this; exact Int.le_refl _
  | succ k ih =>
    have h := ih (b := b - 1) (by omega) (by omega) (by omega)
    have h3 := monthBefore_succ leap (m := b - 1) (by omega) (by omega)
    rw [Int.sub_add_cancel] at h3
    omega

theorem monthBefore_one (leap : Bool) : monthBefore leap 1 = 0 := by cases leap <;> decide
theorem monthBefore_year (y : Int) : monthBefore (isLeap y) 13 = yearLen y := by
  unfold yearLen; cases isLeap y <;> decide

theorem monthLen_bound (y : Int) {m : Int} (h0 : 1 ≤ m) (h1 : m ≤ 12) : 28 ≤ monthLen y m ∧ monthLen y m ≤ 31 := by
  have := monthBefore_succ (isLeap y) h0 h1
  unfold monthLen; omega

theorem monthIn_eq {leap : Bool} {yd m : Int} (h0 : 1 ≤ m) (h1 : m ≤ 12) (h2 : monthBefore leap m ≤ yd)
    (h3 : yd < monthBefore leap (m + 1)) : monthIn leap yd = m := by
  have h4 := monthBefore_mono leap (a := 1) (b := m) (by omega) h0 (by omega)
  have h5 := monthBefore_mono leap (a := m + 1) (b := 13) (by omega) (by omega) (by omega)
  rw [monthBefore_one] at h4
  have h6 : monthBefore leap 13 = if leap then 366 else 365 := by cases leap <;> decide
  have hs := monthIn_spec leap yd (by omega) (by rw [← h6]; omega)
  rcases Int.lt_trichotomy (monthIn leap yd) m with h | h | h
  · have := monthBefore_mono leap (a := monthIn leap yd + 1) (b := m) (by omega) (by omega) (by omega); omega
  · exact h
  · have := monthBefore_mono leap (a := m + 1) (b := monthIn leap yd) (by omega) (by omega) (by omega); omega

/-- The calendar fields of a day are a valid date. -/
theorem civil_valid (n : Int) :
    1 ≤ monthOf n ∧ monthOf n ≤ 12 ∧ 1 ≤ dayOf n ∧ dayOf n ≤ monthLen (yearOf n) (monthOf n) := by
  have h := ydayOf_spec n
  have hs := monthIn_spec (isLeap (yearOf n)) (ydayOf n) h.1 h.2
  unfold dayOf monthLen
  unfold monthOf
  omega

theorem daysOf_month {y m : Int} (d : Int) (h0 : 1 ≤ m) (h1 : m ≤ 12) :
    daysOf y m d = yearStart y + monthBefore (isLeap y) m + d - 1 := by
  have h2 : (m - 1) / 12 = 0 := by omega
  have h3 : (m - 1) % 12 + 1 = m := by omega
  simp only [daysOf, h2, h3, Int.add_zero]

/-- Rebuilding a day from its fields gives the day. -/
theorem daysOf_civil (n : Int) : daysOf (yearOf n) (monthOf n) (dayOf n) = n := by
  have h := civil_valid n
  rw [daysOf_month _ h.1 h.2.1]
  unfold dayOf ydayOf
  omega

theorem daysOf_fields {y m d : Int} (h0 : 1 ≤ m) (h1 : m ≤ 12) (h2 : 1 ≤ d) (h3 : d ≤ monthLen y m) :
    yearOf (daysOf y m d) = y ∧ monthOf (daysOf y m d) = m ∧ dayOf (daysOf y m d) = d := by
  have e := daysOf_month (y := y) d h0 h1
  have hm := monthBefore_mono (isLeap y) (a := 1) (b := m) (by omega) h0 (by omega)
  have hm' := monthBefore_mono (isLeap y) (a := m + 1) (b := 13) (by omega) (by omega) (by omega)
  rw [monthBefore_one] at hm
  rw [monthBefore_year] at hm'
  unfold monthLen at h3
  have hy : yearOf (daysOf y m d) = y := by
    refine yearOf_eq ?_ ?_
    · omega
    · rw [yearStart_succ]; omega
  have hyd : ydayOf (daysOf y m d) = monthBefore (isLeap y) m + d - 1 := by
    unfold ydayOf; rw [hy]; omega
  have hmo : monthOf (daysOf y m d) = m := by
    unfold monthOf; rw [hy]
    exact monthIn_eq h0 h1 (by omega) (by omega)
  refine ⟨hy, hmo, ?_⟩
  unfold dayOf
  rw [hmo, hy, hyd]
  omega

theorem daysOf_add (y m d k : Int) : daysOf y m (d + k) = daysOf y m d + k := by simp only [daysOf]; omega

/-- Months outside 1..12 carry into the year. -/
theorem daysOf_carry (y m d k : Int) : daysOf y (m + 12 * k) d = daysOf (y + k) m d := by
  unfold daysOf
  have h1 : (m + 12 * k - 1) / 12 = (m - 1) / 12 + k := by omega
  have h2 : (m + 12 * k - 1) % 12 = (m - 1) % 12 := by omega
  rw [h1, h2, show y + ((m - 1) / 12 + k) = y + k + (m - 1) / 12 by omega]

/-- Months counted from year 0, so that months compare as integers. -/
def monthNo (y m : Int) : Int := 12 * y + (m - 1)

/-- The first day of a month given by its number. -/
def firstOf (k : Int) : Int := daysOf (k / 12) (k % 12 + 1) 1

theorem daysOf_monthNo (y m d : Int) : daysOf y m d = firstOf (monthNo y m) + (d - 1) := by
  unfold firstOf monthNo
  rw [show d = 1 + (d - 1) by omega, daysOf_add, daysOf, daysOf]
  have h1 : (12 * y + (m - 1)) / 12 = y + (m - 1) / 12 := by omega
  have h2 : ((12 * y + (m - 1)) % 12 + 1 - 1) = (m - 1) % 12 := by omega
  have h3 : (m - 1) % 12 / 12 = 0 := by omega
  have h4 : (m - 1) % 12 % 12 = (m - 1) % 12 := by omega
  simp only [h1, h2, h3, h4, Int.add_zero]
  omega

theorem firstOf_succ (k : Int) : firstOf (k + 1) = firstOf k + monthLen (k / 12) (k % 12 + 1) := by
  have hk : 0 ≤ k % 12 ∧ k % 12 < 12 := by omega
  unfold firstOf monthLen
  rw [daysOf_month _ (by omega) (by omega), daysOf_month _ (by omega) (by omega)]
  rcases Int.lt_or_le (k % 12) 11 with h | h
  · have h1 : (k + 1) / 12 = k / 12 := by omega
    have h2 : (k + 1) % 12 = k % 12 + 1 := by omega
    rw [h1, h2]; omega
  · have h1 : (k + 1) / 12 = k / 12 + 1 := by omega
    have h2 : (k + 1) % 12 = 0 := by omega
    have h3 : k % 12 = 11 := by omega
    rw [h1, h2, h3, yearStart_succ]
    have := monthBefore_year (k / 12)
    have := monthBefore_one (isLeap (k / 12 + 1))
    simp only [Int.zero_add]
    show _ = _ + (monthBefore (isLeap (k / 12)) 13 - monthBefore (isLeap (k / 12)) (11 + 1))
    omega

theorem firstOf_lt {a b : Int} (h : a < b) : firstOf a + 28 ≤ firstOf b := by
  obtain ⟨k, hk⟩ := Int.eq_ofNat_of_zero_le (show 0 ≤ b - a - 1 by omega)
  induction k generalizing b with
  | zero =>
    have : b = a + 1 := by omega
    subst this
    have := firstOf_succ a
    have := monthLen_bound (a / 12) (m := a % 12 + 1) (by omega) (by omega)
    omega
  | succ k ih =>
    have h1 := ih (b := b - 1) (by omega) (by omega)
    have h2 := firstOf_succ (b - 1)
    have h3 := monthLen_bound ((b - 1) / 12) (m := (b - 1) % 12 + 1) (by omega) (by omega)
    rw [Int.sub_add_cancel] at h2
    omega

theorem firstOf_le {a b : Int} (h : a ≤ b) : firstOf a ≤ firstOf b := by
  rcases Int.lt_or_eq_of_le h with h | h
  · have := firstOf_lt h; omega
  · subst h; exact Int.le_refl _

/-- The number of the month containing day `n`. -/
def monthNoOf (n : Int) : Int := monthNo (yearOf n) (monthOf n)

theorem monthNoOf_spec (n : Int) : firstOf (monthNoOf n) ≤ n ∧ n < firstOf (monthNoOf n + 1) := by
  have h := civil_valid n
  have e := daysOf_civil n
  rw [daysOf_monthNo] at e
  have h1 : monthNo (yearOf n) (monthOf n) / 12 = yearOf n := by unfold monthNo; omega
  have h2 : monthNo (yearOf n) (monthOf n) % 12 + 1 = monthOf n := by unfold monthNo; omega
  unfold monthNoOf
  rw [firstOf_succ, h1, h2]
  omega

theorem monthNoOf_eq {n k : Int} (h1 : firstOf k ≤ n) (h2 : n < firstOf (k + 1)) : monthNoOf n = k := by
  have := monthNoOf_spec n
  rcases Int.lt_trichotomy (monthNoOf n) k with h | h | h
  · have := firstOf_le (show monthNoOf n + 1 ≤ k by omega); omega
  · exact h
  · have := firstOf_le (show k + 1 ≤ monthNoOf n by omega); omega

theorem monthNoOf_mono {n m : Int} (h : n ≤ m) : monthNoOf n ≤ monthNoOf m := by
  have h1 := monthNoOf_spec n
  have h2 := monthNoOf_spec m
  rcases Int.lt_or_le (monthNoOf m) (monthNoOf n) with h3 | h3
  · have := firstOf_le (show monthNoOf m + 1 ≤ monthNoOf n by omega); omega
  · exact h3

/-- time.Weekday: 0 is Sunday; 1970-01-01 was a Thursday. -/
def weekday (n : Int) : Int := (n + 4) % 7

/-- time.ISOWeek: the Thursday of the Monday-to-Sunday week of day `n`. -/
def thursday (n : Int) : Int := n + 3 - (n + 3) % 7
/-- time.ISOWeek: the ISO 8601 year. -/
def isoYear (n : Int) : Int := yearOf (thursday n)
/-- time.ISOWeek: the ISO 8601 week. -/
def isoWeek (n : Int) : Int := ydayOf (thursday n) / 7 + 1

/-- Time.AddDate on a day. -/
def addDate (n dy dm dd : Int) : Int := daysOf (yearOf n + dy) (monthOf n + dm) (dayOf n + dd)

theorem addDate_days (n k : Int) : addDate n 0 0 k = n + k := by
  unfold addDate
  rw [Int.add_zero, Int.add_zero, daysOf_add, daysOf_civil]

example : daysOf 2024 2 29 = 19782 ∧ yearOf 19782 = 2024 ∧ monthOf 19782 = 2 ∧ dayOf 19782 = 29 ∧
    weekday 19782 = 4 ∧ isoWeek 19782 = 9 := by decide
example : daysOf 2023 14 31 = daysOf 2024 3 2 ∧ yearOf (-719163) = 0 ∧ isoYear (daysOf 2021 1 1) = 2020 ∧
    isoWeek (daysOf 2021 1 1) = 53 := by decide

end Verif.Go
