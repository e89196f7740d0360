import Verif.Go.Calendar

/-!
# The calendar, as a textbook describes it

A date is a year, a month and a day; `next` is the following date.  Day numbers count
`next` steps from 1970-01-01.  `civil_zero` and `civil_next` say that the fields Go's time
package computes for a day number are exactly these dates, for every day number.
-/

namespace Verif.Spec

/-- A calendar date. -/
structure YMD where
  y : Int
  m : Int
  d : Int
  deriving DecidableEq, Repr

/-- Every fourth year is a leap year, except centuries not divisible by 400. -/
def leap (y : Int) : Prop := y % 400 = 0 ∨ (y % 4 = 0 ∧ y % 100 ≠ 0)

instance (y : Int) : Decidable (leap y) := by unfold leap; infer_instance

/-- Thirty days have September, April, June and November. -/
def daysIn (y m : Int) : Int :=
  if m = 4 ∨ m = 6 ∨ m = 9 ∨ m = 11 then 30 else if m = 2 then (if leap y then 29 else 28) else 31

/-- The following date. -/
def next (x : YMD) : YMD :=
  if x.d < daysIn x.y x.m then { x with d := x.d + 1 }
  else if x.m < 12 then { x with m := x.m + 1, d := 1 }
  else { y := x.y + 1, m := 1, d := 1 }

/-- The date of a day number, by Go's time package. -/
def civil (n : Int) : YMD := { y := Go.yearOf n, m := Go.monthOf n, d := Go.dayOf n }

theorem leap_iff (y : Int) : Go.isLeap y = true ↔ leap y := by
  unfold Go.isLeap leap
  simp only [decide_eq_true_eq]
  omega

theorem monthLen_eq (y : Int) {m : Int} (h0 : 1 ≤ m) (h1 : m ≤ 12) : Go.monthLen y m = daysIn y m := by
  have hl := leap_iff y
  unfold Go.monthLen daysIn
  by_cases h : leap y
  · rw [hl.mpr h]
    rcases Go.month_cases h0 h1 with h2 | h2 | h2 | h2 | h2 | h2 | h2 | h2 | h2 | h2 | h2 | h2 <;> subst h2 <;>
      simp [Go.monthBefore, h]
  · have : Go.isLeap y = false := by cases e : Go.isLeap y <;> simp_all
    rw [this]
    rcases Go.month_cases h0 h1 with h2 | h2 | h2 | h2 | h2 | h2 | h2 | h2 | h2 | h2 | h2 | h2 <;> subst h2 <;>
      simp [Go.monthBefore, h]

theorem civil_zero : civil 0 = { y := 1970, m := 1, d := 1 } := by decide

theorem civil_valid (n : Int) :
    1 ≤ (civil n).m ∧ (civil n).m ≤ 12 ∧ 1 ≤ (civil n).d ∧ (civil n).d ≤ daysIn (civil n).y (civil n).m := by
  have h := Go.civil_valid n
  rw [monthLen_eq _ h.1 h.2.1] at h
  exact h

theorem civil_daysOf {y m d : Int} (h0 : 1 ≤ m) (h1 : m ≤ 12) (h2 : 1 ≤ d) (h3 : d ≤ daysIn y m) :
    civil (Go.daysOf y m d) = { y := y, m := m, d := d } := by
  have h := Go.daysOf_fields h0 h1 h2 (by rw [monthLen_eq _ h0 h1]; exact h3)
  simp only [civil, h.1, h.2.1, h.2.2]

/-- Two days with the same date are the same day. -/
theorem civil_inj {a b : Int} (h : civil a = civil b) : a = b := by
  have ha := Go.daysOf_civil a
  have hb := Go.daysOf_civil b
  simp only [civil, YMD.mk.injEq] at h
  rw [h.1, h.2.1, h.2.2] at ha
  omega

theorem daysIn_pos (y m : Int) : 28 ≤ daysIn y m := by unfold daysIn; repeat' split
                                                       all_goals omega

/-- The date of the following day number is the following date. -/
theorem civil_next (n : Int) : civil (n + 1) = next (civil n) := by
  have h := civil_valid n
  have e := Go.daysOf_civil n
  have he : civil n = { y := Go.yearOf n, m := Go.monthOf n, d := Go.dayOf n } := rfl
  rw [he] at h ⊢
  generalize Go.yearOf n = y at *
  generalize Go.monthOf n = m at *
  generalize Go.dayOf n = d at *
  simp only at h
  unfold next
  simp only
  split
  · have := civil_daysOf (y := y) (m := m) (d := d + 1) h.1 h.2.1 (by omega) (by omega)
    rw [Go.daysOf_add, e] at this
    exact this
  · have hd : d = daysIn y m := by omega
    have h1 := Go.daysOf_month (y := y) d h.1 h.2.1
    have hl := monthLen_eq y h.1 h.2.1
    split
    · have h2 := Go.daysOf_month (y := y) 1 (show 1 ≤ m + 1 by omega) (show m + 1 ≤ 12 by omega)
      have h3 := civil_daysOf (y := y) (m := m + 1) (d := 1) (by omega) (by omega) (by omega)
        (by have := daysIn_pos y (m + 1); omega)
      have h4 : Go.daysOf y (m + 1) 1 = n + 1 := by unfold Go.monthLen at hl; omega
      rw [h4] at h3
      exact h3
    · have hm : m = 12 := by omega
      subst hm
      have h2 := Go.daysOf_month (y := y + 1) (m := 1) 1 (by omega) (by omega)
      have h3 := civil_daysOf (y := y + 1) (m := 1) (d := 1) (by omega) (by omega) (by omega)
        (by have := daysIn_pos (y + 1) 1; omega)
      have h4 : Go.daysOf (y + 1) 1 1 = n + 1 := by
        have h5 := Go.monthBefore_year y
        have h6 := Go.yearStart_succ y
        have h7 := Go.monthBefore_one (Go.isLeap (y + 1))
        unfold Go.monthLen at hl
        simp only [show (12 : Int) + 1 = 13 from rfl] at hl
        omega
      rw [h4] at h3
      exact h3

example : next { y := 2024, m := 2, d := 28 } = { y := 2024, m := 2, d := 29 } ∧
    next { y := 2100, m := 2, d := 28 } = { y := 2100, m := 3, d := 1 } ∧
    next { y := 1999, m := 12, d := 31 } = { y := 2000, m := 1, d := 1 } := by decide

/-- The dates SQL has: years 1 to 9999. -/
def IsDate (n : Int) : Prop := 1 ≤ (civil n).y ∧ (civil n).y ≤ 9999

theorem isDate_iff (n : Int) : IsDate n ↔ -719162 ≤ n ∧ n ≤ 2932896 := by
  have h := Go.yearOf_spec n
  show 1 ≤ Go.yearOf n ∧ Go.yearOf n ≤ 9999 ↔ _
  constructor
  · intro ⟨h1, h2⟩
    have a := Go.yearStart_le h1
    have b := Go.yearStart_le (show Go.yearOf n + 1 ≤ 10000 by omega)
    rw [show Go.yearStart 1 = -719162 by decide] at a
    rw [show Go.yearStart 10000 = 2932897 by decide] at b
    omega
  · intro ⟨h1, h2⟩
    constructor
    · rcases Int.lt_or_le (Go.yearOf n) 1 with h3 | h3
      · have := Go.yearStart_le (show Go.yearOf n + 1 ≤ 1 by omega)
        rw [show Go.yearStart 1 = -719162 by decide] at this
        omega
      · exact h3
    · rcases Int.lt_or_le 9999 (Go.yearOf n) with h3 | h3
      · have := Go.yearStart_le (show 10000 ≤ Go.yearOf n by omega)
        rw [show Go.yearStart 10000 = 2932897 by decide] at this
        omega
      · exact h3

/-- Weekdays repeat every seven days; 1970-01-04 was a Sunday. -/
def dow (n : Int) : Int := (n - 3) % 7

/-- The date parts a date can be truncated to. -/
inductive Part where
  | day | week (start : Int) | isoweek | month | quarter | year | isoyear
  deriving DecidableEq, Repr

/-- Weeks start on a day of the week, 0 (Sunday) to 6 (Saturday). -/
def Part.ok : Part → Prop
  | .week s => 0 ≤ s ∧ s ≤ 6
  | _ => True

/-- `n` is the first day of a `part`.  ISO weeks start on Monday; the first ISO week of
a year is the one containing 4 January. -/
def Starts : Part → Int → Prop
  | .day, _ => True
  | .week s, n => dow n = s
  | .isoweek, n => dow n = 1
  | .month, n => (civil n).d = 1
  | .quarter, n => (civil n).d = 1 ∧ (civil n).m % 3 = 1
  | .year, n => (civil n).d = 1 ∧ (civil n).m = 1
  | .isoyear, n => dow n = 1 ∧ ∃ k : Int, 0 ≤ k ∧ k ≤ 6 ∧ (civil (n + k)).m = 1 ∧ (civil (n + k)).d = 4

/-- `r` is the start of the part containing `n`. -/
def IsTrunc (p : Part) (n r : Int) : Prop := Starts p r ∧ r ≤ n ∧ ∀ s, Starts p s → s ≤ n → s ≤ r

/-- `r` is the last day of the part containing `n`. -/
def IsLast (p : Part) (n r : Int) : Prop := Starts p (r + 1) ∧ n ≤ r ∧ ∀ s, Starts p s → n < s → r < s

open Classical in
/-- The number of part starts after `b`, up to and including `a`. -/
noncomputable def crossings (p : Part) (b a : Int) : Int :=
  ((List.range (a - b).toNat).countP fun (i : Nat) => decide (Starts p (b + 1 + (i : Int))) : Nat)

/-- The signed number of boundaries between two days. -/
noncomputable def boundaries (p : Part) (a b : Int) : Int := if b ≤ a then crossings p b a else - crossings p a b

end Verif.Spec
