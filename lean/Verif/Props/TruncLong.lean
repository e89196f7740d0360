import Verif.Props.DateTrunc
import Verif.Props.DateFields

/-!
# C92: TIMESTAMP_TRUNC and DATETIME_TRUNC to a day or more
-/

namespace Verif.Date

open Go Spec

theorem stepBack_clock (s : Int) : ∀ (fuel : Nat) (t : Int),
    stepBack s fuel t = stepBack s fuel (date (tDay t)) + tod t
  | 0, t => by
    show t = date (tDay t) + tod t
    unfold date tDay tod dayNs
    omega
  | fuel + 1, t => by
    have e : tDay (date (tDay t)) = tDay t := tDay_mul _
    simp only [stepBack, e]
    split
    · show t = date (tDay t) + tod t
      unfold date tDay tod dayNs
      omega
    · rw [stepBack_clock s fuel (tAddDate t 0 0 (-1)), tAddDays, tAddDays]
      have h1 : tDay (t + -1 * dayNs) = tDay t - 1 := by unfold tDay dayNs; omega
      have h2 : tod (t + -1 * dayNs) = tod t := by unfold tod dayNs; omega
      have h3 : date (tDay t) + -1 * dayNs = date (tDay t - 1) := by unfold date dayNs; omega
      rw [h1, h2, h3]

/-- The part of the clock that is kept. -/
def kept : Spec.Part → Int → Int
  | .week _, x => x
  | _, _ => 0

theorem kept_eq (p : Spec.Part) (x : Int) : (∃ s, p = .week s) ∧ kept p x = x ∨ (∀ s, p ≠ .week s) ∧ kept p x = 0 := by
  cases p <;> simp [kept]

/-- DATE_TRUNC of an instant: the clock is dropped, except by WEEK. -/
theorem dateTrunc_clock (t : Int) (p : Spec.Part) (r : Int) (h : dateTrunc (date (tDay t)) (toPart p) = .ok (date r)) :
    dateTrunc t (toPart p) = .ok (date r + kept p (tod t)) := by
  cases p with
  | week s =>
    simp only [toPart, dateTrunc] at h ⊢
    rw [stepBack_clock, Res.ok.inj h]
    rfl
  | _ =>
    rw [show ∀ x, date r + kept _ x = date r from fun _ => Int.add_zero _, ← h]
    simp only [toPart, dateTrunc, date, tDay_mul]

/-- Midnight of the first day of the period that contains the day of `l`. -/
def IsStart (p : Spec.Part) (l r : Int) : Prop := tod r = 0 ∧ IsTrunc p (tDay l) (tDay r)

/-- Full C92: in the zone at `offset` from UTC the result is the start of the period. -/
def C92_full : Prop :=
  ∀ p : Spec.Part, p.ok → ∀ t offset,
    (∃ r, timestampTrunc t offset (toPart p) = .ok r ∧ IsStart p (t + offset) (r + offset)) ∧
    (∃ r, datetimeTrunc t (toPart p) = .ok r ∧ IsStart p t r)

theorem timestampTrunc_eq (p : Spec.Part) (t offset r : Int) (h : dateTrunc (date (tDay (t + offset))) (toPart p) = .ok (date r)) :
    timestampTrunc t offset (toPart p) = .ok (date r - offset) := by
  have hb : 0 ≤ tod (t + offset) ∧ tod (t + offset) < dayNs := by unfold tod dayNs; omega
  have e := dateTrunc_clock (t + offset) p r h
  have e2 : timestampTrunc t offset (toPart p) = (dateTrunc (t + offset) (toPart p)).bind fun d => .ok (sameDay d 0 0 0 0 - offset) := by
    cases p <;> rfl
  rw [e2, e, Res.bind'_ok, sameDay_eq]
  congr 2
  have : tDay (date r + kept p (tod (t + offset))) = r := by
    unfold tDay date
    unfold dayNs at *
    rcases kept_eq p (tod (t + offset)) with h | h <;> omega
  rw [this]
  unfold date dayNs
  omega

/-- C92, partial: TIMESTAMP_TRUNC for every part but the ISO ones, in every zone. -/
theorem C92_timestamp_partial (p : Spec.Part) (hp : p.ok) (h1 : p ≠ .isoweek) (h2 : p ≠ .isoyear) (t offset : Int) :
    ∃ r, timestampTrunc t offset (toPart p) = .ok r ∧ IsStart p (t + offset) (r + offset) := by
  obtain ⟨r, hr, ht⟩ := C48_trunc_partial p hp h1 h2 (tDay (t + offset))
  refine ⟨_, timestampTrunc_eq p t offset r hr, ?_, ?_⟩
  · rw [Int.sub_add_cancel]; exact tod_mul r
  · rw [Int.sub_add_cancel, show tDay (date r) = r from tDay_mul r]; exact ht

theorem datetimeTrunc_eq (p : Spec.Part) (t r : Int) (h : dateTrunc (date (tDay t)) (toPart p) = .ok (date r)) :
    datetimeTrunc t (toPart p) = .ok (date r + kept p (tod t)) := by
  have e2 : datetimeTrunc t (toPart p) = (dateTrunc t (toPart p)).bind fun d => .ok (sameDay d (tHour d) (tMinute d) (tSecond d) (tNano d)) := by
    cases p <;> rfl
  rw [e2, dateTrunc_clock t p r h, Res.bind'_ok, sameDay_eq]
  generalize date r + kept p (tod t) = d
  congr 1
  have := tFields d
  unfold tDay
  unfold tod dayNs at *
  omega

/-- C92, partial: DATETIME_TRUNC for every part but the ISO ones and WEEK; WEEK keeps the time of day. -/
theorem C92_datetime_partial (p : Spec.Part) (hp : p.ok) (h1 : p ≠ .isoweek) (h2 : p ≠ .isoyear) (t : Int) :
    ∃ r, datetimeTrunc t (toPart p) = .ok r ∧ IsTrunc p (tDay t) (tDay r) ∧
      (IsStart p t r ↔ (∀ s, p ≠ .week s) ∨ tod t = 0) := by
  obtain ⟨r, hr, ht⟩ := C48_trunc_partial p hp h1 h2 (tDay t)
  have hb : 0 ≤ tod t ∧ tod t < dayNs := by unfold tod dayNs; omega
  have e := datetimeTrunc_eq p t r hr
  rcases kept_eq p (tod t) with ⟨hw, hk⟩ | ⟨hw, hk⟩
  · rw [hk] at e
    have e1 : tDay (date r + tod t) = r := by unfold tDay date; unfold dayNs at *; omega
    have e2 : tod (date r + tod t) = tod t := by
      generalize tod t = x at *
      unfold tod date
      unfold dayNs at *
      omega
    refine ⟨_, e, by rw [e1]; exact ht, ?_⟩
    unfold IsStart
    rw [e1, e2]
    constructor
    · exact fun h => .inr h.1
    · rintro (h | h)
      · obtain ⟨s, hs⟩ := hw; exact absurd hs (h s)
      · exact ⟨h, ht⟩
  · rw [hk, Int.add_zero] at e
    have e1 : tDay (date r) = r := tDay_mul r
    refine ⟨_, e, by rw [e1]; exact ht, ?_⟩
    unfold IsStart
    rw [e1]
    constructor
    · exact fun _ => .inl hw
    · exact fun _ => ⟨tod_mul r, ht⟩

/-- DATETIME_TRUNC to WEEK of noon is noon. -/
theorem C92_full_false : ¬ C92_full := by
  intro h
  obtain ⟨r, hr, hs⟩ := (h (.week 0) (show (0 : Int) ≤ 0 ∧ (0 : Int) ≤ 6 by decide) (12 * hour) 0).2
  obtain ⟨q, hq, _, hi⟩ := C92_datetime_partial (.week 0) (show (0 : Int) ≤ 0 ∧ (0 : Int) ≤ 6 by decide) (by simp) (by simp) (12 * hour)
  rw [hr] at hq
  cases hq
  rcases hi.1 hs with h | h
  · exact h 0 rfl
  · revert h; decide

/-- The first of January 1970 in Tokyo began at 15:00 UTC of the day before. -/
example : timestampTrunc (5 * hour) (9 * hour) .year = .ok (-9 * hour) := by decide

end Verif.Date
