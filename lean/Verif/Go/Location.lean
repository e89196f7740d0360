import Verif.Go.Time

/-!
# time.Location

Part of the trusted model of Go: zones whose offset changes.  A moment is the number of nanoseconds since 1970-01-01T00:00:00 UTC;
the reading of a clock is written as the moment at which a clock in UTC shows it.
-/

namespace Verif.Go

/-- What time.Location.lookup finds: the offset from UTC in force at a moment, and whether a second moment lies in the period
(start ≤ u < end) found for the first. -/
structure Location where
  off : Int → Int
  inside : Int → Int → Bool

namespace Location

/-- Time.In: the reading of the clock. -/
def wall (z : Location) (t : Int) : Int := t + z.off t

/-- time.Date in a location: the offset looked up as if the reading were a moment, and once more if that fails. -/
def date (z : Location) (l : Int) : Int :=
  if z.off l = 0 then l
  else if z.inside l (l - z.off l) then l - z.off l
  else l - z.off (l - z.off l)

/-- What the time zone database guarantees: the offset is the same throughout a period; it is at most sixteen hours; and it changes
at most once in thirty-two hours. -/
structure Lawful (z : Location) : Prop where
  inside_off : ∀ t u, z.inside t u = true → z.off u = z.off t
  bound : ∀ t, -(16 * hour) ≤ z.off t ∧ z.off t ≤ 16 * hour
  once : ∀ a b c, a ≤ b → b ≤ c → c - a ≤ 32 * hour → z.off a = z.off b ∨ z.off b = z.off c

/-- time.FixedZone -/
def fixed (o : Int) : Location := { off := fun _ => o, inside := fun _ _ => true }

/-- time.UTC -/
def utc : Location := fixed 0

/-- A zone with one change of the offset, from `p` to `q` at the moment `T`. -/
def change (T p q : Int) : Location :=
  { off := fun t => if t < T then p else q, inside := fun t u => decide (t < T) == decide (u < T) }

theorem fixed_lawful {o : Int} (h : -(16 * hour) ≤ o ∧ o ≤ 16 * hour) : (fixed o).Lawful :=
  ⟨fun _ _ _ => rfl, fun _ => h, fun _ _ _ _ _ _ => .inl rfl⟩

theorem change_lawful {T p q : Int} (hp : -(16 * hour) ≤ p ∧ p ≤ 16 * hour) (hq : -(16 * hour) ≤ q ∧ q ≤ 16 * hour) :
    (change T p q).Lawful := by
  refine ⟨fun t u h => ?_, fun t => ?_, fun a b c hab hbc _ => ?_⟩
  · simp only [change, beq_iff_eq, decide_eq_decide] at h ⊢
    simp only [h]
  · show -(16 * hour) ≤ (if t < T then p else q) ∧ (if t < T then p else q) ≤ 16 * hour
    split <;> assumption
  · show (if a < T then p else q) = (if b < T then p else q) ∨ (if b < T then p else q) = (if c < T then p else q)
    by_cases h1 : b < T
    · left; rw [if_pos h1, if_pos (by omega)]
    · right; rw [if_neg h1, if_neg (by omega)]

theorem fixed_date (o l : Int) : (fixed o).date l = l - o := by
  show (if o = 0 then l else if true = true then l - o else _) = _
  by_cases h : o = 0
  · rw [if_pos h]; omega
  · rw [if_neg h, if_pos rfl]

theorem fixed_wall (o t : Int) : (fixed o).wall t = t + o := rfl

/-- time.Date finds a moment at which the clock shows the reading, if there is one. -/
theorem wall_date {z : Location} (hz : z.Lawful) {l : Int} (h : ∃ t, z.wall t = l) : z.wall (z.date l) = l := by
  obtain ⟨t, ht⟩ := h
  unfold wall at ht
  have bl := hz.bound l
  have bt := hz.bound t
  unfold wall date
  by_cases h0 : z.off l = 0
  · rw [if_pos h0, h0]; omega
  rw [if_neg h0]
  by_cases hi : z.inside l (l - z.off l) = true
  · rw [if_pos hi, hz.inside_off _ _ hi]; omega
  rw [if_neg hi]
  by_cases hu : z.off (l - z.off l) = z.off l
  · rw [hu, hu]; omega
  have key : z.off t = z.off (l - z.off l) ∨ z.off t = z.off l := by
    generalize hq : l - z.off l = q at *
    unfold hour at bl bt
    rcases Int.le_total q l with hql | hql <;> rcases Int.le_total t q with htq | htq <;> rcases Int.le_total t l with htl | htl
    · have := hz.once t q l htq hql (by unfold hour; omega); omega
    · have := hz.once t q l htq hql (by unfold hour; omega); omega
    · have := hz.once q t l htq htl (by unfold hour; omega); omega
    · have := hz.once q l t hql htl (by unfold hour; omega); omega
    · have := hz.once t l q htl hql (by unfold hour; omega); omega
    · have := hz.once l t q htl htq (by unfold hour; omega); omega
    · have := hz.once l q t hql htq (by unfold hour; omega); omega
    · have := hz.once l q t hql htq (by unfold hour; omega); omega
  rcases key with hk | hk
  · rw [← hk, show l - z.off t = t by omega]; omega
  · have : t = l - z.off l := by omega
    rw [← this] at hu
    exact absurd hk hu

end Location

end Verif.Go
