import Verif.Model.Corr
import Verif.Props.ApproxStat

/-! # C289: CORR; C290: standard deviations -/

namespace Verif.Approx

open Go Verif.Val

theorem sq_nonneg (a : Rat) : 0 ≤ a * a := by
  rcases Rat.le_total (a := 0) (b := a) with h | h
  · exact Rat.mul_nonneg h h
  · have := Rat.mul_nonneg (a := -a) (b := -a) (by grind) (by grind)
    grind

/-- Sums of squares of the combinations of two lists. -/
theorem quad (u v : Rat) : ∀ qs : List (Rat × Rat),
    0 ≤ (qs.map fun p => p.1 * p.1).sum * (u * u) - 2 * (qs.map fun p => p.1 * p.2).sum * (u * v) + (qs.map fun p => p.2 * p.2).sum * (v * v)
  | [] => by simp; grind
  | p :: qs => by
    have ih := quad u v qs
    have h := sq_nonneg (p.1 * u - p.2 * v)
    simp only [List.map_cons, List.sum_cons]
    grind

theorem cauchy_schwarz (qs : List (Rat × Rat)) :
    (qs.map fun p => p.1 * p.2).sum * (qs.map fun p => p.1 * p.2).sum ≤ (qs.map fun p => p.1 * p.1).sum * (qs.map fun p => p.2 * p.2).sum := by
  have q := fun u v => quad u v qs
  generalize (qs.map fun p => p.1 * p.1).sum = a at *
  generalize (qs.map fun p => p.1 * p.2).sum = s at *
  generalize (qs.map fun p => p.2 * p.2).sum = b at *
  have hb : 0 ≤ b := by have := q 0 1; grind
  by_cases h0 : b = 0
  · subst h0
    have hs : s = 0 := Decidable.byContradiction fun hs => by
      have h := q 1 ((a + 1) / (2 * s))
      have e : (a + 1) / (2 * s) * (2 * s) = a + 1 := Rat.div_mul_cancel (by grind)
      generalize (a + 1) / (2 * s) = t at *
      grind
    rw [hs]; grind
  · have hb : 0 < b := by grind
    have h := q b s
    refine Rat.le_of_mul_le_mul_right (c := b) ?_ hb
    grind

theorem squares_nonneg (f : Rat × Rat → Rat) : ∀ qs : List (Rat × Rat), 0 ≤ (qs.map fun p => f p * f p).sum
  | [] => by simp
  | p :: qs => by
    have := squares_nonneg f qs
    have := sq_nonneg (f p)
    simp only [List.map_cons, List.sum_cons]; grind

theorem squares_zero (f : Rat × Rat → Rat) : ∀ qs : List (Rat × Rat), (qs.map fun p => f p * f p).sum = 0 → ∀ p ∈ qs, f p = 0
  | [], _, _, h => by cases h
  | q :: qs, e, p, h => by
    have h1 := squares_nonneg f qs
    have h2 := sq_nonneg (f q)
    simp only [List.map_cons, List.sum_cons] at e
    rcases List.mem_cons.1 h with rfl | h
    · have : f p * f p = 0 := by grind
      rcases Rat.mul_eq_zero.1 this with h | h <;> exact h
    · exact squares_zero f qs (by grind) p h

theorem devs_def (ps : List (Rat × Rat)) :
    devs ps = (ps.map fun p => (p.1 - mean (ps.map (·.1))) * (p.2 - mean (ps.map (·.2)))).sum := by
  simp only [devs, total_sum]

theorem devs_xx (f : Rat × Rat → Rat) (ps : List (Rat × Rat)) :
    devs (ps.map fun p => (f p, f p)) = (ps.map fun p => (f p - mean (ps.map f)) * (f p - mean (ps.map f))).sum := by
  rw [devs_def]
  simp only [List.map_map]
  rfl

theorem sum_const (f : Rat × Rat → Rat) (a : Rat) : ∀ ps : List (Rat × Rat), (∀ p ∈ ps, f p = a) → (ps.map f).sum = ps.length * a
  | [], _ => by simp
  | p :: ps, h => by
    have ih := sum_const f a ps fun p hp => h p (List.mem_cons_of_mem _ hp)
    rw [List.map_cons, List.sum_cons, ih, h p List.mem_cons_self, List.length_cons]
    have : ((ps.length + 1 : Nat) : Rat) = (ps.length : Rat) + 1 := by exact_mod_cast rfl
    rw [this]; grind

/-- The squares of the deviations add up to 0 just if the values are all the same. -/
theorem devs_zero (f : Rat × Rat → Rat) {ps : List (Rat × Rat)} : devs (ps.map fun p => (f p, f p)) = 0 ↔ ∃ a, ∀ p ∈ ps, f p = a := by
  rw [devs_xx]
  constructor
  · intro h
    refine ⟨mean (ps.map f), fun p hp => ?_⟩
    have := squares_zero (fun p => f p - mean (ps.map f)) ps h p hp
    grind
  · rintro ⟨a, h⟩
    by_cases h0 : ps = []
    · subst h0; simp
    have hm : mean (ps.map f) = a := by
      have hn : (ps.length : Rat) ≠ 0 := natCast_ne (by simpa using h0)
      rw [mean, total_sum, sum_const f a ps h, List.length_map]
      grind
    rw [hm, sum_const (fun p => (f p - a) * (f p - a)) 0 ps (fun p hp => by rw [h p hp]; grind)]
    grind

theorem devs_pos (f : Rat × Rat → Rat) (ps : List (Rat × Rat)) : 0 ≤ devs (ps.map fun p => (f p, f p)) := by
  rw [devs_xx]; exact squares_nonneg (fun p => f p - mean (ps.map f)) ps

theorem devs_bound (ps : List (Rat × Rat)) : devs ps * devs ps ≤ devs (ps.map fun p => (p.1, p.1)) * devs (ps.map fun p => (p.2, p.2)) := by
  have h := cauchy_schwarz (ps.map fun p => (p.1 - mean (ps.map (·.1)), p.2 - mean (ps.map (·.2))))
  simp only [List.map_map] at h
  rw [devs_xx (·.1), devs_xx (·.2), devs_def]
  exact h

theorem devs_popCov {ps : List (Rat × Rat)} (h : ps ≠ []) : ∃ c, popCov ps = some c ∧ devs ps = ps.length * c := by
  refine ⟨_, by rw [popCov, if_neg (by simpa using h)], ?_⟩
  have hn : (ps.length : Rat) ≠ 0 := natCast_ne (by simpa using h)
  rw [devs_eq ps h]
  generalize (ps.length : Rat) = n at *
  grind

theorem signed_mul {n : Rat} (h : 0 < n) (c : Rat) : signed (n * c) = n * n * signed c := by
  unfold signed
  have : n * c < 0 ↔ c < 0 := Rat.mul_neg_iff_of_pos_left h
  by_cases hc : c < 0
  · rw [if_pos (this.2 hc), if_pos hc]; grind
  · rw [if_neg (fun h => hc (this.1 h)), if_neg hc]; grind

/-- Both columns vary. -/
def Vary (ps : List (Rat × Rat)) : Prop := (¬ ∃ a, ∀ p ∈ ps, p.1 = a) ∧ ¬ ∃ a, ∀ p ∈ ps, p.2 = a

theorem corr_some (rows : List (Option Rat × Option Rat)) (h : Vary (complete rows)) :
    complete rows ≠ [] ∧ 0 < devs ((complete rows).map fun p => (p.1, p.1)) ∧ 0 < devs ((complete rows).map fun p => (p.2, p.2)) ∧
    ∃ r, corr rows = some r ∧ r.sq * (devs ((complete rows).map fun p => (p.1, p.1)) * devs ((complete rows).map fun p => (p.2, p.2))) = signed (devs (complete rows)) := by
  have h0 : complete rows ≠ [] := fun e => h.1 ⟨0, by simp [e]⟩
  have h1 := devs_pos (·.1) (complete rows)
  have h2 := devs_pos (·.2) (complete rows)
  have h3 : devs ((complete rows).map fun p => (p.1, p.1)) ≠ 0 := fun e => h.1 ((devs_zero (·.1)).1 e)
  have h4 : devs ((complete rows).map fun p => (p.2, p.2)) ≠ 0 := fun e => h.2 ((devs_zero (·.2)).1 e)
  have hd : devs ((complete rows).map fun p => (p.1, p.1)) * devs ((complete rows).map fun p => (p.2, p.2)) ≠ 0 := by
    intro e; rcases Rat.mul_eq_zero.1 e with e | e
    · exact h3 e
    · exact h4 e
  refine ⟨h0, by grind, by grind,
    ⟨signed (devs (complete rows)) / (devs ((complete rows).map fun p => (p.1, p.1)) * devs ((complete rows).map fun p => (p.2, p.2)))⟩, ?_, ?_⟩
  · rw [corr, pairs_complete, if_neg h0, correlation]
    simp only [if_neg hd]
  · exact Rat.div_mul_cancel hd

/-- **C289** There is no correlation just if one of the columns does not vary, as with fewer than two rows. -/
theorem C289_null (rows : List (Option Rat × Option Rat)) : corr rows = none ↔ ¬ Vary (complete rows) := by
  constructor
  · intro e h
    obtain ⟨-, -, -, r, h, -⟩ := corr_some rows h
    rw [h] at e; cases e
  · intro h
    rw [corr, pairs_complete]
    by_cases h0 : complete rows = []
    · rw [if_pos h0]
    · rw [if_neg h0, correlation]
      refine if_pos ?_
      have : (∃ a, ∀ p ∈ complete rows, p.1 = a) ∨ ∃ a, ∀ p ∈ complete rows, p.2 = a := by
        unfold Vary at h
        rcases Classical.not_and_iff_not_or_not.1 h with h | h
        · exact .inl (Classical.not_not.1 h)
        · exact .inr (Classical.not_not.1 h)
      rcases this with h | h
      · rw [(devs_zero (·.1)).2 h]; grind
      · rw [(devs_zero (·.2)).2 h]; grind

/-- **C289** CORR is the quotient of the covariance and the root of the product of the variances. -/
theorem C289 (rows : List (Option Rat × Option Rat)) (h : Vary (complete rows)) :
    ∃ r c vx vy, corr rows = some r ∧ popCov (complete rows) = some c ∧ popCov ((complete rows).map fun p => (p.1, p.1)) = some vx ∧
      popCov ((complete rows).map fun p => (p.2, p.2)) = some vy ∧ 0 < vx ∧ 0 < vy ∧ r.sq * (vx * vy) = signed c := by
  obtain ⟨h0, h1, h2, r, hr, e⟩ := corr_some rows h
  obtain ⟨c, hc, ec⟩ := devs_popCov h0
  obtain ⟨vx, hx, ex⟩ := devs_popCov (ps := (complete rows).map fun p => (p.1, p.1)) (by simpa using h0)
  obtain ⟨vy, hy, ey⟩ := devs_popCov (ps := (complete rows).map fun p => (p.2, p.2)) (by simpa using h0)
  rw [List.length_map] at ex ey
  have hn : (0 : Rat) < (complete rows).length := by
    have : 0 < (complete rows).length := List.length_pos_iff.2 h0
    exact_mod_cast this
  rw [ec, ex, ey, signed_mul hn] at e
  rw [ex] at h1
  rw [ey] at h2
  refine ⟨r, c, vx, vy, hr, hc, hx, hy, (Rat.mul_pos_iff_of_pos_left hn).1 h1, (Rat.mul_pos_iff_of_pos_left hn).1 h2, ?_⟩
  generalize ((complete rows).length : Rat) = n at *
  have hn2 := Rat.mul_pos hn hn
  have e : (n * n) * (r.sq * (vx * vy) - signed c) = 0 := by grind
  rcases Rat.mul_eq_zero.1 e with e | e <;> grind

/-- **C289** It lies between -1 and 1. -/
theorem C289_range (rows : List (Option Rat × Option Rat)) (r : Root) (h : corr rows = some r) :
    (Root.ofRat (-1)).sq ≤ r.sq ∧ r.sq ≤ (Root.ofRat 1).sq := by
  have hv : Vary (complete rows) := Classical.not_not.1 fun hv => by rw [(C289_null rows).2 hv] at h; cases h
  obtain ⟨h0, h1, h2, r', hr, e⟩ := corr_some rows hv
  rw [h] at hr; cases hr
  have hb := devs_bound (complete rows)
  have hd := Rat.mul_pos h1 h2
  have hs : signed (devs (complete rows)) = devs (complete rows) * devs (complete rows) ∨ signed (devs (complete rows)) = -(devs (complete rows) * devs (complete rows)) := by
    unfold signed; split
    · exact .inr rfl
    · exact .inl rfl
  have hq := sq_nonneg (devs (complete rows))
  show signed (-1) ≤ _ ∧ _ ≤ signed 1
  rw [show signed (-1) = -1 by decide +kernel, show signed 1 = 1 by decide +kernel]
  generalize devs ((complete rows).map fun p => (p.1, p.1)) * devs ((complete rows).map fun p => (p.2, p.2)) = d at *
  constructor
  · refine Rat.le_of_mul_le_mul_right (c := d) ?_ hd
    rw [e]; grind
  · refine Rat.le_of_mul_le_mul_right (c := d) ?_ hd
    rw [e]; grind

theorem devs_line (a b : Rat) (ps : List (Rat × Rat)) (h : ∀ p ∈ ps, p.2 = a * p.1 + b) :
    devs ps = a * devs (ps.map fun p => (p.1, p.1)) ∧ devs (ps.map fun p => (p.2, p.2)) = a * a * devs (ps.map fun p => (p.1, p.1)) := by
  by_cases h0 : ps = []
  · subst h0; constructor <;> (simp [devs, total]; try grind)
  have hn : (ps.length : Rat) ≠ 0 := natCast_ne (by simpa using h0)
  have key : ∀ qs : List (Rat × Rat), (∀ p ∈ qs, p.2 = a * p.1 + b) → (qs.map (·.2)).sum = a * (qs.map (·.1)).sum + qs.length * b := by
    intro qs
    induction qs with
    | nil => intro _; simp; grind
    | cons p qs ih =>
      intro h
      have ih := ih fun p hp => h p (List.mem_cons_of_mem _ hp)
      have hp := h p List.mem_cons_self
      simp only [List.map_cons, List.sum_cons, List.length_cons]
      have : ((qs.length + 1 : Nat) : Rat) = (qs.length : Rat) + 1 := by exact_mod_cast rfl
      rw [this, ih, hp]; grind
  have hm : mean (ps.map (·.2)) = a * mean (ps.map (·.1)) + b := by
    rw [mean, mean, total_sum, total_sum, key ps h, List.length_map, List.length_map]
    grind
  rw [devs_def, devs_xx (·.1), devs_xx (·.2), hm]
  generalize mean (ps.map (·.1)) = m
  clear hm key hn h0
  induction ps with
  | nil => constructor <;> (simp; try grind)
  | cons p ps ih =>
    obtain ⟨i1, i2⟩ := ih fun p hp => h p (List.mem_cons_of_mem _ hp)
    have hp := h p List.mem_cons_self
    simp only [List.map_cons, List.sum_cons]
    rw [i1, i2, hp]
    constructor <;> grind

/-- **C289** It is 1 for the rows of a rising line and -1 for those of a falling one. -/
theorem C289_line (rows : List (Option Rat × Option Rat)) (h : Vary (complete rows)) (a b : Rat) (hl : ∀ p ∈ complete rows, p.2 = a * p.1 + b) :
    corr rows = some (Root.ofRat (if 0 < a then 1 else -1)) := by
  obtain ⟨h0, h1, h2, r, hr, e⟩ := corr_some rows h
  obtain ⟨l1, l2⟩ := devs_line a b _ hl
  rw [hr]
  rw [l1, l2, Rat.mul_comm a (devs _), signed_mul h1] at e
  generalize devs ((complete rows).map fun p => (p.1, p.1)) = d at *
  have ha : a ≠ 0 := by
    rintro rfl
    exact h.2 ⟨b, fun p hp => by rw [hl p hp]; grind⟩
  have hdd := Rat.mul_pos h1 h1
  have haa : 0 < a * a := by
    have := sq_nonneg a
    have : a * a ≠ 0 := fun e => by rcases Rat.mul_eq_zero.1 e with e | e <;> exact ha e
    grind
  have hp := Rat.mul_pos hdd haa
  obtain ⟨q⟩ := r
  simp only [Option.some.injEq, Root.ofRat, Root.mk.injEq]
  by_cases hpos : 0 < a
  · rw [if_pos hpos, show signed 1 = 1 by decide +kernel]
    rw [signed, if_neg (by grind)] at e
    have : d * d * (a * a) * (q - 1) = 0 := by simp only at e; grind
    rcases Rat.mul_eq_zero.1 this with h | h <;> grind
  · rw [if_neg hpos, show signed (-1) = -1 by decide +kernel]
    rw [signed, if_pos (by grind)] at e
    have : d * d * (a * a) * (q + 1) = 0 := by simp only at e; grind
    rcases Rat.mul_eq_zero.1 this with h | h <;> grind

/-- The correlation of (1, 2), (2, 3) and (3, 2) is 0; a fourth row with a NULL does not count. -/
example : corr [(some 1, some 2), (some 2, some 3), (some 3, some 2), (none, some 7)] = some (Root.ofRat 0) := by decide +kernel
/-- The root of 3/4. -/
example : corr [(some 1, some 1), (some 2, some 1), (some 3, some 2)] = some ⟨3 / 4⟩ := by decide +kernel
example : Vary (complete [(some 1, some 1), (some 2, some 1), (some 3, some 2)]) := by
  constructor
  · rintro ⟨a, h⟩
    have h1 := h (1, 1) (by decide +kernel)
    have h2 := h (2, 1) (by decide +kernel)
    simp only at h1 h2; grind
  · rintro ⟨a, h⟩
    have h1 := h (1, 1) (by decide +kernel)
    have h2 := h (3, 2) (by decide +kernel)
    simp only at h1 h2; grind

/-! ### C290 -/

/-- **C290** STDDEV_POP and STDDEV_SAMP are the roots of the variances of the values that are not NULL; the one is NULL without values, the
other with fewer than two. -/
theorem C290 (rows : List (Option Rat)) :
    (stddevPop rows).map Root.sq = popCov ((rows.filterMap id).map fun x => (x, x)) ∧
    (stddevSamp rows).map Root.sq = sampCov ((rows.filterMap id).map fun x => (x, x)) ∧
    (stddevPop rows = none ↔ rows.filterMap id = []) ∧ (stddevSamp rows = none ↔ (rows.filterMap id).length < 2) := by
  obtain ⟨-, e2, e3⟩ := C186 [] rows
  have a1 : (stddevPop rows).map Root.sq = varPop rows := by
    unfold stddevPop varPop; split
    · rfl
    · rw [Option.map_map]
      cases popVariance (rows.filterMap id) <;> rfl
  have a2 : (stddevSamp rows).map Root.sq = varSamp rows := by
    unfold stddevSamp varSamp; split
    · rfl
    · rw [Option.map_map]
      cases variance (rows.filterMap id) <;> rfl
  refine ⟨a1.trans e3, a2.trans e2, ?_, ?_⟩
  · rw [← Option.map_eq_none_iff (f := Root.sq), a1, e3, popCov]
    simp only [List.length_map, List.length_eq_zero_iff]
    split
    · rename_i h; simp only [h]
    · rename_i h; simp only [h, reduceCtorEq]
  · rw [← Option.map_eq_none_iff (f := Root.sq), a2, e2, sampCov]
    simp only [List.length_map]
    split <;> simp_all

/-- **C290** They are never negative, and 0 just if the values are all the same. -/
theorem C290_zero (rows : List (Option Rat)) (r : Root) (h : stddevPop rows = some r ∨ stddevSamp rows = some r) :
    0 ≤ r.sq ∧ (r = Root.ofRat 0 ↔ ∃ a, ∀ x ∈ rows, x = none ∨ x = some a) := by
  have key : ∃ n : Rat, 0 < n ∧ devs ((rows.filterMap id).map fun x => (x, x)) = n * r.sq := by
    rcases h with h | h
    · unfold stddevPop at h
      split at h
      · cases h
      · rename_i h0
        unfold popVariance quot at h
        split at h
        · cases h
        · rename_i hn
          cases h
          refine ⟨((rows.filterMap id).length : Rat), ?_, ?_⟩
          · have : 0 < (rows.filterMap id).length := List.length_pos_iff.2 h0
            exact_mod_cast this
          · simp only; rw [Rat.mul_comm, Rat.div_mul_cancel hn]
    · unfold stddevSamp at h
      split at h
      · cases h
      · rename_i h0
        unfold variance quot at h
        split at h
        · cases h
        · rename_i hn
          cases h
          refine ⟨((rows.filterMap id).length : Rat) - 1, ?_, ?_⟩
          · have : (1 : Nat) ≤ (rows.filterMap id).length := List.length_pos_iff.2 h0
            have : ((1 : Nat) : Rat) ≤ ((rows.filterMap id).length : Rat) := by exact_mod_cast this
            have e : ((1 : Nat) : Rat) = 1 := rfl
            rw [e] at this
            grind
          · simp only; rw [Rat.mul_comm, Rat.div_mul_cancel hn]
  obtain ⟨n, hn, e⟩ := key
  have e' : devs (((rows.filterMap id).map fun x => (x, x)).map fun p => (p.1, p.1)) = n * r.sq := by
    rw [List.map_map]; exact e
  have hp := devs_pos (·.1) ((rows.filterMap id).map fun x => (x, x))
  have hz := devs_zero (·.1) (ps := (rows.filterMap id).map fun x => (x, x))
  rw [e'] at hp hz
  refine ⟨?_, ?_⟩
  · refine Rat.le_of_mul_le_mul_left (c := n) ?_ hn
    grind
  · have : r = Root.ofRat 0 ↔ n * r.sq = 0 := by
      obtain ⟨q⟩ := r
      rw [Root.ofRat, Root.mk.injEq, show signed 0 = 0 by decide +kernel, Rat.mul_eq_zero]
      constructor
      · exact .inr
      · rintro (h | h)
        · grind
        · exact h
    rw [this, hz]
    constructor
    · rintro ⟨a, h⟩
      refine ⟨a, fun x hx => ?_⟩
      cases x with
      | none => exact .inl rfl
      | some x => exact .inr (congrArg some (h (x, x) (List.mem_map.2 ⟨x, List.mem_filterMap.2 ⟨_, hx, rfl⟩, rfl⟩)))
    · rintro ⟨a, h⟩
      refine ⟨a, fun p hp => ?_⟩
      obtain ⟨x, hx, rfl⟩ := List.mem_map.1 hp
      obtain ⟨y, hy, e⟩ := List.mem_filterMap.1 hx
      rcases h y hy with rfl | rfl
      · cases e
      · cases e; rfl

example : stddevPop [some 1, none, some 3] = some (Root.ofRat 1) ∧ stddevSamp [some 1, none, some 3] = some ⟨2⟩ ∧ stddevSamp [some 4] = none := by decide +kernel

end Verif.Approx
