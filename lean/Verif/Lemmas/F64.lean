import Verif.Go.F64

/-!
# Rounding to float64 is to the nearest
-/

namespace Verif.Go.F64

/-- A magnitude with at most 53 significant bits, in units. -/
def Rep (k : Nat) : Prop := ∃ m e, m < 2 ^ 53 ∧ k = m * 2 ^ e

/-- The distance of `n / d` to `z`, times `d`. -/
def dist (n d z : Nat) : Nat := ((n : Int) - (d : Int) * (z : Int)).natAbs

theorem pow_pos' (e : Nat) : 0 < 2 ^ e := Nat.pow_pos (by decide)

/-- `m · 2ᵉ` with `m ≤ 2⁵³` has 53 significant bits. -/
theorem rep_le {m e : Nat} (h : m ≤ 2 ^ 53) : Rep (m * 2 ^ e) := by
  rcases Nat.lt_or_ge m (2 ^ 53) with h' | h'
  · exact ⟨m, e, h', rfl⟩
  · have : m = 2 ^ 53 := by omega
    subst this
    exact ⟨1, 53 + e, by decide, by rw [Nat.pow_add]; omega⟩

/-- Integer rounding: half-even picks the nearest multiple. -/
theorem half_near {n D : Nat} (hD : 0 < D) {r : Nat}
    (hr : r = if 2 * (n % D) < D then n / D else if D < 2 * (n % D) then n / D + 1 else if (n / D) % 2 = 0 then n / D else n / D + 1)
    (z : Nat) : ((n : Int) - D * r).natAbs ≤ ((n : Int) - D * z).natAbs := by
  have hn := Nat.div_add_mod n D
  have hlt := Nat.mod_lt n hD
  generalize hq : n / D = q at *
  generalize hm : n % D = m at *
  have key : ((n : Int) - D * r).natAbs ≤ m ∧ ((n : Int) - D * r).natAbs ≤ D - m := by
    rw [hr]
    have e1 : (n : Int) - D * (q : Nat) = m := by
      have : (n : Int) = D * q + m := by exact_mod_cast hn.symm
      omega
    have e2 : (n : Int) - D * ((q + 1 : Nat) : Int) = m - D := by
      have : (n : Int) = D * q + m := by exact_mod_cast hn.symm
      rw [this]; push_cast; rw [Int.mul_add]; omega
    split
    · rw [e1]; omega
    · split
      · rw [e2]; omega
      · split
        · rw [e1]; omega
        · rw [e2]; omega
  rcases Nat.lt_or_ge q z with h | h
  · have h1 : D * (q + 1) ≤ D * z := Nat.mul_le_mul_left _ h
    have h2 : D * (q + 1) = D * q + D := by rw [Nat.mul_add]; omega
    have h3 : ((D * z : Nat) : Int) = (D : Int) * z := by push_cast; rfl
    have h4 : D - m ≤ ((n : Int) - D * z).natAbs := by rw [← h3]; omega
    omega
  · have h1 : D * z ≤ D * q := Nat.mul_le_mul_left _ h
    have h3 : ((D * z : Nat) : Int) = (D : Int) * z := by push_cast; rfl
    have h4 : m ≤ ((n : Int) - D * z).natAbs := by rw [← h3]; omega
    omega

/-- The unit in the last place used for `n / d`. -/
def ulp (n d : Nat) : Nat := 2 ^ ((n / d).log2 - 52)

def quot (n d : Nat) : Nat :=
  if 2 * (n % (d * ulp n d)) < d * ulp n d then n / (d * ulp n d)
  else if d * ulp n d < 2 * (n % (d * ulp n d)) then n / (d * ulp n d) + 1
  else if (n / (d * ulp n d)) % 2 = 0 then n / (d * ulp n d) else n / (d * ulp n d) + 1

theorem roundQ_eq (n d : Nat) : roundQ n d = quot n d * ulp n d := by
  unfold roundQ quot ulp
  simp only
  repeat' split
  all_goals first | rfl | omega

theorem log2_bounds {q : Nat} (h : q ≠ 0) : 2 ^ q.log2 ≤ q ∧ q < 2 ^ (q.log2 + 1) :=
  ⟨Nat.log2_self_le h, Nat.lt_log2_self⟩

/-- The quotient has at most 53 bits (2⁵³ itself when rounding up). -/
theorem quot_le (n d : Nat) : quot n d ≤ 2 ^ 53 := by
  have hb : n / (d * ulp n d) < 2 ^ 53 := by
    rw [← Nat.div_div_eq_div_mul]
    rw [Nat.div_lt_iff_lt_mul (show 0 < ulp n d from pow_pos' _)]
    by_cases h0 : n / d = 0
    · rw [h0]; exact Nat.mul_pos (pow_pos' _) (pow_pos' _)
    · have h1 := (log2_bounds h0).2
      refine Nat.lt_of_lt_of_le h1 ?_
      unfold ulp
      rw [← Nat.pow_add]
      exact Nat.pow_le_pow_right (by decide) (by omega)
  unfold quot
  repeat' split
  all_goals omega

/-- The result has 53 significant bits. -/
theorem roundQ_rep (n d : Nat) : Rep (roundQ n d) := by
  rw [roundQ_eq]; exact rep_le (quot_le n d)

/-- A number of 53 significant bits that is at least as large as the binade of `n / d` is a multiple of the unit. -/
theorem rep_mult {n d z : Nat} (hz : Rep z) (h : 2 ^ (n / d).log2 ≤ z) : ∃ w, z = w * ulp n d := by
  obtain ⟨m, e, hm, rfl⟩ := hz
  unfold ulp
  by_cases he : (n / d).log2 - 52 ≤ e
  · refine ⟨m * 2 ^ (e - ((n / d).log2 - 52)), ?_⟩
    rw [Nat.mul_assoc, ← Nat.pow_add]; congr 2; omega
  · exfalso
    have h1 : m * 2 ^ e < 2 ^ 53 * 2 ^ e := Nat.mul_lt_mul_of_pos_right hm (pow_pos' e)
    rw [← Nat.pow_add] at h1
    have h2 := (Nat.pow_lt_pow_iff_right (a := 2) (by decide)).1 (Nat.lt_of_le_of_lt h h1)
    omega

/-- Rounding gives a nearest number of 53 significant bits. -/
theorem roundQ_nearest {n d : Nat} (hd : 0 < d) {z : Nat} (hz : Rep z) : dist n d (roundQ n d) ≤ dist n d z := by
  have hD : 0 < d * ulp n d := Nat.mul_pos hd (pow_pos' _)
  have near : ∀ w, dist n d (roundQ n d) ≤ dist n d (w * ulp n d) := by
    intro w
    have h := half_near (n := n) hD (r := quot n d) rfl w
    rw [roundQ_eq]
    unfold dist
    have e1 : ∀ x : Nat, (d : Int) * ((x * ulp n d : Nat) : Int) = ((d * ulp n d : Nat) : Int) * x := by
      intro x; push_cast; rw [Int.mul_assoc, Int.mul_comm (x : Int)]
    rw [e1, e1]
    exact h
  by_cases h : 2 ^ (n / d).log2 ≤ z
  · obtain ⟨w, rfl⟩ := rep_mult hz h
    exact near w
  · -- the number is below the binade of the quotient: the power of two is closer
    by_cases h0 : n / d = 0
    · rw [h0] at h
      have hz0 : z = 0 := by
        have : Nat.log2 0 = 0 := by decide
        rw [this] at h; simp at h; omega
      subst hz0
      have := near 0
      rwa [Nat.zero_mul] at this
    · have hb := log2_bounds h0
      have hp : 2 ^ (n / d).log2 = (2 ^ (n / d).log2 / ulp n d) * ulp n d := by
        refine (Nat.div_mul_cancel ?_).symm
        exact Nat.pow_dvd_pow 2 (by omega)
      have h1 := near (2 ^ (n / d).log2 / ulp n d)
      rw [← hp] at h1
      refine Nat.le_trans h1 ?_
      have h2 : d * 2 ^ (n / d).log2 ≤ n := by
        refine Nat.le_trans (Nat.mul_le_mul_left d hb.1) ?_
        exact Nat.mul_div_le n d
      have h3 : d * z ≤ d * 2 ^ (n / d).log2 := Nat.mul_le_mul_left d (by omega)
      unfold dist
      have e1 : ∀ x : Nat, (d : Int) * (x : Int) = ((d * x : Nat) : Int) := by intro x; push_cast; rfl
      rw [e1, e1]; omega

/-- A number of 53 significant bits is its own rounding. -/
theorem roundQ_exact {k d : Nat} (hd : 0 < d) (hk : Rep k) : roundQ (k * d) d = k := by
  have h := roundQ_nearest (n := k * d) hd hk
  unfold dist at h
  have e : ((k * d : Nat) : Int) - d * k = 0 := by push_cast; rw [Int.mul_comm]; omega
  rw [e] at h
  have h2 : ((k * d : Nat) : Int) - d * (roundQ (k * d) d : Nat) = 0 := by
    simp at h
    push_cast; omega
  have h3 : (d : Int) * (k : Int) = d * (roundQ (k * d) d : Nat) := by push_cast at h2; rw [Int.mul_comm (k : Int)] at h2; omega
  have h4 : (k : Int) = (roundQ (k * d) d : Nat) := Int.eq_of_mul_eq_mul_left (by omega) h3
  omega

theorem roundQ_one {k : Nat} (hk : Rep k) : roundQ k 1 = k := by
  have := roundQ_exact (d := 1) (by decide) hk
  rwa [Nat.mul_one] at this

end Verif.Go.F64
