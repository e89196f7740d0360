import Verif.Props.Float

/-! # FLOAT64 operations whose exact result is representable -/

namespace Verif.Go.F64

open Verif.Float

set_option exponentiation.threshold 3000

/-- `x` is finite and its value is `v` units. -/
def Is (x : F64) (v : Int) : Prop := ∃ s k, x = .fin s k ∧ sval s k = v

/-- `v` units are a finite FLOAT64. -/
def Fit (v : Int) : Prop := Rep v.natAbs ∧ v.natAbs < limit

theorem fit_mul {a : Int} {e : Nat} (h : a.natAbs ≤ 2 ^ 53) (he : e ≤ 2000) : Fit (a * (2 ^ e : Nat)) := by
  unfold Fit
  rw [Int.natAbs_mul, Int.natAbs_natCast]
  refine ⟨rep_le h, ?_⟩
  have h1 : a.natAbs * 2 ^ e ≤ 2 ^ 53 * 2 ^ 2000 := Nat.mul_le_mul h (Nat.pow_le_pow_right (by decide) he)
  have h2 : (2 : Nat) ^ 53 * 2 ^ 2000 < limit := by decide +kernel
  exact Nat.lt_of_le_of_lt h1 h2

theorem one_eq : one = 2 ^ 1074 := rfl

theorem fit_int {z : Int} (h : z.natAbs ≤ 2 ^ 53) : Fit (z * one) := fit_mul h (by decide)

theorem is_round {s : Bool} {N d : Nat} {v : Int} (hd : 0 < d) (hN : N = v.natAbs * d) (hs : v ≠ 0 → s = decide (v < 0)) (h : Fit v) :
    Is (round s N d) v := by
  subst hN
  unfold round
  rw [roundQ_exact hd h.1]
  unfold pack
  rw [if_pos h.2]
  refine ⟨_, _, rfl, ?_⟩
  unfold sval
  by_cases h0 : v = 0
  · subst h0; simp
  · rw [hs h0]
    by_cases hn : v < 0
    · simp [hn]; omega
    · simp [hn]; omega

theorem is_ofInt {z : Int} (h : z.natAbs ≤ 2 ^ 53) : Is (ofInt z) (z * one) := by
  unfold ofInt
  have hp : (0 : Int) < one := by exact_mod_cast one_pos
  refine is_round (by decide) ?_ ?_ (fit_int h)
  · rw [Int.natAbs_mul, Int.natAbs_natCast, Nat.mul_one]
  · intro _
    congr 1
    apply propext
    generalize (one : Int) = L at *
    constructor
    · intro h; exact Int.mul_neg_of_neg_of_pos h hp
    · intro h
      rcases (by omega : z < 0 ∨ z ≥ 0) with h1 | h1
      · exact h1
      · have := Int.mul_nonneg h1 (Int.le_of_lt hp); omega

theorem is_neg {x X} (h : Is x X) : Is (neg x) (-X) := by
  obtain ⟨s, k, rfl, rfl⟩ := h
  exact ⟨_, _, rfl, sval_neg _ _⟩

theorem is_add {x y X Y} (hx : Is x X) (hy : Is y Y) (h : Fit (X + Y)) : Is (add x y) (X + Y) := by
  obtain ⟨s, a, rfl, rfl⟩ := hx
  obtain ⟨t, b, rfl, rfl⟩ := hy
  simp only [add]
  split
  · rename_i h0
    rw [h0]
    exact ⟨_, _, rfl, by cases (s && t) <;> rfl⟩
  · exact is_round (by decide) (by simp) (fun _ => rfl) h

theorem is_sub {x y X Y} (hx : Is x X) (hy : Is y Y) (h : Fit (X - Y)) : Is (sub x y) (X - Y) := by
  unfold sub
  rw [Int.sub_eq_add_neg] at *
  exact is_add hx (is_neg hy) h

theorem is_mul {x y X Y Z} (hx : Is x X) (hy : Is y Y) (hz : X * Y = Z * one) (h : Fit Z) : Is (mul x y) Z := by
  obtain ⟨s, a, rfl, rfl⟩ := hx
  obtain ⟨t, b, rfl, rfl⟩ := hy
  simp only [mul]
  have hp : (0 : Int) < one := by exact_mod_cast one_pos
  have h1 : a * b = Z.natAbs * one := by
    have h2 := congrArg Int.natAbs hz
    rwa [sval_mul, natAbs_sval, Int.natAbs_mul, Int.natAbs_natCast] at h2
  refine is_round one_pos h1 ?_ h
  intro h0
  have h3 : sval (s != t) (a * b) = Z * one := by rw [← sval_mul, hz]
  have h4 : Z * one ≠ 0 := Int.mul_ne_zero h0 (Int.ne_of_gt hp)
  have h5 := sval_sign (s := s != t) (k := a * b) (by rw [h3]; exact h4)
  rw [h5, h3]
  congr 1
  apply propext
  generalize (one : Int) = L at *
  constructor
  · intro h
    rcases (by omega : Z < 0 ∨ Z ≥ 0) with h1 | h1
    · exact h1
    · have := Int.mul_nonneg h1 (Int.le_of_lt hp); omega
  · intro h; exact Int.mul_neg_of_neg_of_pos h hp

theorem is_floor {x X} (hx : Is x X) {z : Int} (h1 : z * one ≤ X) (h2 : X < (z + 1) * one) : Is (floor x) (z * one) := by
  obtain ⟨s, k, rfl, rfl⟩ := hx
  have hp := one_pos
  cases s with
  | false =>
    refine ⟨false, _, rfl, ?_⟩
    simp only [sval, Bool.false_eq_true, if_false] at *
    have : (k : Int) / one = z := by
      generalize one = L at *
      exact (Int.ediv_eq_iff_of_pos (by exact_mod_cast hp)).mpr ⟨by rw [Int.mul_comm] ; simpa [Int.mul_comm] using h1, by rw [Int.add_mul, Int.one_mul] at h2; exact h2⟩
    rw [← this]
    push_cast
    rfl
  | true =>
    refine ⟨true, _, rfl, ?_⟩
    simp only [sval, if_true] at *
    have hq : (k + (one - 1)) / one = (-z).toNat := by
      generalize one = L at *
      have hz : -z ≥ 0 := by
        rcases (by omega : 0 < z ∨ 0 ≥ z) with h | h
        · have : 0 < z * (L : Int) := Int.mul_pos h (by exact_mod_cast hp)
          omega
        · omega
      obtain ⟨w, hw⟩ := Int.eq_ofNat_of_zero_le hz
      have hz' : z = -(w : Int) := by omega
      subst hz'
      simp only [Int.neg_neg, Int.toNat_natCast]
      have e1 : -(w : Int) * L = -((w * L : Nat) : Int) := by push_cast; rw [Int.neg_mul]
      have e2 : (-(w : Int) + 1) * L = -((w * L : Nat) : Int) + L := by rw [Int.add_mul, e1]; simp
      rw [e1] at h1
      rw [e2] at h2
      apply Nat.div_eq_of_lt_le
      · omega
      · rw [Nat.succ_mul]; omega
    rw [hq]
    have hz : -z ≥ 0 := by
      generalize one = L at *
      rcases (by omega : 0 < z ∨ 0 ≥ z) with h | h
      · have : 0 < z * (L : Int) := Int.mul_pos h (by exact_mod_cast hp)
        omega
      · omega
    push_cast
    rw [Int.toNat_of_nonneg hz]
    generalize (one : Int) = L
    rw [Int.neg_mul, Int.neg_neg]

theorem is_ceil {x X} (hx : Is x X) {z : Int} (h1 : (z - 1) * one < X) (h2 : X ≤ z * one) : Is (ceil x) (z * one) := by
  unfold ceil
  have := is_neg (is_floor (is_neg hx) (z := -z) (by rw [Int.neg_mul]; omega) (by
    have : (-z + 1) * (one : Int) = -((z - 1) * one) := by rw [← Int.neg_mul]; congr 1; omega
    rw [this]
    exact Int.neg_lt_neg h1))
  rwa [Int.neg_mul, Int.neg_neg] at this

theorem is_toInt64 {x} {z : Int} (hx : Is x (z * one)) (h1 : -9223372036854775808 ≤ z) (h2 : z ≤ 9223372036854775807) : toInt64 x = z := by
  obtain ⟨s, k, rfl, hk⟩ := hx
  have hp := one_pos
  have : sval s (k / one) = z := by
    have h3 : k = z.natAbs * one := by
      have h2 := congrArg Int.natAbs hk
      rwa [natAbs_sval, Int.natAbs_mul, Int.natAbs_natCast] at h2
    have h4 : k / one = z.natAbs := by rw [h3]; exact Nat.mul_div_cancel _ hp
    rw [h4]
    by_cases h0 : z = 0
    · subst h0; cases s <;> rfl
    · have hkn : sval s k ≠ 0 := by rw [hk]; exact Int.mul_ne_zero h0 (by exact_mod_cast Nat.pos_iff_ne_zero.mp hp)
      have hs := sval_sign hkn
      rw [hk] at hs
      have hp' : (0 : Int) < one := by exact_mod_cast hp
      unfold sval
      generalize (one : Int) = L at *
      rcases (by omega : z < 0 ∨ z ≥ 0) with h | h
      · have := Int.mul_neg_of_neg_of_pos h hp'
        simp [this] at hs; subst hs; simp; omega
      · have := Int.mul_nonneg h (Int.le_of_lt hp')
        have : ¬ z * L < 0 := by omega
        simp [this] at hs; subst hs; simp; omega
  simp only [toInt64, this]
  rw [if_pos ⟨h1, h2⟩]

theorem is_eq {x y X Y} (hx : Is x X) (hy : Is y Y) : eq x y = decide (X = Y) := by
  obtain ⟨s, a, rfl, rfl⟩ := hx
  obtain ⟨t, b, rfl, rfl⟩ := hy
  rfl

theorem is_lt {x y X Y} (hx : Is x X) (hy : Is y Y) : lt x y = decide (X < Y) := by
  obtain ⟨s, a, rfl, rfl⟩ := hx
  obtain ⟨t, b, rfl, rfl⟩ := hy
  rfl

theorem is_zero : Is (.fin false 0) 0 := ⟨_, _, rfl, rfl⟩

/-- Both sides of a fraction scaled. -/
theorem near_scale {n : Int} {d c : Nat} {x : F64} (hc : 0 < c) (h : Near (n * c) (d * c) x) : Near n d x := by
  cases x with
  | fin s k =>
    refine ⟨h.1, fun t m e hm => ?_⟩
    have h1 := h.2 t m e hm
    have key : ∀ v : Int, (n * c - ((d * c : Nat) : Int) * v).natAbs = (n - d * v).natAbs * c := by
      intro v
      rw [← Int.natAbs_natCast c, ← Int.natAbs_mul, Int.natAbs_natCast, Int.sub_mul]
      congr 2
      push_cast
      rw [Int.mul_assoc, Int.mul_comm (c : Int) v, Int.mul_assoc]
    rw [key, key] at h1
    exact Nat.le_of_mul_le_mul_right h1 hc
  | inf s => exact h
  | nan => exact h

/-- The quotient of two integers is the nearest FLOAT64. -/
theorem near_div {x y : F64} {a : Int} {b : Nat} (hx : Is x (a * one)) (hy : Is y (b * one)) (ha : a.natAbs ≤ 2 ^ 53) (hb : 0 < b) :
    Near (a * one) b (div x y) := by
  obtain ⟨s, k, rfl, hk⟩ := hx
  obtain ⟨t, l, rfl, hl⟩ := hy
  have hp := one_pos
  have hk' : k = a.natAbs * one := by
    have h2 := congrArg Int.natAbs hk
    rwa [natAbs_sval, Int.natAbs_mul, Int.natAbs_natCast] at h2
  have hl' : l = b * one := by
    have h2 := congrArg Int.natAbs hl
    rwa [natAbs_sval, Int.natAbs_mul, Int.natAbs_natCast, Int.natAbs_natCast] at h2
  have hl0 : l ≠ 0 := by rw [hl']; exact Nat.pos_iff_ne_zero.mp (Nat.mul_pos hb hp)
  have ht : t = false := by
    cases t with
    | false => rfl
    | true =>
      exfalso
      simp only [sval, if_true] at hl
      have h1 : (0 : Int) < l := by omega
      have h2 : (0 : Int) ≤ b * one := by exact_mod_cast Nat.zero_le _
      omega
  subst ht
  simp only [div, if_neg hl0]
  apply near_scale (c := one) hp
  rw [hl']
  refine round_near (Nat.mul_pos hb hp) ?_ ?_
  · rw [hk']
    have e1 : ((a.natAbs * one * one : Nat) : Int) = (a.natAbs : Int) * one * one := by push_cast; rfl
    rw [e1]
    cases s with
    | false =>
      simp only [sval, Bool.false_eq_true, if_false] at hk
      simp only [bne_self_eq_false, Bool.false_eq_true, if_false]
      rw [← hk, hk']; push_cast; rfl
    | true =>
      simp only [sval, if_true] at hk
      simp
      rw [← hk, hk']; push_cast; rw [Int.neg_mul]
  · rw [hk']
    have h1 : a.natAbs * one * one ≤ 2 ^ 53 * one * one := Nat.mul_le_mul_right _ (Nat.mul_le_mul_right _ ha)
    have h2 : 2 ^ 53 * one * one ≤ one * maxFin := by decide +kernel
    have h3 : one * maxFin ≤ b * one * maxFin := Nat.mul_le_mul_right _ (Nat.le_mul_of_pos_left _ hb)
    exact Nat.le_trans h1 (Nat.le_trans h2 h3)

end Verif.Go.F64
