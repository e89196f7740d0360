import Verif.Model.NumericFuncs
import Verif.Lemmas.F64Exact

/-!
# C238, C239: functions of NUMERIC

`Billionths r m` says that the NUMERIC `r` is `m · 10⁻⁹`; `Reads res m` that the result is `m · 10⁻⁹` when it is read as a NUMERIC.
-/

namespace Verif.Float

open Go Go.F64

set_option exponentiation.threshold 3000

/-- `r` is `m` billionths. -/
def Billionths (r : Rat) (m : Int) : Prop := r.num * 10 ^ 9 = m * r.den

/-- The result, in a column of type NUMERIC, is `m` billionths. -/
def Reads (x : Res F64) (m : Int) : Prop := ∃ v, x = .ok v ∧ readNumeric v = m

/-- A NUMERIC has 29 digits before the point and nine after it. -/
def InRange (m : Int) : Prop := m.natAbs < 10 ^ 38

instance (r m) : Decidable (Billionths r m) := inferInstanceAs (Decidable (_ = _))
instance (m) : Decidable (InRange m) := inferInstanceAs (Decidable (_ < _))

/-! ### Reading -/

theorem read_is {x : F64} {v m : Int} (hx : Is x v) (h : 2 * (10 ^ 9 * v - m * one).natAbs < one) : readNumeric x = m := by
  obtain ⟨s, k, rfl, rfl⟩ := hx
  have hp := Verif.Float.one_pos
  unfold readNumeric
  have key : ∀ M : Nat, 2 * (10 ^ 9 * (k : Int) - M * one).natAbs < one → (2 * 10 ^ 9 * k + one) / (2 * one) = M := by
    intro M h
    apply Nat.div_eq_of_lt_le
    · rw [show M * (2 * one) = 2 * (M * one) by rw [Nat.mul_left_comm]]
      have : ((M * one : Nat) : Int) = M * one := by push_cast; rfl
      rw [← this] at h
      generalize M * one = A at *
      omega
    · rw [Nat.add_mul, show M * (2 * one) = 2 * (M * one) by rw [Nat.mul_left_comm]]
      have : ((M * one : Nat) : Int) = M * one := by push_cast; rfl
      rw [← this] at h
      generalize M * one = A at *
      omega
  cases s with
  | false =>
    simp only [sval, Bool.false_eq_true, if_false] at h ⊢
    by_cases hm : 0 ≤ m
    · obtain ⟨M, rfl⟩ := Int.eq_ofNat_of_zero_le hm
      rw [key M h]
    · exfalso
      have e : m * (one : Int) = -((m.natAbs * one : Nat) : Int) := by
        have : m = -(m.natAbs : Int) := by omega
        rw [this, Int.natAbs_neg, Int.natAbs_natCast, Int.neg_mul]; push_cast; rfl
      have : one ≤ m.natAbs * one := Nat.le_mul_of_pos_left _ (by omega)
      rw [e] at h
      generalize m.natAbs * one = A at *
      omega
  | true =>
    simp only [sval, if_true] at h ⊢
    by_cases hm : m ≤ 0
    · obtain ⟨M, hM⟩ := Int.eq_ofNat_of_zero_le (by omega : 0 ≤ -m)
      have : m = -(M : Int) := by omega
      subst this
      rw [key M (by rw [Int.neg_mul] at h; generalize (M : Int) * one = A at *; omega)]
    · exfalso
      have e : m * (one : Int) = ((m.natAbs * one : Nat) : Int) := by
        have : m = (m.natAbs : Int) := by omega
        rw [this, Int.natAbs_natCast]; push_cast; rfl
      have : one ≤ m.natAbs * one := Nat.le_mul_of_pos_left _ (by omega)
      rw [e] at h
      generalize m.natAbs * one = A at *
      omega

theorem read_int {x : F64} {z : Int} (hx : Is x (z * one)) : readNumeric x = 10 ^ 9 * z := by
  refine read_is hx ?_
  rw [Int.mul_assoc, Int.sub_self]
  exact Nat.lt_of_le_of_lt (by decide) Verif.Float.one_pos

/-! ### The nearest FLOAT64 -/

/-- Rounding moves a number below 2²³ by no more than 2⁻³¹. -/
theorem round_small {n d : Nat} (hd : 0 < d) (h : n < 2 ^ 1097 * d) : 2 * dist n d (roundQ n d) ≤ d * 2 ^ 1044 := by
  have hq : n / d < 2 ^ 1097 := Nat.div_lt_of_lt_mul (by rw [Nat.mul_comm]; exact h)
  have hu : ulp n d ≤ 2 ^ 1044 := by
    unfold ulp
    apply Nat.pow_le_pow_right (by decide)
    by_cases h0 : n / d = 0
    · rw [h0]; decide
    · have := (log2_bounds h0).1
      have := (Nat.pow_lt_pow_iff_right (a := 2) (by decide)).1 (Nat.lt_of_le_of_lt this hq)
      omega
  have hle : d * ulp n d ≤ d * 2 ^ 1044 := Nat.mul_le_mul_left d hu
  refine Nat.le_trans ?_ hle
  have hD : 0 < d * ulp n d := Nat.mul_pos hd (Nat.pow_pos (by decide))
  rw [roundQ_eq]
  unfold dist quot
  have e : ∀ q : Nat, ((d : Int) * ((q * ulp n d : Nat) : Int)) = ((q * (d * ulp n d) : Nat) : Int) := by
    intro q; push_cast; exact Int.mul_left_comm ..
  rw [e]
  generalize d * ulp n d = D at *
  have h1 := Nat.div_add_mod n D
  have h2 := Nat.mod_lt n hD
  have e1 : n / D * D = D * (n / D) := Nat.mul_comm ..
  have e2 : (n / D + 1) * D = D * (n / D) + D := by rw [Nat.add_mul, Nat.one_mul, e1]
  generalize D * (n / D) = w at *
  split
  · rw [e1]; omega
  · split
    · rw [e2]; omega
    · split
      · rw [e1]; omega
      · rw [e2]; omega

theorem num_sval (r : Rat) : sval (decide (r.num < 0)) (r.num.natAbs * one) = r.num * one := by
  by_cases h : r.num < 0
  · simp only [h, decide_true, sval, if_true]
    have : r.num = -(r.num.natAbs : Int) := by omega
    conv => rhs; rw [this, Int.neg_mul]
    push_cast; rfl
  · simp only [h, decide_false, sval, Bool.false_eq_true, if_false]
    have : r.num = (r.num.natAbs : Int) := by omega
    conv => rhs; rw [this]
    push_cast; rfl

theorem billionths_natAbs {r : Rat} {m : Int} (h : Billionths r m) : r.num.natAbs * 10 ^ 9 = m.natAbs * r.den := by
  have := congrArg Int.natAbs h
  rw [Int.natAbs_mul, Int.natAbs_mul, Int.natAbs_natCast] at this
  exact this

/-- Below 2²³ the nearest FLOAT64 is less than half a billionth away. -/
theorem near_num {r : Rat} {m : Int} (h : Billionths r m) (hm : m.natAbs < 2 ^ 23 * 10 ^ 9) :
    ∃ k, ofRat r = .fin (decide (r.num < 0)) k ∧ 2 * (10 ^ 9 * sval (decide (r.num < 0)) k - m * one).natAbs < one := by
  have hd : 0 < r.den := r.den_pos
  have hn : r.num.natAbs * one < 2 ^ 1097 * r.den := by
    have h1 := billionths_natAbs h
    have h2 : r.num.natAbs * 10 ^ 9 < 2 ^ 23 * r.den * 10 ^ 9 := by
      rw [h1, Nat.mul_right_comm]
      exact Nat.mul_lt_mul_of_pos_right hm hd
    have h3 := Nat.lt_of_mul_lt_mul_right h2
    have h4 := Nat.mul_lt_mul_of_pos_right h3 Verif.Float.one_pos
    rw [show 2 ^ 1097 * r.den = 2 ^ 23 * r.den * one by
      rw [Nat.mul_right_comm, show 2 ^ 23 * one = 2 ^ 1097 by decide +kernel]]
    exact h4
  have hlim := round_in (n := r.num.natAbs * one) hd (by
    have : 2 ^ 1097 * r.den ≤ r.den * maxFin := by
      rw [Nat.mul_comm]
      exact Nat.mul_le_mul_left _ (by decide +kernel)
    omega)
  refine ⟨roundQ (r.num.natAbs * one) r.den, by unfold ofRat F64.round pack; rw [if_pos hlim], ?_⟩
  have hr := round_small hd hn
  generalize roundQ (r.num.natAbs * one) r.den = R at *
  have hs := sval_dist (decide (r.num < 0)) (r.num.natAbs * one) r.den R
  rw [num_sval] at hs
  unfold dist at hr
  rw [cast_dist (r.num.natAbs * one), ← hs] at hr
  generalize sval (decide (r.num < 0)) R = K at *
  have e : (r.den : Int) * (10 ^ 9 * K - m * one) = -(10 ^ 9 * (r.num * one - r.den * K)) := by
    rw [Int.mul_sub, Int.mul_sub, ← Int.mul_assoc (r.den : Int) m, Int.mul_comm (r.den : Int) m, ← h]
    have e1 : (r.den : Int) * (10 ^ 9 * K) = 10 ^ 9 * (r.den * K) := Int.mul_left_comm ..
    have e2 : r.num * 10 ^ 9 * (one : Int) = 10 ^ 9 * (r.num * one) := by rw [Int.mul_comm r.num, Int.mul_assoc]
    rw [e1, e2]
    omega
  have e' := congrArg Int.natAbs e
  rw [Int.natAbs_mul, Int.natAbs_neg, Int.natAbs_mul, Int.natAbs_natCast] at e'
  generalize (10 ^ 9 * K - m * one).natAbs = X at *
  generalize (r.num * one - r.den * K).natAbs = Y at *
  have h5 : r.den * (2 * X) ≤ r.den * (10 ^ 9 * 2 ^ 1044) := by
    rw [Nat.mul_left_comm, e', show (10 ^ 9 : Int).natAbs = 10 ^ 9 from rfl, Nat.mul_left_comm, Nat.mul_left_comm r.den]
    exact Nat.mul_le_mul_left _ hr
  have h6 := Nat.le_of_mul_le_mul_left h5 hd
  exact Nat.lt_of_le_of_lt h6 (by decide +kernel)

/-- Whole numbers up to 2⁵³ are FLOAT64 values. -/
theorem ofRat_whole {r : Rat} {z : Int} (h : Billionths r (10 ^ 9 * z)) (hz : z.natAbs ≤ 2 ^ 53) : Is (ofRat r) (z * one) := by
  have hn : r.num = z * r.den := by
    unfold Billionths at h
    rw [Int.mul_comm r.num, Int.mul_assoc] at h
    exact Int.eq_of_mul_eq_mul_left (by decide) h
  have hp : (0 : Int) < one := by exact_mod_cast Verif.Float.one_pos
  have hd : (0 : Int) < r.den := by exact_mod_cast r.den_pos
  unfold ofRat
  refine is_round r.den_pos ?_ ?_ (fit_int hz)
  · conv => lhs; rw [hn]
    rw [Int.natAbs_mul, Int.natAbs_mul, Int.natAbs_natCast, Int.natAbs_natCast, Nat.mul_right_comm]
  · intro _
    have neg_iff : ∀ L : Int, 0 < L → (z * L < 0 ↔ z < 0) := by
      intro L hL
      constructor
      · intro h
        rcases (by omega : z < 0 ∨ z ≥ 0) with h1 | h1
        · exact h1
        · have := Int.mul_nonneg h1 (Int.le_of_lt hL); omega
      · intro h; exact Int.mul_neg_of_neg_of_pos h hL
    congr 1
    apply propext
    rw [hn, neg_iff _ hd, neg_iff _ hp]

/-! ### C238: ABS, SIGN, FLOOR, CEIL and TRUNC -/

theorem is_abs {x : F64} {v : Int} (h : Is x v) : Is x.abs v.natAbs := by
  obtain ⟨s, k, rfl, rfl⟩ := h
  exact ⟨false, k, rfl, by rw [natAbs_sval]; rfl⟩

theorem is_trunc {x : F64} {v z : Int} (h : Is x v) (h1 : 0 ≤ v → z * one ≤ v ∧ v < (z + 1) * one)
    (h2 : v ≤ 0 → (z - 1) * one < v ∧ v ≤ z * one) : Is x.trunc (z * one) := by
  obtain ⟨s, k, rfl, rfl⟩ := h
  cases s with
  | false => exact is_floor (x := .fin false k) ⟨false, k, rfl, rfl⟩ (h1 (by simp [sval])).1 (h1 (by simp [sval])).2
  | true => exact is_ceil (x := .fin true k) ⟨true, k, rfl, rfl⟩ (h2 (by simp [sval])).1 (h2 (by simp [sval])).2

/-- C238 in full. -/
def C238_full : Prop := ∀ (r : Rat) (m : Int), Billionths r m → InRange m →
  Reads (absN r) m.natAbs ∧ signN r = .ok m.sign ∧ Reads (floorN r) (10 ^ 9 * (m / 10 ^ 9)) ∧
    Reads (ceilN r) (-(10 ^ 9 * (-m / 10 ^ 9))) ∧ Reads (truncN r) (10 ^ 9 * m.tdiv (10 ^ 9))

theorem neg_abs_near {v m : Int} {L : Nat} (h : 2 * (10 ^ 9 * v - m * L).natAbs < L) : 2 * (10 ^ 9 * (v.natAbs : Int) - m.natAbs * L).natAbs < L := by
  have e : ((m.natAbs * L : Nat) : Int) = (m * L).natAbs := by rw [Int.natAbs_mul, Int.natAbs_natCast]
  push_cast at e
  rw [show ((m.natAbs : Nat) : Int) * (L : Int) = ((m * L).natAbs : Int) by rw [Int.natAbs_mul, Int.natAbs_natCast]; push_cast; rfl]
  generalize m * (L : Int) = A at *
  omega

/-- The whole part of a number that is not whole and its FLOAT64. -/
theorem between {v m z : Int} {L : Nat} (h : 2 * (10 ^ 9 * v - m * L).natAbs < L) (h1 : 10 ^ 9 * z < m) (h2 : m < 10 ^ 9 * (z + 1)) :
    z * L < v ∧ v < (z + 1) * L := by
  have a1 : (10 ^ 9 * z + 1) * (L : Int) ≤ m * L := Int.mul_le_mul_of_nonneg_right (by omega) (by omega)
  have a2 : m * (L : Int) ≤ (10 ^ 9 * (z + 1) - 1) * L := Int.mul_le_mul_of_nonneg_right (by omega) (by omega)
  rw [Int.add_mul, Int.one_mul, Int.mul_assoc] at a1
  rw [Int.sub_mul, Int.one_mul, Int.mul_assoc, Int.add_mul, Int.one_mul] at a2
  rw [Int.add_mul, Int.one_mul]
  generalize m * (L : Int) = A at *
  generalize z * (L : Int) = B at *
  omega

theorem whole_of {m : Int} (h : m % 10 ^ 9 = 0) : ∃ z, m = 10 ^ 9 * z := ⟨m / 10 ^ 9, by omega⟩

theorem whole_bounds (z : Int) : z * (one : Int) ≤ z * one ∧ z * (one : Int) < (z + 1) * one ∧ (z - 1) * (one : Int) < z * one := by
  have hp : (0 : Int) < one := by exact_mod_cast Verif.Float.one_pos
  rw [Int.add_mul, Int.sub_mul, Int.one_mul]
  generalize (one : Int) = L at *
  omega

/-- Whole numbers up to 2⁵³. -/
theorem C238_whole {r : Rat} {z : Int} (h : Billionths r (10 ^ 9 * z)) (hz : z.natAbs ≤ 2 ^ 53) :
    Reads (absN r) (10 ^ 9 * z.natAbs) ∧ Reads (floorN r) (10 ^ 9 * z) ∧ Reads (ceilN r) (10 ^ 9 * z) ∧ Reads (truncN r) (10 ^ 9 * z) := by
  have hi := ofRat_whole h hz
  have hb := whole_bounds z
  refine ⟨⟨_, rfl, ?_⟩, ⟨_, rfl, read_int (is_floor hi hb.1 hb.2.1)⟩, ⟨_, rfl, read_int (is_ceil hi hb.2.2 hb.1)⟩,
    ⟨_, rfl, read_int (is_trunc hi (fun _ => ⟨hb.1, hb.2.1⟩) (fun _ => ⟨hb.2.2, hb.1⟩))⟩⟩
  refine read_int (z := z.natAbs) ?_
  have := is_abs hi
  rw [Int.natAbs_mul, Int.natAbs_natCast] at this
  push_cast at this
  exact this

/-- Up to 2²³ in magnitude the functions are exact. -/
theorem C238_partial {r : Rat} {m : Int} (h : Billionths r m) (hm : m.natAbs ≤ 2 ^ 23 * 10 ^ 9) :
    Reads (absN r) m.natAbs ∧ Reads (floorN r) (10 ^ 9 * (m / 10 ^ 9)) ∧
      Reads (ceilN r) (-(10 ^ 9 * (-m / 10 ^ 9))) ∧ Reads (truncN r) (10 ^ 9 * m.tdiv (10 ^ 9)) := by
  by_cases hw : m % 10 ^ 9 = 0
  · obtain ⟨z, rfl⟩ := whole_of hw
    have := C238_whole h (by omega)
    rw [Int.mul_ediv_cancel_left _ (by decide), Int.mul_tdiv_cancel_left _ (by decide),
      show -(10 ^ 9 * (-(10 ^ 9 * z) / 10 ^ 9)) = 10 ^ 9 * z by omega, Int.natAbs_mul,
      show (((10 ^ 9 : Int).natAbs * z.natAbs : Nat) : Int) = 10 ^ 9 * (z.natAbs : Int) from Int.natCast_mul ..]
    exact this
  · obtain ⟨k, hk, hv⟩ := near_num h (by omega)
    have hi : Is (ofRat r) (sval (decide (r.num < 0)) k) := ⟨_, _, hk, rfl⟩
    have hb := between hv (z := m / 10 ^ 9) (by omega) (by omega)
    refine ⟨⟨_, rfl, read_is (is_abs hi) (neg_abs_near hv)⟩, ⟨_, rfl, read_int (is_floor hi (Int.le_of_lt hb.1) hb.2)⟩, ⟨_, rfl, ?_⟩, ⟨_, rfl, ?_⟩⟩
    · rw [← Int.mul_neg, show -(-m / 10 ^ 9) = m / 10 ^ 9 + 1 by omega]
      exact read_int (is_ceil hi (by rw [show m / 10 ^ 9 + 1 - 1 = m / 10 ^ 9 by omega]; exact hb.1) (Int.le_of_lt hb.2))
    · have hp : (0 : Int) ≤ one := by omega
      by_cases h0 : 0 ≤ m
      · rw [show m.tdiv (10 ^ 9) = m / 10 ^ 9 from Int.tdiv_eq_ediv_of_nonneg h0]
        refine read_int (is_trunc hi (fun _ => ⟨Int.le_of_lt hb.1, hb.2⟩) (fun hv0 => ?_))
        have : 0 ≤ m / 10 ^ 9 * (one : Int) := Int.mul_nonneg (by omega) hp
        omega
      · have e : m.tdiv (10 ^ 9) = m / 10 ^ 9 + 1 := by
          rw [Int.tdiv_eq_ediv, if_neg (by omega)]
          rfl
        rw [e]
        refine read_int (is_trunc hi (fun hv0 => ?_) (fun _ => ⟨?_, Int.le_of_lt hb.2⟩))
        · have : (m / 10 ^ 9 + 1) * (one : Int) ≤ 0 := Int.mul_nonpos_of_nonpos_of_nonneg (by omega) hp
          omega
        · rw [show m / 10 ^ 9 + 1 - 1 = m / 10 ^ 9 by omega]
          exact hb.1

/-- SIGN is right for every NUMERIC. -/
theorem C238_sign {r : Rat} {m : Int} (h : Billionths r m) : signN r = .ok m.sign := by
  have hd : (0 : Int) < r.den := by exact_mod_cast r.den_pos
  have hn := h
  unfold Billionths at hn
  unfold signN sign ofRat F64.round pack
  rcases Int.lt_trichotomy m 0 with h0 | h0 | h0
  · have h1 : r.num < 0 := by have := Int.mul_neg_of_neg_of_pos h0 hd; omega
    rw [Int.sign_eq_neg_one_of_neg h0]
    split <;> simp [signbit, h1]
  · subst h0
    have h1 : r.num = 0 := by omega
    have e : roundQ 0 r.den = 0 := by simp [roundQ]
    rw [h1]
    simp [signbit, e, limit, F64.eq, sval]
  · have h1 : 0 < r.num := by have := Int.mul_pos h0 hd; omega
    rw [Int.sign_eq_one_of_pos h0]
    have h2 : ¬ r.num < 0 := by omega
    have hne : roundQ (r.num.natAbs * one) r.den ≠ 0 := by
      intro hz
      have h3 := roundQ_nearest (n := r.num.natAbs * one) r.den_pos (z := 1) ⟨1, 0, by decide, by decide⟩
      rw [hz] at h3
      unfold dist at h3
      have h4 := billionths_natAbs h
      have h5 : r.den ≤ m.natAbs * r.den := Nat.le_mul_of_pos_left _ (by omega)
      have h6 : r.num.natAbs * 10 ^ 9 < r.num.natAbs * one := Nat.mul_lt_mul_of_pos_left (by decide +kernel) (by omega)
      generalize r.num.natAbs * one = A at *
      have := r.den_pos
      omega
    split
    · simp [signbit, h2, F64.eq, sval, hne]
    · simp [signbit, h2, F64.eq]

/-- Rounding moves a number by no more than one part in 2⁵³ and half a unit. -/
theorem round_rel_div {n d : Nat} (hd : 0 < d) : 2 ^ 53 * dist n d (roundQ n d) ≤ n + 2 ^ 52 * d := by
  have hu : d * ulp n d ≤ d ∨ 2 ^ 52 * (d * ulp n d) ≤ n := by
    unfold ulp
    by_cases h : (n / d).log2 ≤ 52
    · left
      rw [show (n / d).log2 - 52 = 0 by omega]
      omega
    · right
      have h0 : n / d ≠ 0 := by intro h0; rw [h0] at h; exact h (by decide)
      rw [Nat.mul_left_comm, ← Nat.pow_add, show 52 + ((n / d).log2 - 52) = (n / d).log2 by omega]
      exact Nat.le_trans (Nat.mul_le_mul_left d (log2_bounds h0).1) (Nat.mul_div_le n d)
  have hD : 0 < d * ulp n d := Nat.mul_pos hd (Nat.pow_pos (by decide))
  have key : 2 * dist n d (roundQ n d) ≤ d * ulp n d := by
    rw [roundQ_eq]
    unfold dist quot
    have e : ∀ q : Nat, ((d : Int) * ((q * ulp n d : Nat) : Int)) = ((q * (d * ulp n d) : Nat) : Int) := by
      intro q; push_cast; exact Int.mul_left_comm ..
    rw [e]
    generalize d * ulp n d = D at *
    have h1 := Nat.div_add_mod n D
    have h2 := Nat.mod_lt n hD
    have e1 : n / D * D = D * (n / D) := Nat.mul_comm ..
    have e2 : (n / D + 1) * D = D * (n / D) + D := by rw [Nat.add_mul, Nat.one_mul, e1]
    generalize D * (n / D) = w at *
    split
    · rw [e1]; omega
    · split
      · rw [e2]; omega
      · split
        · rw [e1]; omega
        · rw [e2]; omega
  omega

/-- The number read is the nearest. -/
theorem read_near {x : F64} {v : Int} (h : Is x v) : 2 * (10 ^ 9 * v - readNumeric x * one).natAbs ≤ one := by
  obtain ⟨s, k, rfl, rfl⟩ := h
  have hp := Verif.Float.one_pos
  dsimp only [readNumeric]
  have h1 := Nat.div_add_mod (2 * 10 ^ 9 * k + one) (2 * one)
  have h2 := Nat.mod_lt (2 * 10 ^ 9 * k + one) (by omega : 0 < 2 * one)
  generalize (2 * 10 ^ 9 * k + one) / (2 * one) = q at *
  generalize (2 * 10 ^ 9 * k + one) % (2 * one) = t at *
  rw [Nat.mul_assoc, Nat.mul_comm one] at h1
  have e : (q : Int) * (one : Int) = ((q * one : Nat) : Int) := by push_cast; rfl
  cases s
  · simp only [sval, Bool.false_eq_true, if_false]
    rw [e]
    generalize q * one = A at *
    omega
  · simp only [sval, if_true]
    rw [Int.neg_mul, e]
    generalize q * one = A at *
    omega

/-- Every ABS is right to one part in 2⁵³, and half a billionth. -/
theorem C238_abs_bound {r : Rat} {m : Int} (h : Billionths r m) (hm : InRange m) :
    ∃ w : Int, Reads (absN r) w ∧ 2 ^ 53 * (w - m.natAbs).natAbs ≤ m.natAbs + 2 ^ 52 := by
  have hd : 0 < r.den := r.den_pos
  have hp := Verif.Float.one_pos
  have hlim := round_in (n := r.num.natAbs * one) hd (by
    have h1 := billionths_natAbs h
    have h2 : r.num.natAbs * 10 ^ 9 ≤ 10 ^ 38 * r.den := by
      rw [h1]
      exact Nat.mul_le_mul_right _ (Nat.le_of_lt hm)
    have h3 : r.num.natAbs * one ≤ 10 ^ 38 * r.den * one := by
      apply Nat.mul_le_mul_right
      omega
    rw [Nat.mul_right_comm, Nat.mul_comm _ r.den] at h3
    exact Nat.le_trans h3 (Nat.mul_le_mul_left _ (by decide +kernel)))
  have hk : ofRat r = .fin (decide (r.num < 0)) (roundQ (r.num.natAbs * one) r.den) := by unfold ofRat F64.round pack; rw [if_pos hlim]
  have hr := round_rel_div (n := r.num.natAbs * one) hd
  generalize roundQ (r.num.natAbs * one) r.den = R at *
  have hi : Is (ofRat r).abs R := by rw [hk]; exact ⟨_, _, rfl, rfl⟩
  refine ⟨_, ⟨_, rfl, rfl⟩, ?_⟩
  have hn := read_near hi
  generalize readNumeric (ofRat r).abs = w at *
  unfold dist at hr
  have e : (r.den : Int) * (10 ^ 9 * R - m.natAbs * one) = -(10 ^ 9 * ((r.num.natAbs * one : Nat) - r.den * R)) := by
    have h1 : ((r.num.natAbs * 10 ^ 9 : Nat) : Int) = ((m.natAbs * r.den : Nat) : Int) := by rw [billionths_natAbs h]
    rw [Int.natCast_mul, Int.natCast_mul] at h1
    rw [Int.mul_sub, Int.mul_sub, ← Int.mul_assoc (r.den : Int) (m.natAbs : Int), Int.mul_comm (r.den : Int) (m.natAbs : Int), ← h1]
    have e1 : (r.den : Int) * (10 ^ 9 * R) = 10 ^ 9 * (r.den * R) := Int.mul_left_comm ..
    have e2 : (r.num.natAbs : Int) * (10 ^ 9 : Nat) * (one : Int) = 10 ^ 9 * ((r.num.natAbs * one : Nat) : Int) := by
      rw [Int.mul_comm (r.num.natAbs : Int), Int.mul_assoc, Int.natCast_mul r.num.natAbs]; rfl
    rw [e1, e2]
    omega
  have e' := congrArg Int.natAbs e
  rw [Int.natAbs_mul, Int.natAbs_neg, Int.natAbs_mul, Int.natAbs_natCast, show (10 ^ 9 : Int).natAbs = 10 ^ 9 from rfl] at e'
  have hX : 2 ^ 53 * (10 ^ 9 * (R : Int) - m.natAbs * one).natAbs ≤ m.natAbs * one + 2 ^ 52 * 10 ^ 9 := by
    generalize (10 ^ 9 * (R : Int) - m.natAbs * one).natAbs = X at *
    generalize (((r.num.natAbs * one : Nat) : Int) - r.den * R).natAbs = Y at *
    apply Nat.le_of_mul_le_mul_left _ hd
    rw [Nat.mul_left_comm, e', Nat.mul_left_comm]
    have h1 := Nat.mul_le_mul_left (10 ^ 9) hr
    refine Nat.le_trans h1 (Nat.le_of_eq ?_)
    have h2 : 10 ^ 9 * (r.num.natAbs * one) = r.den * (m.natAbs * one) := by
      rw [← Nat.mul_assoc, Nat.mul_comm _ r.num.natAbs, billionths_natAbs h, Nat.mul_comm m.natAbs, Nat.mul_assoc]
    rw [Nat.mul_add, Nat.mul_add, h2]
    congr 1
    omega
  have hW : 2 ^ 53 * ((w - m.natAbs).natAbs * one) ≤ m.natAbs * one + 2 ^ 52 * 10 ^ 9 + 2 ^ 52 * one := by
    rw [← Int.natAbs_natCast one, ← Int.natAbs_mul, Int.sub_mul, Int.natAbs_natCast]
    generalize (w : Int) * one = A at *
    generalize (m.natAbs : Int) * one = B at *
    generalize m.natAbs * one = C at *
    omega
  have hlt : 2 ^ 53 * (w - m.natAbs).natAbs * one < (m.natAbs + 2 ^ 52 + 1) * one := by
    rw [Nat.mul_assoc, Nat.add_mul, Nat.add_mul, Nat.one_mul]
    have : 2 ^ 52 * 10 ^ 9 < one := by decide +kernel
    generalize m.natAbs * one = C at *
    omega
  have := Nat.lt_of_mul_lt_mul_right hlt
  omega

/-- Not beyond: ABS(8388608.000000001) is 8388608.000000002. -/
theorem C238_bound_sharp : ∃ r m, Billionths r m ∧ m = 2 ^ 23 * 10 ^ 9 + 1 ∧ Reads (absN r) (m + 1) :=
  ⟨mkRat (2 ^ 23 * 10 ^ 9 + 1) (10 ^ 9), 2 ^ 23 * 10 ^ 9 + 1, by decide +kernel, rfl, ⟨_, rfl, by decide +kernel⟩⟩

/-- FLOOR(9007199254740991.75) is 9007199254740992. -/
theorem C238_floor_wrong : ∃ r, Billionths r 9007199254740991750000000 ∧ Reads (floorN r) 9007199254740992000000000 :=
  ⟨mkRat 9007199254740991750000000 (10 ^ 9), by decide +kernel, ⟨_, rfl, by decide +kernel⟩⟩

theorem C238_full_false : ¬ C238_full := by
  intro h
  obtain ⟨r, m, h1, h2, v, hv, h3⟩ := C238_bound_sharp
  obtain ⟨w, hw, h4⟩ := (h r m h1 (by subst h2; decide)).1
  rw [hv] at hw
  cases hw
  omega

/-- FLOOR(-1.5) is -2, CEIL(-1.5) and TRUNC(-1.5) are -1. -/
example : Billionths (mkRat (-3) 2) (-1500000000) ∧ Reads (floorN (mkRat (-3) 2)) (-2000000000) ∧ Reads (ceilN (mkRat (-3) 2)) (-1000000000) :=
  ⟨by decide +kernel, ⟨_, rfl, by decide +kernel⟩, ⟨_, rfl, by decide +kernel⟩⟩

/-- The result is an INT64. -/
def InInt64 (z : Int) : Prop := -9223372036854775808 ≤ z ∧ z ≤ 9223372036854775807

/-! ### C239: MOD and DIV -/

/-- C239 in full: MOD has the sign of its first argument, DIV is rounded towards zero; by zero both are errors. -/
def C239_full : Prop := ∀ (x y : Rat) (a b : Int), Billionths x a → Billionths y b → InRange a → InRange b →
  (b = 0 → modN x y = .err ∧ divN x y = .err) ∧ (b ≠ 0 → Reads (modN x y) (a.tmod b)) ∧
    (b ≠ 0 → InInt64 (a.tdiv b) → divN x y = .ok (a.tdiv b))

theorem is_fmod {x y : F64} {a b : Int} (hx : Is x (a * one)) (hy : Is y (b * one)) (hb : b ≠ 0) : Is (fmod x y) (a.tmod b * one) := by
  obtain ⟨s, k, rfl, hk⟩ := hx
  obtain ⟨t, l, rfl, hl⟩ := hy
  have hk' : k = a.natAbs * one := by have := congrArg Int.natAbs hk; rwa [natAbs_sval, Int.natAbs_mul, Int.natAbs_natCast] at this
  have hl' : l = b.natAbs * one := by have := congrArg Int.natAbs hl; rwa [natAbs_sval, Int.natAbs_mul, Int.natAbs_natCast] at this
  have hp := Verif.Float.one_pos
  have hl0 : l ≠ 0 := by rw [hl']; exact Nat.ne_of_gt (Nat.mul_pos (by omega) hp)
  unfold fmod
  simp only [hl0, if_false]
  refine ⟨s, _, rfl, ?_⟩
  have he : sval s (k % l) = (sval s k).tmod (sval t l) := by
    unfold sval
    cases s <;> cases t <;> simp <;> exact (Int.tmod_eq_emod_of_nonneg (by omega)).symm
  have hp' : (0 : Int) < one := by exact_mod_cast hp
  rw [he, hk, hl, Int.tmod_def, Int.tmod_def, Int.mul_tdiv_mul_of_pos_left _ _ hp', Int.sub_mul]
  congr 1
  exact Int.mul_right_comm ..

/-- Whole numbers up to 2⁵³. -/
theorem C239_mod_partial {x y : Rat} {a b : Int} (hx : Billionths x (10 ^ 9 * a)) (hy : Billionths y (10 ^ 9 * b)) (ha : a.natAbs ≤ 2 ^ 53)
    (hb : b.natAbs ≤ 2 ^ 53) : (b = 0 → modN x y = .err) ∧ (b ≠ 0 → Reads (modN x y) (10 ^ 9 * a.tmod b)) := by
  have hx' := ofRat_whole hx ha
  have hy' := ofRat_whole hy hb
  unfold modN
  have hz := is_eq hy' is_zero
  have hp := Verif.Float.one_pos
  rw [hz]
  constructor
  · intro h; subst h; simp
  · intro h
    have : b * (one : Int) ≠ 0 := Int.mul_ne_zero h (by omega)
    simp only [this, decide_false, Bool.false_eq_true, if_false]
    exact ⟨_, rfl, read_int (is_fmod hx' hy' h)⟩

/-- Equal denominators, as whole numbers have. -/
theorem C239_div_partial {x y : Rat} {a b : Int} (hx : Billionths x a) (hy : Billionths y b) (hd : x.den = y.den) (h1 : InInt64 x.num)
    (h2 : InInt64 y.num) : (b = 0 → divN x y = .err) ∧ (b ≠ 0 → InInt64 (a.tdiv b) → divN x y = .ok (a.tdiv b)) := by
  have wx : wrap64 x.num = x.num := by unfold wrap64; unfold InInt64 at h1; omega
  have wy : wrap64 y.num = y.num := by unfold wrap64; unfold InInt64 at h2; omega
  have hp : (0 : Int) < y.den := by exact_mod_cast y.den_pos
  unfold Billionths at hx hy
  unfold divN
  rw [wx, wy]
  constructor
  · intro h
    subst h
    rw [if_pos (by omega)]
  · intro h hq
    have hn : y.num ≠ 0 := by
      intro h0
      rw [h0] at hy
      have := Int.mul_ne_zero h (by omega : (y.den : Int) ≠ 0)
      omega
    have e : x.num.tdiv y.num = a.tdiv b := by
      rw [← Int.mul_tdiv_mul_of_pos_left x.num y.num (by decide : (0 : Int) < 10 ^ 9), hx, hy, hd, Int.mul_tdiv_mul_of_pos_left _ _ hp]
    rw [if_neg hn, e]
    congr 1
    unfold wrap64
    unfold InInt64 at hq
    omega

/-- DIV(0.5, 0.25) is 1. -/
theorem C239_div_wrong : ∃ x y, Billionths x 500000000 ∧ Billionths y 250000000 ∧ divN x y = .ok 1 :=
  ⟨mkRat 1 2, mkRat 1 4, by decide +kernel, by decide +kernel, by decide +kernel⟩

/-- MOD(0.3, 0.1) is 0.1. -/
theorem C239_mod_wrong : ∃ x y, Billionths x 300000000 ∧ Billionths y 100000000 ∧ Reads (modN x y) 100000000 :=
  ⟨mkRat 3 10, mkRat 1 10, by decide +kernel, by decide +kernel, ⟨fmod (ofRat (mkRat 3 10)) (ofRat (mkRat 1 10)), by decide +kernel, by decide +kernel⟩⟩

theorem C239_full_false : ¬ C239_full := by
  intro h
  obtain ⟨x, y, hx, hy, hd⟩ := C239_div_wrong
  have := (h x y _ _ hx hy (by decide) (by decide)).2.2 (by decide) ⟨by decide, by decide⟩
  rw [hd] at this
  revert this
  decide

/-- MOD(-7, 2) is -1, DIV(-7.5, 2.5) is -3. -/
example : Reads (modN (-7) 2) (-1000000000) ∧ divN (mkRat (-15) 2) (mkRat 5 2) = .ok (-3) :=
  ⟨⟨fmod (ofRat (-7)) (ofRat 2), by decide +kernel, by decide +kernel⟩, by decide +kernel⟩

end Verif.Float
