import Verif.Model.Float
import Verif.Lemmas.F64

/-!
# FLOAT64

Finite float64 values are counted in units of 2⁻¹⁰⁷⁴ (`F64.one` units are 1.0).
`Near n d r` says that `r` is a finite FLOAT64 nearest to `n / d` units.
-/

namespace Verif.Float

open Go

set_option exponentiation.threshold 3000

/-- `r` is finite and no finite or larger 53-bit number is closer to `n / d` units. -/
def Near (n : Int) (d : Nat) : F64 → Prop
  | .fin s k => F64.Ok (.fin s k) ∧
      ∀ (t : Bool) (m e : Nat), m < 2 ^ 53 → (n - d * F64.sval s k).natAbs ≤ (n - d * F64.sval t (m * 2 ^ e)).natAbs
  | _ => False

/-- The largest finite FLOAT64: 2¹⁰²⁴ − 2⁹⁷¹, in units. -/
def maxFin : Nat := 2 ^ 2098 - 2 ^ 2045

/-! ### Rounding -/

theorem rep_limit : F64.Rep F64.limit := ⟨1, 2098, by decide, by decide +kernel⟩
theorem rep_maxFin : F64.Rep maxFin := ⟨2 ^ 53 - 1, 2045, by decide, by decide +kernel⟩
theorem maxFin_lt : maxFin < F64.limit := by decide +kernel
theorem one_pos : 0 < F64.one := by decide +kernel

/-- There is nothing between the largest finite value and the limit. -/
theorem rep_gap {k : Nat} (hk : F64.Rep k) (h : maxFin < k) : F64.limit ≤ k := by
  obtain ⟨m, e, hm, rfl⟩ := hk
  by_cases he : e ≤ 2045
  · exfalso
    have h1 : m * 2 ^ e ≤ (2 ^ 53 - 1) * 2 ^ 2045 :=
      Nat.mul_le_mul (by omega) (Nat.pow_le_pow_right (by decide) he)
    have h2 : maxFin = (2 ^ 53 - 1) * 2 ^ 2045 := by decide +kernel
    omega
  · have h1 : m * 2 ^ e = m * 2 ^ (e - 2045) * 2 ^ 2045 := by
      rw [Nat.mul_assoc, ← Nat.pow_add]; congr 2; omega
    have h2 : maxFin = (2 ^ 53 - 1) * 2 ^ 2045 := by decide +kernel
    have h3 : F64.limit = 2 ^ 53 * 2 ^ 2045 := by decide +kernel
    rw [h1, h2] at h
    rw [h1, h3]
    exact Nat.mul_le_mul_right _ (by have := Nat.lt_of_mul_lt_mul_right h; omega)

theorem cast_dist (_n d z : Nat) : ((d : Int) * (z : Int)) = ((d * z : Nat) : Int) := by push_cast; rfl

theorem nat_mul_succ (d x : Nat) : d * (x + 1) = d * x + d := rfl

theorem round_in {n d : Nat} (hd : 0 < d) (h : n ≤ d * maxFin) : F64.roundQ n d < F64.limit := by
  rcases Nat.lt_or_ge maxFin (F64.roundQ n d) with h1 | h1
  · exfalso
    have h2 := F64.roundQ_nearest (n := n) hd rep_maxFin
    unfold F64.dist at h2
    rw [cast_dist n, cast_dist n] at h2
    have h3 : d * (maxFin + 1) ≤ d * F64.roundQ n d := Nat.mul_le_mul_left d h1
    rw [nat_mul_succ] at h3
    generalize d * maxFin = A at *
    generalize d * F64.roundQ n d = B at *
    generalize d * F64.limit = C at *
    omega
  · exact Nat.lt_of_le_of_lt h1 maxFin_lt

theorem round_out {n d : Nat} (hd : 0 < d) (h : d * F64.limit ≤ n) : F64.limit ≤ F64.roundQ n d := by
  rcases Nat.lt_or_ge (F64.roundQ n d) F64.limit with h1 | h1
  · exfalso
    have h2 := F64.roundQ_nearest (n := n) hd rep_limit
    unfold F64.dist at h2
    rw [cast_dist n, cast_dist n] at h2
    have h3 : d * (F64.roundQ n d + 1) ≤ d * F64.limit := Nat.mul_le_mul_left d h1
    rw [nat_mul_succ] at h3
    generalize d * maxFin = A at *
    generalize d * F64.roundQ n d = B at *
    generalize d * F64.limit = C at *
    omega
  · exact h1

theorem ok_iff {s : Bool} {k : Nat} : F64.Ok (.fin s k) ↔ k < F64.limit ∧ F64.Rep k := Iff.rfl

/-- Rounding a magnitude in range, with its sign, is nearest. -/
theorem round_near {n : Int} {N d : Nat} {s : Bool} (hd : 0 < d) (hn : n = if s then -(N : Int) else N)
    (h : N ≤ d * maxFin) : Near n d (F64.round s N d) := by
  have hlt := round_in hd h
  unfold F64.round F64.pack
  rw [if_pos hlt]
  refine ⟨⟨hlt, F64.roundQ_rep N d⟩, fun t m e hm => ?_⟩
  have h0 := F64.roundQ_nearest (n := N) hd (z := m * 2 ^ e) ⟨m, e, hm, rfl⟩
  have hz := F64.roundQ_nearest (n := N) hd (z := 0) ⟨0, 0, by decide, by decide⟩
  unfold F64.dist at h0 hz
  generalize hR : F64.roundQ N d = R at *
  generalize hZ : m * 2 ^ e = Z at *
  have eR := cast_dist N d R
  have eZ := cast_dist N d Z
  rw [eR] at h0 hz
  rw [eZ] at h0
  have nR : (d : Int) * -(R : Int) = -((d * R : Nat) : Int) := by rw [Int.mul_neg, eR]
  have nZ : (d : Int) * -(Z : Int) = -((d * Z : Nat) : Int) := by rw [Int.mul_neg, eZ]
  have e0 : (d : Int) * ((0 : Nat) : Int) = 0 := by simp
  rw [e0] at hz
  unfold F64.sval
  cases s <;> cases t <;> simp only [if_true, if_false, Bool.false_eq_true] at hn ⊢ <;> subst hn <;>
    simp only [eR, eZ, nR, nZ] <;> omega

/-- Beyond the limit the result is infinite. -/
theorem round_inf {N d : Nat} {s : Bool} (hd : 0 < d) (h : d * F64.limit ≤ N) : F64.round s N d = .inf s := by
  have := round_out hd h
  unfold F64.round F64.pack
  rw [if_neg (by omega)]

/-! ### C159: arithmetic -/

/-- What `+ - * /` of finite FLOAT64 values must give for the exact result `n / d` units:
the nearest FLOAT64 if it is in range, an error from 2¹⁰²⁴ on. -/
def Exactly (n : Int) (d : Nat) (r : Res F64) : Prop :=
  (n.natAbs ≤ d * maxFin → ∃ x, r = .ok x ∧ Near n d x) ∧ (d * F64.limit ≤ n.natAbs → r = .err)

/-- C159 in full. -/
def C159_full : Prop := ∀ s a t b, F64.Ok (.fin s a) → F64.Ok (.fin t b) →
  Exactly (F64.sval s a + F64.sval t b) 1 (add (.fin s a) (.fin t b)) ∧
  Exactly (F64.sval s a - F64.sval t b) 1 (sub (.fin s a) (.fin t b)) ∧
  Exactly (F64.sval s a * F64.sval t b) F64.one (mul (.fin s a) (.fin t b)) ∧
  (if b = 0 then div (.fin s a) (.fin t b) = .err
   else Exactly (F64.sval (s != t) (a * F64.one)) b (div (.fin s a) (.fin t b)))

/-- The largest value times two is infinite instead of an error. -/
theorem C159_full_false : ¬ C159_full := by
  intro h
  have h1 := (h false maxFin false maxFin ⟨maxFin_lt, rep_maxFin⟩ ⟨maxFin_lt, rep_maxFin⟩).1.2 (by decide +kernel)
  unfold add at h1
  simp at h1

/-- What the code gives: infinite from 2¹⁰²⁴ on. -/
def Saturating (n : Int) (d : Nat) (r : Res F64) : Prop :=
  (n.natAbs ≤ d * maxFin → ∃ x, r = .ok x ∧ Near n d x) ∧ (d * F64.limit ≤ n.natAbs → r = .ok (.inf (decide (n < 0))))

theorem sat_round {n : Int} {N d : Nat} {s : Bool} (hd : 0 < d) (hN : n.natAbs = N) (hs : n ≠ 0 → s = decide (n < 0)) :
    Saturating n d (.ok (F64.round s N d)) := by
  constructor
  · intro h
    rw [hN] at h
    refine ⟨_, rfl, round_near hd ?_ h⟩
    by_cases h0 : n = 0
    · subst h0; cases s <;> simp at hN ⊢ <;> omega
    · rw [hs h0]
      by_cases hn : n < 0
      · simp [hn]; omega
      · simp [hn]; omega
  · intro h
    have h0 : n ≠ 0 := by
      rintro rfl
      have h2 : 0 < d * F64.limit := Nat.mul_pos hd (by decide +kernel)
      generalize d * F64.limit = L at *
      simp at h; omega
    rw [hN] at h
    rw [round_inf hd h, hs h0]

theorem near_zero (s : Bool) : Near 0 1 (.fin s 0) := by
  refine ⟨⟨by decide +kernel, 0, 0, by decide, by decide⟩, fun t m e _ => ?_⟩
  have : F64.sval s 0 = 0 := by cases s <;> rfl
  rw [this]; simp

theorem sat_add (s a t b) : Saturating (F64.sval s a + F64.sval t b) 1 (add (.fin s a) (.fin t b)) := by
  unfold add F64.add
  simp only
  split
  · rename_i h0
    rw [h0]
    refine ⟨fun _ => ⟨_, rfl, near_zero _⟩, fun h => ?_⟩
    have h2 : 0 < 1 * F64.limit := by decide +kernel
    generalize 1 * F64.limit = L at *
    simp at h; omega
  · exact sat_round (by decide) rfl (fun _ => rfl)

theorem sval_neg (t : Bool) (b : Nat) : F64.sval (!t) b = - F64.sval t b := by
  cases t <;> simp [F64.sval]

theorem sval_mul (s t : Bool) (a b : Nat) : F64.sval s a * F64.sval t b = F64.sval (s != t) (a * b) := by
  cases s <;> cases t <;> simp [F64.sval, Int.mul_neg, Int.neg_mul]

theorem natAbs_sval (s : Bool) (k : Nat) : (F64.sval s k).natAbs = k := by
  cases s <;> simp [F64.sval]

theorem sval_sign {s : Bool} {k : Nat} (h : F64.sval s k ≠ 0) : s = decide (F64.sval s k < 0) := by
  cases s <;> simp [F64.sval] at h ⊢ <;> omega

/-- C159: sums, differences, products and quotients are the nearest FLOAT64 when the exact result is in
range; x / 0 is an error; an overflow is infinite (missing: it must be an error). -/
theorem C159_partial (s a t b) :
    Saturating (F64.sval s a + F64.sval t b) 1 (add (.fin s a) (.fin t b)) ∧
    Saturating (F64.sval s a - F64.sval t b) 1 (sub (.fin s a) (.fin t b)) ∧
    Saturating (F64.sval s a * F64.sval t b) F64.one (mul (.fin s a) (.fin t b)) ∧
    (if b = 0 then div (.fin s a) (.fin t b) = .err
     else Saturating (F64.sval (s != t) (a * F64.one)) b (div (.fin s a) (.fin t b))) := by
  refine ⟨sat_add s a t b, ?_, ?_, ?_⟩
  · have h := sat_add s a (!t) b
    rw [sval_neg, ← Int.sub_eq_add_neg] at h
    exact h
  · unfold mul F64.mul
    simp only
    rw [sval_mul]
    exact sat_round one_pos (natAbs_sval _ _) (fun h => sval_sign h)
  · split
    · rename_i hb
      subst hb
      have : F64.sval t 0 = 0 := by cases t <;> rfl
      unfold div F64.eq
      simp only [this]
      simp [F64.sval]
    · rename_i hb
      have : F64.sval t b ≠ 0 := by cases t <;> simp [F64.sval] <;> omega
      unfold div F64.eq F64.div
      simp only [if_neg hb]
      have e : F64.sval false 0 = 0 := rfl
      simp only [e, decide_eq_true_eq, if_neg this]
      exact sat_round (by omega) (natAbs_sval _ _) (fun h => sval_sign h)

/-- 1.5 + 0.25 -/
example : F64.Ok (.fin false (3 * 2 ^ 1073)) ∧ F64.Ok (.fin false (2 ^ 1072)) ∧
    add (.fin false (3 * 2 ^ 1073)) (.fin false (2 ^ 1072)) = .ok (.fin false (7 * 2 ^ 1072)) :=
  ⟨⟨by decide +kernel, 3, 1073, by decide, rfl⟩, ⟨by decide +kernel, 1, 1072, by decide, by decide +kernel⟩, by decide +kernel⟩

/-! ### C160: CAST AS INT64 -/

/-- The integer nearest to `x`, halves away from zero. -/
def IsRounded (s : Bool) (k : Nat) (r : Int) : Prop :=
  2 * (F64.sval s k - F64.one * r).natAbs ≤ F64.one ∧
  (2 * (F64.sval s k - F64.one * r).natAbs = F64.one → k < F64.one * r.natAbs)

/-- C160 in full: the nearest integer, halves away from zero; an error if it is not an INT64. -/
def C160_full : Prop := ∀ x : F64, F64.Ok x →
  (∀ r : Int, toInt64 x = .ok r → InI64 r ∧ ∃ s k, x = .fin s k ∧ IsRounded s k r) ∧
  ((∃ s k r, x = .fin s k ∧ IsRounded s k r ∧ InI64 r) → ∃ r, toInt64 x = .ok r)

/-- CAST(1.75 AS INT64) is 1. -/
theorem C160_full_false : ¬ C160_full := by
  intro h
  have h1 := ((h (.fin false (7 * 2 ^ 1072)) ⟨by decide +kernel, 7, 1072, by decide, rfl⟩).1 1 (by decide +kernel)).2
  obtain ⟨s, k, e, h2⟩ := h1
  cases e
  have h3 := h2.1
  revert h3
  decide +kernel

theorem sval_sgn (s : Bool) (a b : Nat) :
    (F64.sval s a < 0 → F64.sval s b ≤ 0) ∧ (0 < F64.sval s a → 0 ≤ F64.sval s b) := by
  cases s <;> simp only [F64.sval, if_true, if_false, Bool.false_eq_true] <;> omega

theorem sval_split (s : Bool) (k : Nat) : F64.sval s k = F64.one * F64.sval s (k / F64.one) + F64.sval s (k % F64.one) := by
  have h := Nat.div_add_mod k F64.one
  cases s <;> simp only [F64.sval, if_true, if_false, Bool.false_eq_true]
  · exact_mod_cast h.symm
  · rw [Int.mul_neg]
    have : (k : Int) = F64.one * (k / F64.one : Nat) + (k % F64.one : Nat) := by exact_mod_cast h.symm
    omega

/-- C160: the result is the integer part; it is right exactly when the fraction is less than a half
and the integer part is an INT64.  Infinity and what does not fit give −2⁶³ and no error. -/
theorem C160_partial (x : F64) :
    (∃ r, toInt64 x = .ok r ∧ ∃ s k, x = .fin s k ∧ IsRounded s k r) ↔
      ∃ s k, x = .fin s k ∧ 2 * (k % F64.one) < F64.one ∧ InI64 (F64.sval s (k / F64.one)) := by
  have hone := one_pos
  constructor
  · rintro ⟨r, hr, s, k, rfl, hx⟩
    refine ⟨s, k, rfl, ?_⟩
    unfold IsRounded at hx
    rw [sval_split] at hx
    simp only [toInt64, F64.toInt64, Res.ok.injEq] at hr
    have hm := Nat.mod_lt k hone
    have hdm := Nat.div_add_mod k F64.one
    split at hr
    · rename_i hin
      subst hr
      refine ⟨?_, hin⟩
      have e : (F64.one : Int) * F64.sval s (k / F64.one) + F64.sval s (k % F64.one) - F64.one * F64.sval s (k / F64.one) =
          F64.sval s (k % F64.one) := by omega
      rw [e, natAbs_sval, natAbs_sval] at hx
      have := hx.1
      rcases Nat.lt_or_ge (2 * (k % F64.one)) F64.one with h | h
      · exact h
      · have := hx.2 (by omega); omega
    · rename_i hout
      exfalso
      subst hr
      have h1 := hx.1
      generalize hq : F64.sval s (k / F64.one) = q at *
      have hs : (F64.sval s (k % F64.one)).natAbs = k % F64.one := natAbs_sval _ _
      have e : (F64.one : Int) * q + F64.sval s (k % F64.one) - F64.one * (-9223372036854775808) =
          F64.one * (q + 9223372036854775808) + F64.sval s (k % F64.one) := by rw [Int.mul_add]; omega
      rw [e] at h1
      have hsgn : (q < 0 → F64.sval s (k % F64.one) ≤ 0) ∧ (0 < q → 0 ≤ F64.sval s (k % F64.one)) := by
        subst hq; exact sval_sgn s _ _
      generalize F64.sval s (k % F64.one) = w at *
      generalize F64.one = o at *
      by_cases hq2 : 9223372036854775807 < q
      · have h2 : (o : Int) * 1 ≤ o * (q + 9223372036854775808) := Int.mul_le_mul_of_nonneg_left (by omega) (by omega)
        have := hsgn.2 (by omega)
        generalize (o : Int) * (q + 9223372036854775808) = v at *
        omega
      · have h2 : (o : Int) * (q + 9223372036854775808) ≤ o * (-1) := Int.mul_le_mul_of_nonneg_left (by omega) (by omega)
        have := hsgn.1 (by omega)
        generalize (o : Int) * (q + 9223372036854775808) = v at *
        omega
  · rintro ⟨s, k, rfl, h1, h2⟩
    refine ⟨F64.sval s (k / F64.one), ?_, s, k, rfl, ?_⟩
    · simp only [toInt64, F64.toInt64]
      exact congrArg Res.ok (if_pos h2)
    · unfold IsRounded
      rw [sval_split]
      have e : (F64.one : Int) * F64.sval s (k / F64.one) + F64.sval s (k % F64.one) - F64.one * F64.sval s (k / F64.one) =
          F64.sval s (k % F64.one) := by omega
      rw [e, natAbs_sval]
      omega

/-- 2.25 is cast right, 1.75 and −0.5 are not. -/
example : (∃ s k, F64.fin false (9 * 2 ^ 1072) = .fin s k ∧ 2 * (k % F64.one) < F64.one ∧ InI64 (F64.sval s (k / F64.one))) ∧
    toInt64 (.fin false (9 * 2 ^ 1072)) = .ok 2 ∧ toInt64 (.fin false (7 * 2 ^ 1072)) = .ok 1 ∧
    toInt64 (.fin true (2 ^ 1073)) = .ok 0 ∧ toInt64 (.inf false) = .ok (-9223372036854775808) :=
  ⟨⟨false, 9 * 2 ^ 1072, rfl, by decide +kernel, by unfold InI64; decide +kernel⟩, by decide +kernel, by decide +kernel, by decide +kernel,
   by decide +kernel⟩

/-! ### C161: FLOOR, CEIL and TRUNC -/

/-- 53 significant bits rounded to a multiple of 1.0 are 53 significant bits. -/
theorem rep_floor {k q : Nat} (hk : F64.Rep k) (h1 : q * F64.one < k + F64.one) (h2 : k < (q + 1) * F64.one) : F64.Rep (q * F64.one) := by
  obtain ⟨m, e, hm, rfl⟩ := hk
  by_cases he : 1074 ≤ e
  · have e1 : m * 2 ^ e = m * 2 ^ (e - 1074) * F64.one := by
      unfold F64.one
      rw [Nat.mul_assoc, ← Nat.pow_add]; congr 2; omega
    have hq : q = m * 2 ^ (e - 1074) := by
      rw [e1] at h1 h2
      have h1' : q * F64.one < (m * 2 ^ (e - 1074) + 1) * F64.one := by rw [Nat.add_mul, Nat.one_mul]; exact h1
      have a := Nat.lt_of_mul_lt_mul_right h1'
      have b := Nat.lt_of_mul_lt_mul_right h2
      omega
    rw [hq, ← e1]
    exact ⟨m, e, hm, rfl⟩
  · have h3 : m * 2 ^ e < 2 ^ 53 * 2 ^ 1073 :=
      Nat.lt_of_lt_of_le (Nat.mul_lt_mul_of_pos_right hm (F64.pow_pos' e))
        (Nat.mul_le_mul_left _ (Nat.pow_le_pow_right (by decide) (by omega)))
    have h4 : 2 ^ 53 * 2 ^ 1073 = 2 ^ 52 * F64.one := by decide +kernel
    have h5 : q * F64.one < (2 ^ 52 + 1) * F64.one := by
      have e2 : (2 ^ 52 + 1) * F64.one = 2 ^ 52 * F64.one + F64.one := by rw [Nat.add_mul, Nat.one_mul]
      rw [e2, ← h4]; omega
    have h6 := Nat.lt_of_mul_lt_mul_right h5
    exact F64.rep_le (by omega)

/-- `r` is a FLOAT64 whose value is the integer `i`. -/
def IsInt (r : F64) (i : Int) : Prop := ∃ s k, r = .fin s k ∧ F64.Ok r ∧ F64.sval s k = i * F64.one

theorem floor_ok {s : Bool} {k q : Nat} (hk : F64.Ok (.fin s k)) (h1 : q * F64.one < k + F64.one) (h2 : k < (q + 1) * F64.one) (t : Bool) :
    F64.Ok (.fin t (q * F64.one)) := by
  have hr := rep_floor hk.2 h1 h2
  refine ⟨?_, hr⟩
  rcases Nat.lt_or_ge maxFin (q * F64.one) with h | h
  · exfalso
    have h3 := rep_gap hr h
    have h4 : k ≤ maxFin := by
      rcases Nat.lt_or_ge maxFin k with h' | h'
      · have := rep_gap hk.2 h'; have := hk.1; omega
      · exact h'
    have h5 : maxFin + F64.one < F64.limit := by decide +kernel
    generalize q * F64.one = Q at *
    generalize F64.limit = L at *
    generalize maxFin = M at *
    omega
  · exact Nat.lt_of_le_of_lt h maxFin_lt

theorem down {k : Nat} : k / F64.one * F64.one ≤ k ∧ k < (k / F64.one + 1) * F64.one := by
  have h := Nat.div_add_mod k F64.one
  have hm := Nat.mod_lt k one_pos
  rw [Nat.add_mul, Nat.one_mul, Nat.mul_comm (k / F64.one)]
  generalize F64.one * (k / F64.one) = A at *
  omega

theorem up {k : Nat} : k ≤ (k + (F64.one - 1)) / F64.one * F64.one ∧ (k + (F64.one - 1)) / F64.one * F64.one < k + F64.one := by
  have h := @down (k + (F64.one - 1))
  have := one_pos
  rw [Nat.add_mul, Nat.one_mul] at h
  generalize (k + (F64.one - 1)) / F64.one * F64.one = A at *
  omega

theorem floor_pos (k : Nat) (hk : F64.Ok (.fin false k)) :
    ∃ i, F64.Ok (.fin false (k / F64.one * F64.one)) ∧ F64.sval false (k / F64.one * F64.one) = i * F64.one ∧
      i * F64.one ≤ F64.sval false k ∧ F64.sval false k < (i + 1) * F64.one := by
  have h := @down k
  have h1 := one_pos
  refine ⟨(k / F64.one : Nat), floor_ok hk (by omega) h.2 _, ?_, ?_, ?_⟩
  · simp only [F64.sval, Bool.false_eq_true, if_false]; push_cast; rfl
  · simp only [F64.sval, Bool.false_eq_true, if_false]; exact_mod_cast h.1
  · simp only [F64.sval, Bool.false_eq_true, if_false]; exact_mod_cast h.2

theorem floor_neg (k : Nat) (hk : F64.Ok (.fin true k)) :
    ∃ i, F64.Ok (.fin true ((k + (F64.one - 1)) / F64.one * F64.one)) ∧
      F64.sval true ((k + (F64.one - 1)) / F64.one * F64.one) = i * F64.one ∧
      i * F64.one ≤ F64.sval true k ∧ F64.sval true k < (i + 1) * F64.one := by
  have h := @up k
  have h1 := one_pos
  have h2 : k < ((k + (F64.one - 1)) / F64.one + 1) * F64.one := by rw [Nat.add_mul, Nat.one_mul]; omega
  refine ⟨-((k + (F64.one - 1)) / F64.one : Nat), floor_ok hk h.2 h2 _, ?_⟩
  generalize (k + (F64.one - 1)) / F64.one = q at *
  have e : (-(q : Int)) * F64.one = -((q * F64.one : Nat) : Int) := by rw [Int.neg_mul]; push_cast; rfl
  have e2 : (-(q : Int) + 1) * F64.one = -((q * F64.one : Nat) : Int) + F64.one := by rw [Int.add_mul, e, Int.one_mul]
  rw [e, e2]
  simp only [F64.sval, if_true]
  generalize q * F64.one = Q at *
  refine ⟨trivial, ?_, ?_⟩ <;> omega

/-- FLOOR of a finite value. -/
theorem floor_fin (s : Bool) (k : Nat) (hk : F64.Ok (.fin s k)) :
    ∃ r i, F64.floor (.fin s k) = r ∧ IsInt r i ∧ i * F64.one ≤ F64.sval s k ∧ F64.sval s k < (i + 1) * F64.one := by
  cases s with
  | false =>
    obtain ⟨i, h1, h2, h3⟩ := floor_pos k hk
    exact ⟨_, i, rfl, ⟨_, _, rfl, h1, h2⟩, h3⟩
  | true =>
    obtain ⟨i, h1, h2, h3⟩ := floor_neg k hk
    exact ⟨_, i, rfl, ⟨_, _, rfl, h1, h2⟩, h3⟩

/-- C161: FLOOR(x) is the largest integer not above x. -/
theorem C161_floor (s : Bool) (k : Nat) (hk : F64.Ok (.fin s k)) :
    ∃ r i, floor (.fin s k) = .ok r ∧ IsInt r i ∧ i * F64.one ≤ F64.sval s k ∧ F64.sval s k < (i + 1) * F64.one := by
  obtain ⟨r, i, h, h2⟩ := floor_fin s k hk
  exact ⟨r, i, congrArg Res.ok h, h2⟩

/-- C161: CEIL(x) is the smallest integer not below x. -/
theorem C161_ceil (s : Bool) (k : Nat) (hk : F64.Ok (.fin s k)) :
    ∃ r i, ceil (.fin s k) = .ok r ∧ IsInt r i ∧ (i - 1) * F64.one < F64.sval s k ∧ F64.sval s k ≤ i * F64.one := by
  obtain ⟨r, i, h, ⟨t, m, rfl, hr1, hr2⟩, h3, h4⟩ := floor_fin (!s) k hk
  rw [sval_neg] at h3 h4
  refine ⟨.fin (!t) m, -i, ?_, ⟨!t, m, rfl, hr1, ?_⟩, ?_, ?_⟩
  · simp only [ceil, F64.ceil, F64.neg, h]
  · rw [sval_neg, hr2, Int.neg_mul]
  · rw [Int.add_mul, Int.one_mul] at h4
    rw [Int.sub_mul, Int.one_mul, Int.neg_mul]; omega
  · rw [Int.neg_mul]; omega

/-- C161: TRUNC(x) is x without its fraction. -/
theorem C161_trunc (s : Bool) (k : Nat) (hk : F64.Ok (.fin s k)) :
    ∃ r i, trunc (.fin s k) none = .ok r ∧ IsInt r i ∧ i.natAbs * F64.one ≤ k ∧ k < (i.natAbs + 1) * F64.one ∧
      (F64.sval s k < 0 → i ≤ 0) ∧ (0 < F64.sval s k → 0 ≤ i) := by
  have h := @down k
  have h1 := one_pos
  refine ⟨.fin s (k / F64.one * F64.one), F64.sval s (k / F64.one), rfl,
    ⟨s, _, rfl, floor_ok hk (by omega) h.2 _, ?_⟩, ?_, ?_, ?_⟩
  · cases s
    · simp only [F64.sval, Bool.false_eq_true, if_false]; push_cast; rfl
    · simp only [F64.sval, if_true]; rw [Int.neg_mul]; push_cast; rfl
  · rw [natAbs_sval]; exact h.1
  · rw [natAbs_sval]; exact h.2
  · exact sval_sgn s _ _

/-- C161: infinite values are unchanged. -/
theorem C161_inf (s : Bool) : floor (.inf s) = .ok (.inf s) ∧ ceil (.inf s) = .ok (.inf s) ∧ trunc (.inf s) none = .ok (.inf s) := by
  cases s <;> decide +kernel

/-- FLOOR(−1.75) = −2, CEIL(−1.75) = −1. -/
example : F64.Ok (.fin true (7 * 2 ^ 1072)) ∧ floor (.fin true (7 * 2 ^ 1072)) = .ok (.fin true (2 * F64.one)) ∧
    ceil (.fin true (7 * 2 ^ 1072)) = .ok (.fin true F64.one) :=
  ⟨⟨by decide +kernel, 7, 1072, by decide, rfl⟩, by decide +kernel, by decide +kernel⟩

/-! ### C162: TRUNC(x, n) -/

/-- `r` is the FLOAT64 nearest to x cut after `n` decimals. -/
def IsTrunc (s : Bool) (k n : Nat) (r : F64) : Prop := Near (F64.sval s (k * 10 ^ n / F64.one * F64.one)) (10 ^ n) r

/-- C162 in full. -/
def C162_full : Prop := ∀ s k (n : Nat), F64.Ok (.fin s k) → ∃ r, trunc (.fin s k) (some n) = .ok r ∧ IsTrunc s k n r

theorem sval_dist (s : Bool) (A P B : Nat) : (F64.sval s A - P * F64.sval s B).natAbs = ((A : Int) - (P * B : Nat)).natAbs := by
  cases s
  · simp only [F64.sval, Bool.false_eq_true, if_false]; push_cast; rfl
  · simp only [F64.sval, if_true]
    rw [Int.mul_neg, cast_dist 0]
    generalize P * B = X
    omega

/-- C162: the number of decimals is not read, so the result is right exactly when the first `n` decimals are zeros. -/
theorem C162_partial (s : Bool) (k n : Nat) (hk : F64.Ok (.fin s k)) :
    (∃ r, trunc (.fin s k) (some n) = .ok r ∧ IsTrunc s k n r) ↔ k * 10 ^ n / F64.one = k / F64.one * 10 ^ n := by
  have h := @down k
  have h1 := one_pos
  have hr : trunc (.fin s k) (some (n : Int)) = .ok (.fin s (k / F64.one * F64.one)) := rfl
  have hok : F64.Ok (.fin s (k / F64.one * F64.one)) := floor_ok hk (by omega) h.2 _
  constructor
  · rintro ⟨r, h2, h3⟩
    rw [hr] at h2
    cases h2
    obtain ⟨m, e, hm, hkm⟩ := hk.2
    have h4 := h3.2 s m e hm
    rw [← hkm, sval_dist, sval_dist] at h4
    have h5 := Nat.div_add_mod (k * 10 ^ n) F64.one
    have h6 := Nat.mod_lt (k * 10 ^ n) h1
    have h7 : k / F64.one * 10 ^ n ≤ k * 10 ^ n / F64.one := by
      rw [Nat.le_div_iff_mul_le h1, Nat.mul_right_comm]
      exact Nat.mul_le_mul_right _ h.1
    have e1 : 10 ^ n * (k / F64.one * F64.one) = k / F64.one * 10 ^ n * F64.one := by
      rw [← Nat.mul_assoc, Nat.mul_comm (10 ^ n)]
    rw [e1, Nat.mul_comm (10 ^ n) k] at h4
    generalize k * 10 ^ n / F64.one = T at *
    generalize k / F64.one * 10 ^ n = U at *
    rcases Nat.lt_or_ge U T with h8 | h8
    · exfalso
      have h9 : (U + 1) * F64.one ≤ T * F64.one := Nat.mul_le_mul_right _ h8
      rw [Nat.add_mul, Nat.one_mul] at h9
      rw [Nat.mul_comm F64.one T] at h5
      generalize T * F64.one = TT at *
      generalize U * F64.one = UU at *
      omega
    · omega
  · intro h2
    refine ⟨_, hr, hok, fun t m e _ => ?_⟩
    rw [sval_dist, h2]
    have e1 : 10 ^ n * (k / F64.one * F64.one) = k / F64.one * 10 ^ n * F64.one := by
      rw [← Nat.mul_assoc, Nat.mul_comm (10 ^ n)]
    rw [e1]
    simp

/-- TRUNC(1.75, 1) is 1.0. -/
theorem C162_full_false : ¬ C162_full := by
  intro h
  have h1 := (C162_partial false (7 * 2 ^ 1072) 1 ⟨by decide +kernel, 7, 1072, by decide, rfl⟩).1
    (h _ _ 1 ⟨by decide +kernel, 7, 1072, by decide, rfl⟩)
  revert h1
  decide +kernel

/-- TRUNC(1.0625, 1) = 1.0 is right. -/
example : F64.Ok (.fin false (17 * 2 ^ 1070)) ∧ 17 * 2 ^ 1070 * 10 ^ 1 / F64.one = 17 * 2 ^ 1070 / F64.one * 10 ^ 1 :=
  ⟨⟨by decide +kernel, 17, 1070, by decide, rfl⟩, by decide +kernel⟩

/-! ### C163: IEEE_DIVIDE -/

/-- The same FLOAT64, the two zeros taken as one. -/
def Same : F64 → F64 → Prop
  | .fin s a, .fin t b => F64.sval s a = F64.sval t b
  | x, y => x = y

/-- What IEEE 754 asks of x / y, the sign of a zero left open. -/
def IsQuotient : F64 → F64 → F64 → Prop
  | .nan, _, r => r = .nan
  | _, .nan, r => r = .nan
  | .inf _, .inf _, r => r = .nan
  | .inf s, .fin t _, r => r = .inf (s != t)
  | .fin _ _, .inf _, r => Same r (.fin false 0)
  | .fin s a, .fin t b, r =>
    if b = 0 then (if a = 0 then r = .nan else r = .inf (s != t))
    else Saturating (F64.sval (s != t) (a * F64.one)) b (.ok r)

/-- IEEE_DIVIDE as a function of SQLite values. -/
def ieeeFn : List F64 → Res (Option F64)
  | [x, y] => (ieeeDivide x y).bind fun r => .ok (some r)
  | _ => .err

/-- C163 in full: the client sees the quotient of IEEE 754. -/
def C163_full : Prop := ∀ x y, F64.Ok x → F64.Ok y →
  ∃ r, eval (.call ieeeFn [.param x, .param y]) = .ok (some r) ∧ IsQuotient x y r

/-- IEEE_DIVIDE(0, 0) is NULL instead of NaN. -/
theorem C163_full_false : ¬ C163_full := by
  intro h
  obtain ⟨r, h1, h2⟩ := h (.fin false 0) (.fin false 0) ⟨by decide +kernel, 0, 0, by decide, by decide⟩
    ⟨by decide +kernel, 0, 0, by decide, by decide⟩
  have h3 : eval (.call ieeeFn [.param (.fin false 0), .param (.fin false 0)]) = .ok none := by rfl
  rw [h3] at h1
  simp at h1

theorem sval_zero {s : Bool} {k : Nat} : F64.sval s k = 0 ↔ k = 0 := by
  cases s <;> simp [F64.sval]

theorem fin_eq_zero {s : Bool} {k : Nat} : F64.eq (.fin s k) (.fin false 0) = decide (k = 0) := by
  have e : F64.sval false 0 = 0 := rfl
  simp only [F64.eq, e, sval_zero]

theorem ieee_call (x y : F64) (hx : x ≠ .nan) (hy : y ≠ .nan) {r : F64} (h : ieeeDivide x y = .ok r) :
    eval (.call ieeeFn [.param x, .param y]) = .ok (sqlite r) := by
  have e1 : ∀ z : F64, z ≠ .nan → sqlite z = some z := by
    intro z hz; cases z <;> first | rfl | exact absurd rfl hz
  simp only [eval, evals, Res.bind, e1 x hx, e1 y hy, allSome, Option.map, ieeeFn, h, Option.bind]

theorem ieee_iff {x y r0 : F64} (hx : x ≠ .nan) (hy : y ≠ .nan) (h : ieeeDivide x y = .ok r0) :
    (∃ r, eval (.call ieeeFn [.param x, .param y]) = .ok (some r) ∧ IsQuotient x y r) ↔ r0 ≠ .nan ∧ IsQuotient x y r0 := by
  rw [ieee_call x y hx hy h]
  constructor
  · rintro ⟨r, h1, h2⟩
    cases r0 <;> simp [sqlite] at h1 <;> subst h1 <;> exact ⟨by simp, h2⟩
  · rintro ⟨h1, h2⟩
    refine ⟨r0, ?_, h2⟩
    cases r0 <;> first | rfl | exact absurd rfl h1

theorem near_zero' (s : Bool) (d : Nat) : Near 0 d (.fin s 0) := by
  refine ⟨⟨by decide +kernel, 0, 0, by decide, by decide⟩, fun t m e _ => ?_⟩
  have : F64.sval s 0 = 0 := by cases s <;> rfl
  rw [this]; simp

theorem lt_zero {s : Bool} {a : Nat} (ha : a ≠ 0) :
    F64.lt (.fin false 0) (.fin s a) = !s ∧ F64.lt (.fin s a) (.fin false 0) = s := by
  cases s <;> simp [F64.lt, F64.sval] <;> omega

/-- C163: IEEE_DIVIDE is the quotient of IEEE 754 exactly when that is not NaN (which becomes NULL) and the divisor
is not a negative zero under a finite non-zero dividend (the sign of the infinity is then wrong). -/
theorem C163_partial (x y : F64) :
    (∃ r, eval (.call ieeeFn [.param x, .param y]) = .ok (some r) ∧ IsQuotient x y r) ↔
      x ≠ .nan ∧ y ≠ .nan ∧ ¬ (x.isInf ∧ y.isInf) ∧
      ∀ s a t, x = .fin s a → y = .fin t 0 → a ≠ 0 ∧ t = false := by
  match x, y with
  | .nan, y =>
    constructor
    · rintro ⟨r, h1, _⟩
      have : eval (.call ieeeFn [.param .nan, .param y]) = .ok none := by
        simp [eval, evals, sqlite, allSome]
      rw [this] at h1; simp at h1
    · rintro ⟨h, _⟩; exact absurd rfl h
  | .inf s, .nan | .fin s a, .nan =>
    constructor
    · rintro ⟨r, h1, _⟩
      simp [eval, evals, sqlite, allSome] at h1
    · rintro ⟨_, h, _⟩; exact absurd rfl h
  | .inf s, .inf t =>
    rw [ieee_iff (r0 := .nan) (by simp) (by simp) (by simp [ieeeDivide, F64.eq, F64.isNaN, F64.isInf])]
    simp [F64.isInf]
  | .inf s, .fin t b =>
    rw [ieee_iff (r0 := .inf (s != t)) (by simp) (by simp) (by simp [ieeeDivide, F64.eq, F64.isNaN, F64.isInf, F64.div])]
    simp [F64.isInf, IsQuotient]
  | .fin s a, .inf t =>
    by_cases ha : a = 0
    · rw [ieee_iff (r0 := .fin false 0) (by simp) (by simp) (by
        simp only [ieeeDivide, fin_eq_zero, ha]; simp [F64.eq, F64.isNaN])]
      simp [F64.isInf, IsQuotient, Same]
    · rw [ieee_iff (r0 := .fin (s != t) 0) (by simp) (by simp) (by
        simp only [ieeeDivide, fin_eq_zero, ha]; simp [F64.eq, F64.isNaN, F64.isInf, F64.div])]
      have h0 : ∀ u, F64.sval u 0 = 0 := by intro u; cases u <;> rfl
      simp [F64.isInf, IsQuotient, Same, h0]
  | .fin s a, .fin t b =>
    by_cases ha : a = 0
    · by_cases hb : b = 0
      · rw [ieee_iff (r0 := .nan) (by simp) (by simp) (by simp only [ieeeDivide, fin_eq_zero, ha, hb]; simp)]
        subst ha; subst hb
        simp only [ne_eq, not_true_eq_false, false_and, false_iff]
        rintro ⟨_, _, _, h⟩
        exact (h s 0 t rfl rfl).1 rfl
      · rw [ieee_iff (r0 := .fin false 0) (by simp) (by simp) (by
          simp only [ieeeDivide, fin_eq_zero, ha, hb]; simp [F64.isNaN])]
        subst ha
        refine iff_of_true ⟨by simp, ?_⟩ ⟨by simp, by simp, by simp [F64.isInf], ?_⟩
        · simp only [IsQuotient, if_neg hb, Nat.zero_mul]
          have h0 : ∀ u, F64.sval u 0 = 0 := by intro u; cases u <;> rfl
          rw [h0]
          refine ⟨fun _ => ⟨_, rfl, near_zero' _ _⟩, fun h => ?_⟩
          have h2 : 0 < b * F64.limit := Nat.mul_pos (by omega) (by decide +kernel)
          generalize b * F64.limit = L at *
          simp at h; omega
        · intro s' a' t' _ h2
          simp only [F64.fin.injEq] at h2
          exact absurd h2.2 hb
    · by_cases hb : b = 0
      · rw [ieee_iff (r0 := .inf s) (by simp) (by simp) (by
          simp only [ieeeDivide, fin_eq_zero, ha, hb, (lt_zero ha).1, (lt_zero ha).2]
          cases s <;> simp [F64.isNaN, F64.isInf])]
        subst hb
        simp only [ne_eq, reduceCtorEq, not_false_eq_true, IsQuotient, if_true, if_neg ha, true_and, F64.isInf]
        constructor
        · intro h
          refine ⟨by simp, fun s' a' t' h1 h2 => ?_⟩
          cases h1; cases h2
          refine ⟨ha, ?_⟩
          cases s <;> cases t <;> simp_all
        · rintro ⟨_, h⟩
          rw [(h s a t rfl rfl).2]; cases s <;> rfl
      · have hd : ieeeDivide (.fin s a) (.fin t b) = .ok (F64.round (s != t) (a * F64.one) b) := by
          simp only [ieeeDivide, fin_eq_zero, ha, hb]
          simp [F64.isNaN, F64.isInf, F64.div, hb]
        rw [ieee_iff (by simp) (by simp) hd]
        refine iff_of_true ⟨?_, ?_⟩ ⟨by simp, by simp, by simp [F64.isInf], ?_⟩
        · unfold F64.round F64.pack; split <;> simp
        · simp only [IsQuotient, if_neg hb]
          exact sat_round (by omega) (natAbs_sval _ _) (fun h => sval_sign h)
        · intro s' a' t' _ h2
          simp only [F64.fin.injEq] at h2
          exact absurd h2.2 hb

/-- IEEE_DIVIDE(1.0, 0.0) is infinite, IEEE_DIVIDE(1.0, −0.0) has the wrong sign. -/
example : (∃ r, eval (.call ieeeFn [.param (.fin false F64.one), .param (.fin false 0)]) = .ok (some r) ∧
      IsQuotient (.fin false F64.one) (.fin false 0) r) ∧
    ieeeDivide (.fin false F64.one) (.fin true 0) = .ok (.inf false) :=
  ⟨(C163_partial _ _).2 ⟨by simp, by simp, by simp [F64.isInf], fun s a t h1 h2 => by
      cases h1; cases h2; exact ⟨by decide +kernel, rfl⟩⟩, by decide +kernel⟩

/-! ### C164: NaN -/

/-- C164 in full: every FLOAT64 a client sends comes back. -/
def C164_full : Prop := ∀ x, F64.Ok x → eval (.param x) = .ok (some x)

/-- NaN comes back as NULL. -/
theorem C164_full_false : ¬ C164_full := by
  intro h
  have := h .nan trivial
  simp [eval, sqlite] at this

/-- C164: every FLOAT64 but NaN comes back as it was. -/
theorem C164_partial (x : F64) : eval (.param x) = .ok (some x) ↔ x ≠ .nan := by
  cases x <;> simp [eval, sqlite]

/-- The value of an expression is never NaN. -/
theorem C164_never (e : FExpr) : eval e ≠ .ok (some .nan) := by
  cases e with
  | param x => cases x <;> simp [eval, sqlite]
  | call f args =>
    intro h
    rw [eval.eq_2] at h
    cases hv : evals args with
    | err => rw [hv] at h; simp at h
    | panic => rw [hv] at h; simp at h
    | ok vs =>
      rw [hv, Res.bind'_ok] at h
      split at h
      · simp at h
      · rename_i xs _
        cases hf : f xs with
        | err => rw [hf] at h; simp at h
        | panic => rw [hf] at h; simp at h
        | ok r =>
          rw [hf, Res.bind'_ok] at h
          cases r with
          | none => simp at h
          | some x => cases x <;> simp [sqlite] at h

/-- IS_NAN is never TRUE, whatever functions the argument calls. -/
theorem C164_isNaN (e : FExpr) : evalIsNaN e ≠ .ok (some true) := by
  intro h
  have hn := C164_never e
  unfold evalIsNaN at h
  cases hv : eval e with
  | err => rw [hv] at h; simp at h
  | panic => rw [hv] at h; simp at h
  | ok v =>
    rw [hv] at h hn
    cases v with
    | none => simp at h
    | some x => cases x <;> simp [isNaN, F64.isNaN] at h hn

/-- IS_INF is TRUE exactly for the two infinities. -/
theorem C164_isInf (x : F64) : ∃ b, isInf x = .ok b ∧ (b = true ↔ ∃ s, x = .inf s) := by
  cases x <;> simp [isInf, F64.isInf]

/-- The argument of IS_NAN(IEEE_DIVIDE(0, 0)) is NULL. -/
example : evalIsNaN (.call ieeeFn [.param (.fin false 0), .param (.fin false 0)]) = .ok none := rfl

/-! ### C165: SIGN and ABS -/

/-- C165 in full: −1, 0 or 1 as the value is below, at or above zero; ABS is the magnitude. -/
def C165_full : Prop := ∀ s k, F64.Ok (.fin s k) →
  sign (.fin s k) = .ok (if F64.sval s k < 0 then -1 else if F64.sval s k = 0 then 0 else 1) ∧
  abs (.fin s k) = .ok (.fin false k)

/-- SIGN(−0.0) is −1. -/
theorem C165_full_false : ¬ C165_full := by
  intro h
  have := (h true 0 ⟨by decide +kernel, 0, 0, by decide, by decide⟩).1
  revert this
  decide +kernel

/-- C165: right exactly when the argument is not a negative zero. -/
theorem C165_partial (s : Bool) (k : Nat) :
    sign (.fin s k) = .ok (if F64.sval s k < 0 then -1 else if F64.sval s k = 0 then 0 else 1) ↔ ¬ (s = true ∧ k = 0) := by
  unfold sign
  rw [fin_eq_zero]
  by_cases hk : k = 0
  · subst hk; cases s <;> simp [F64.signbit, F64.sval]
  · cases s
    · have h1 : ¬ (F64.sval false k < 0) := by simp [F64.sval]
      have h2 : ¬ (F64.sval false k = 0) := by simp [F64.sval]; omega
      simp [F64.signbit, hk, h1, h2]
    · have h1 : F64.sval true k < 0 := by simp [F64.sval]; omega
      simp [F64.signbit, hk, h1]

/-- C165: SIGN of the infinities, and ABS. -/
theorem C165_inf (s : Bool) : sign (.inf s) = .ok (if s then -1 else 1) := by cases s <;> decide +kernel

theorem C165_abs (s : Bool) (k : Nat) : abs (.fin s k) = .ok (.fin false k) ∧ abs (.inf s) = .ok (.inf false) ∧
    F64.sval false k = (F64.sval s k).natAbs := by
  refine ⟨rfl, rfl, ?_⟩
  rw [natAbs_sval]; rfl

/-- −1.75 -/
example : ¬ (true = true ∧ 7 * 2 ^ 1072 = 0) ∧ sign (.fin true (7 * 2 ^ 1072)) = .ok (-1) := by decide +kernel

/-! ### C166: comparison, GREATEST and LEAST -/

/-- The place of a FLOAT64 on the line: its units, the infinities at ±2¹⁰²⁴. -/
def place : F64 → Int
  | .fin s k => F64.sval s k
  | .inf s => F64.sval s F64.limit
  | .nan => 0

theorem sval_lt {s : Bool} {k : Nat} (h : k < F64.limit) : -(F64.limit : Int) < F64.sval s k ∧ F64.sval s k < F64.limit := by
  cases s <;> simp only [F64.sval, if_true, if_false, Bool.false_eq_true] <;> generalize F64.limit = L at * <;> omega

/-- C166: the comparisons are those of the numbers. -/
theorem C166_compare {x y : F64} (hx : F64.Ok x) (hy : F64.Ok y) (nx : x ≠ .nan) (ny : y ≠ .nan) :
    (lt x y = decide (place x < place y)) ∧ (lte x y = decide (place x ≤ place y)) ∧ (gt x y = decide (place y < place x)) ∧
    (gte x y = decide (place y ≤ place x)) ∧ (eq x y = decide (place x = place y)) := by
  have hL : (0 : Int) < F64.limit := by decide +kernel
  have base : ∀ x y : F64, F64.Ok x → F64.Ok y → x ≠ .nan → y ≠ .nan →
      F64.lt x y = decide (place x < place y) ∧ F64.eq x y = decide (place x = place y) := by
    intro x y hx hy nx ny
    match x, y with
    | .nan, _ => exact absurd rfl nx
    | .inf _, .nan | .fin _ _, .nan => exact absurd rfl ny
    | .inf s, .inf t =>
      have pf : place (.inf false) = F64.limit := rfl
      have pt : place (.inf true) = -F64.limit := rfl
      have h1 : ¬ ((F64.limit : Int) < -F64.limit) := by generalize F64.limit = L at *; omega
      have h2 : (-F64.limit : Int) < F64.limit := by generalize F64.limit = L at *; omega
      have h3 : ¬ ((F64.limit : Int) = -F64.limit) := by generalize F64.limit = L at *; omega
      have h4 : ¬ (-(F64.limit : Int) = F64.limit) := by generalize F64.limit = L at *; omega
      cases s <;> cases t <;> simp only [pf, pt, h1, h2, h3, h4, F64.lt, F64.eq, Int.lt_irrefl, decide_true, decide_false] <;> decide
    | .inf s, .fin t b =>
      have h := sval_lt (s := t) hy.1
      cases s <;> simp only [F64.lt, F64.eq, place, F64.sval, if_true, if_false, Bool.false_eq_true] at h ⊢ <;>
        constructor <;> symm <;> simp only [decide_eq_true_eq, decide_eq_false_iff_not] <;> generalize F64.limit = L at * <;> omega
    | .fin s a, .inf t =>
      have h := sval_lt (s := s) hx.1
      cases t <;> simp only [F64.lt, F64.eq, place, F64.sval, Bool.not_true, Bool.not_false, if_true, if_false, Bool.false_eq_true] at h ⊢ <;>
        constructor <;> symm <;> simp only [decide_eq_true_eq, decide_eq_false_iff_not] <;> generalize F64.limit = L at * <;> omega
    | .fin s a, .fin t b => exact ⟨rfl, rfl⟩
  have h1 := base x y hx hy nx ny
  have h2 := base y x hy hx ny nx
  refine ⟨h1.1, ?_, h2.1, ?_, h1.2⟩
  · simp only [lte, F64.le, h1.1, h1.2]
    rw [← Bool.decide_or]
    exact decide_eq_decide.2 (by omega)
  · simp only [gte, F64.le, h2.1, h2.2]
    rw [← Bool.decide_or]
    exact decide_eq_decide.2 (by omega)

theorem greatest_some (m : F64) (xs : List F64) (hm : F64.Ok m ∧ m ≠ .nan) (hx : ∀ x ∈ xs, F64.Ok x ∧ x ≠ .nan) :
    ∃ r, greatestLoop (some m) xs = some r ∧ (r = m ∨ r ∈ xs) ∧ place m ≤ place r ∧ ∀ x ∈ xs, place x ≤ place r := by
  induction xs generalizing m with
  | nil => exact ⟨m, rfl, Or.inl rfl, Int.le_refl _, by simp⟩
  | cons x xs ih =>
    have hx0 := hx x (by simp)
    have hc := (C166_compare hx0.1 hm.1 hx0.2 hm.2).2.2.1
    simp only [greatestLoop, hc]
    by_cases h : place m < place x
    · simp only [h, decide_true, if_true]
      obtain ⟨r, h1, h2, h3, h4⟩ := ih x hx0 (fun y hy => hx y (by simp [hy]))
      refine ⟨r, h1, ?_, by omega, ?_⟩
      · rcases h2 with rfl | h2
        · simp
        · simp [h2]
      · intro y hy
        rcases List.mem_cons.1 hy with rfl | hy
        · exact h3
        · exact h4 y hy
    · simp only [h, decide_false, Bool.false_eq_true, if_false]
      obtain ⟨r, h1, h2, h3, h4⟩ := ih m hm (fun y hy => hx y (by simp [hy]))
      refine ⟨r, h1, ?_, h3, ?_⟩
      · rcases h2 with rfl | h2
        · simp
        · simp [h2]
      · intro y hy
        rcases List.mem_cons.1 hy with rfl | hy
        · omega
        · exact h4 y hy

theorem least_some (m : F64) (xs : List F64) (hm : F64.Ok m ∧ m ≠ .nan) (hx : ∀ x ∈ xs, F64.Ok x ∧ x ≠ .nan) :
    ∃ r, leastLoop (some m) xs = some r ∧ (r = m ∨ r ∈ xs) ∧ place r ≤ place m ∧ ∀ x ∈ xs, place r ≤ place x := by
  induction xs generalizing m with
  | nil => exact ⟨m, rfl, Or.inl rfl, Int.le_refl _, by simp⟩
  | cons x xs ih =>
    have hx0 := hx x (by simp)
    have hc := (C166_compare hx0.1 hm.1 hx0.2 hm.2).1
    simp only [leastLoop, hc]
    by_cases h : place x < place m
    · simp only [h, decide_true, if_true]
      obtain ⟨r, h1, h2, h3, h4⟩ := ih x hx0 (fun y hy => hx y (by simp [hy]))
      refine ⟨r, h1, ?_, by omega, ?_⟩
      · rcases h2 with rfl | h2
        · simp
        · simp [h2]
      · intro y hy
        rcases List.mem_cons.1 hy with rfl | hy
        · exact h3
        · exact h4 y hy
    · simp only [h, decide_false, Bool.false_eq_true, if_false]
      obtain ⟨r, h1, h2, h3, h4⟩ := ih m hm (fun y hy => hx y (by simp [hy]))
      refine ⟨r, h1, ?_, h3, ?_⟩
      · rcases h2 with rfl | h2
        · simp
        · simp [h2]
      · intro y hy
        rcases List.mem_cons.1 hy with rfl | hy
        · omega
        · exact h4 y hy

/-- C166: GREATEST is one of its arguments and none is greater. -/
theorem C166_greatest (xs : List F64) (h0 : xs ≠ []) (hx : ∀ x ∈ xs, F64.Ok x ∧ x ≠ .nan) :
    ∃ r, greatest xs = .ok (some r) ∧ r ∈ xs ∧ ∀ x ∈ xs, place x ≤ place r := by
  cases xs with
  | nil => exact absurd rfl h0
  | cons x xs =>
    obtain ⟨r, h1, h2, h3, h4⟩ := greatest_some x xs (hx x (by simp)) (fun y hy => hx y (by simp [hy]))
    refine ⟨r, congrArg Res.ok h1, by rcases h2 with rfl | h2 <;> simp [*], fun y hy => ?_⟩
    rcases List.mem_cons.1 hy with rfl | hy
    · exact h3
    · exact h4 y hy

/-- C166: LEAST is one of its arguments and none is less. -/
theorem C166_least (xs : List F64) (h0 : xs ≠ []) (hx : ∀ x ∈ xs, F64.Ok x ∧ x ≠ .nan) :
    ∃ r, least xs = .ok (some r) ∧ r ∈ xs ∧ ∀ x ∈ xs, place r ≤ place x := by
  cases xs with
  | nil => exact absurd rfl h0
  | cons x xs =>
    obtain ⟨r, h1, h2, h3, h4⟩ := least_some x xs (hx x (by simp)) (fun y hy => hx y (by simp [hy]))
    refine ⟨r, congrArg Res.ok h1, by rcases h2 with rfl | h2 <;> simp [*], fun y hy => ?_⟩
    rcases List.mem_cons.1 hy with rfl | hy
    · exact h3
    · exact h4 y hy

/-- GREATEST(−inf, 1.0) -/
example : F64.Ok (.inf true) ∧ F64.Ok (.fin false F64.one) ∧ greatest [.inf true, .fin false F64.one] = .ok (some (.fin false F64.one)) :=
  ⟨trivial, ⟨by decide +kernel, 1, 1074, by decide, by decide +kernel⟩, by decide +kernel⟩

/-! ### C167: LOG(x, y) -/

/-- C167 in full (integral powers): the logarithm of yⁿ to the base y is n. -/
def C167_full : Prop := ∀ y n : Nat, 2 ≤ y → y ^ n < 2 ^ 53 →
  log2args (.fin false (y ^ n * F64.one)) (.fin false (y * F64.one)) = .ok (.fin false (n * F64.one))

/-- C167: whatever the base `b`, the result for yⁿ is never the n it must be. -/
theorem C167_never (y n : Nat) (hy : 2 ≤ y) (h : y ^ n < 2 ^ 53) (b : F64) :
    log2args (.fin false (y ^ n * F64.one)) b ≠ .ok (.fin false (n * F64.one)) := by
  have hn : n < y ^ n := Nat.lt_of_lt_of_le (Nat.lt_pow_self (by decide)) (Nat.pow_le_pow_left hy n)
  generalize y ^ n = x at *
  have hi : F64.toInt64 (.fin false (x * F64.one)) = x := by
    simp only [F64.toInt64, Nat.mul_div_cancel _ one_pos, F64.sval, Bool.false_eq_true, if_false]
    exact if_pos (by omega)
  simp only [log2args, hi, F64.ldexp]
  rw [if_pos (by omega)]
  have hrep : F64.Rep (x * F64.one * 2 ^ ((x : Int)).toNat) := by
    refine ⟨x, 1074 + x, h, ?_⟩
    have : ((x : Int)).toNat = x := by omega
    rw [this, Nat.mul_assoc, Nat.pow_add]; rfl
  unfold F64.round F64.pack
  rw [F64.roundQ_one hrep]
  split
  · intro h2
    simp only [Res.ok.injEq, F64.fin.injEq, true_and] at h2
    have h3 : n * F64.one < x * F64.one := Nat.mul_lt_mul_of_pos_right hn one_pos
    have h4 : x * F64.one * 1 ≤ x * F64.one * 2 ^ ((x : Int)).toNat := Nat.mul_le_mul_left _ (F64.pow_pos' _)
    omega
  · simp

/-- LOG(8, 2) -/
theorem C167_full_false : ¬ C167_full := by
  intro h
  exact C167_never 2 3 (by decide) (by decide) _ (h 2 3 (by decide) (by decide))

example : 2 ≤ 2 ∧ 2 ^ 3 < 2 ^ 53 ∧ log2args (.fin false (8 * F64.one)) (.fin false (2 * F64.one)) = .ok (.fin false (2048 * F64.one)) := by
  decide +kernel

/-! ### C168: CAST AS NUMERIC -/

/-- `p / q` is x rounded to nine decimals, halves away from zero. -/
def IsNumeric : F64 → Int → Nat → Prop
  | .fin s k, p, q => ∃ j : Int, p * 10 ^ 9 = j * q ∧
      2 * (F64.sval s k * 10 ^ 9 - F64.one * j).natAbs ≤ F64.one ∧
      (2 * (F64.sval s k * 10 ^ 9 - F64.one * j).natAbs = F64.one → k * 10 ^ 9 < F64.one * j.natAbs)
  | _, _, _ => False

/-- C168 in full: nine decimals; an error when x is not finite. -/
def C168_full : Prop := ∀ x, F64.Ok x → (∀ s, x = .inf s → toRat x = .err) ∧
  ∀ s k, x = .fin s k → ∃ p q, toRat x = .ok (p, q) ∧ IsNumeric x p q

/-- Infinity becomes 0. -/
theorem C168_full_false : ¬ C168_full := by
  intro h
  have := (h (.inf false) trivial).1 false rfl
  simp [toRat] at this

/-- C168: right exactly when x is finite and has at most nine decimals. -/
theorem C168_partial (x : F64) :
    (∃ p q, toRat x = .ok (p, q) ∧ IsNumeric x p q) ↔ ∃ s k, x = .fin s k ∧ F64.one ∣ k * 10 ^ 9 := by
  constructor
  · rintro ⟨p, q, h1, h2⟩
    cases x with
    | nan => exact absurd h2 (by simp [IsNumeric])
    | inf s => exact absurd h2 (by simp [IsNumeric])
    | fin s k =>
      refine ⟨s, k, rfl, ?_⟩
      simp only [toRat, Res.ok.injEq, Prod.mk.injEq] at h1
      obtain ⟨rfl, rfl⟩ := h1
      obtain ⟨j, h3, _⟩ := h2
      have h4 : (F64.one : Int) ∣ F64.sval s k * 10 ^ 9 := ⟨j, by rw [h3, Int.mul_comm]⟩
      have h5 := Int.natAbs_dvd_natAbs.2 h4
      rw [Int.natAbs_mul, natAbs_sval] at h5
      simpa using h5
  · rintro ⟨s, k, rfl, j, hj⟩
    refine ⟨_, _, rfl, F64.sval s j, ?_⟩
    have e : F64.sval s k * 10 ^ 9 = F64.sval s j * F64.one := by
      have hj' : (k : Int) * 10 ^ 9 = j * F64.one := by rw [Int.mul_comm (j : Int)]; exact_mod_cast hj
      cases s
      · simpa only [F64.sval, Bool.false_eq_true, if_false] using hj'
      · simp only [F64.sval, if_true, Int.neg_mul, hj']
    refine ⟨e, ?_, ?_⟩
    · rw [e, Int.mul_comm]; simp
    · rw [e, Int.mul_comm, Int.sub_self]
      intro h
      have := one_pos
      simp at h; omega

/-- 1.75 -/
example : F64.one ∣ (7 * 2 ^ 1072) * 10 ^ 9 := ⟨1750000000, by decide +kernel⟩

/-! ### C169: CAST AS STRING -/

/-- C169 in full (integral values below 10¹⁵): the decimal numeral, zero without a sign. -/
def C169_full : Prop := ∀ (s : Bool) (n : Nat), n < 10 ^ 15 →
  toStringIntegral s n = .ok (if s = true ∧ n ≠ 0 then '-' :: decNat n else decNat n)

theorem decNat_length (n : Nat) (h : 1000000 ≤ n) : 7 ≤ (decNat n).length := by
  have : ∀ m (j : Nat), 10 ^ j ≤ m → j < (decNat m).length := by
    intro m j
    induction j generalizing m with
    | zero => intro _; exact List.length_pos_iff.2 (decNat_ne_nil m)
    | succ j ih =>
      intro hm
      rw [Nat.pow_succ] at hm
      have hp : 0 < 10 ^ j := Nat.pow_pos (by decide)
      rw [decNat_eq, if_neg (by omega), List.length_append]
      have := ih (m / 10) (by omega)
      simp; omega
  exact this n 6 h

theorem no_e (n : Nat) : 'e' ∉ decNat n := by
  intro h
  have := decNat_digits n _ h
  revert this
  decide

theorem dropWhile_nil {ds : List Char} (h : ds.dropWhile (· == '0') = []) : ∀ c ∈ ds, c = '0' := by
  induction ds with
  | nil => simp
  | cons d ds ih =>
    intro c hc
    rw [List.dropWhile_cons] at h
    split at h
    · rename_i hd
      rcases List.mem_cons.1 hc with rfl | hc
      · simpa using hd
      · exact ih h c hc
    · simp at h

theorem zeros_val (ds : List Char) (h : ∀ c ∈ ds, c = '0') : digitsVal 0 ds = some 0 := by
  induction ds with
  | nil => rfl
  | cons d ds ih =>
    have : d = '0' := h d (by simp)
    subst this
    have h0 : digitVal '0' = some 0 := by decide
    simp only [digitsVal, h0]
    exact ih fun c hc => h c (by simp [hc])

theorem strip_ne (n : Nat) (h : n ≠ 0) : stripZeros (decNat n) ≠ [] := by
  intro h1
  unfold stripZeros at h1
  have h2 := dropWhile_nil (List.reverse_eq_nil_iff.1 h1)
  have h3 := zeros_val (decNat n) fun c hc => h2 c (List.mem_reverse.2 hc)
  rw [digitsVal_decNat] at h3
  exact h (Option.some.inj h3)

/-- From 10⁶ on the text has an exponent. -/
theorem sprint_e (s : Bool) (n : Nat) (h : 1000000 ≤ n) : 'e' ∈ sprintIntegral s n := by
  have hs := strip_ne n (by omega)
  have : 'e' ∈ (match stripZeros (decNat n) with
    | [] => []
    | [d] => d :: 'e' :: '+' :: expDigits ((decNat n).length - 1)
    | d :: rest => d :: '.' :: rest ++ 'e' :: '+' :: expDigits ((decNat n).length - 1)) := by
    split
    · contradiction
    · simp
    · simp
  have hb : ¬ n < 1000000 := by omega
  unfold sprintIntegral
  simp only [if_neg hb]
  cases s
  · exact this
  · exact List.mem_cons_of_mem _ this

/-- C169: right exactly below 10⁶, for other values than −0.0. -/
theorem C169_partial (s : Bool) (n : Nat) :
    toStringIntegral s n = .ok (if s = true ∧ n ≠ 0 then '-' :: decNat n else decNat n) ↔ n < 10 ^ 6 ∧ ¬ (s = true ∧ n = 0) := by
  rcases Nat.lt_or_ge n 1000000 with h | h
  · have e : sprintIntegral s n = if s then '-' :: decNat n else decNat n := by
      unfold sprintIntegral; simp only; rw [if_pos h]
    unfold toStringIntegral
    rw [e]
    cases s
    · simpa using h
    · by_cases hn : n = 0
      · subst hn
        simp
      · simp [hn]; exact h
  · refine iff_of_false ?_ (by rintro ⟨h1, _⟩; have : (10 : Nat) ^ 6 = 1000000 := by decide
                               omega)
    intro h1
    unfold toStringIntegral at h1
    have h2 := sprint_e s n h
    rw [Res.ok.inj h1] at h2
    split at h2
    · rcases List.mem_cons.1 h2 with h3 | h3
      · exact absurd h3 (by decide)
      · exact no_e n h3
    · exact no_e n h2

/-- CAST(1234567.0 AS STRING) is 1.234567e+06. -/
theorem C169_full_false : ¬ C169_full := by
  intro h
  have := (C169_partial false 1234567).1 (h false 1234567 (by decide))
  omega

example : sprintIntegral true 1234567 = ['-', '1', '.', '2', '3', '4', '5', '6', '7', 'e', '+', '0', '6'] ∧
    sprintIntegral false 3000000 = ['3', 'e', '+', '0', '6'] ∧ sprintIntegral true 42 = ['-', '4', '2'] := by decide +kernel

/-! ### C170: SAFE functions -/

/-- What SAFE_ADD and its relatives must give for the exact result `n / d` units: NULL from 2¹⁰²⁴ on. -/
def Safely (n : Int) (d : Nat) (r : Res (Option F64)) : Prop :=
  (n.natAbs ≤ d * maxFin → ∃ x, r = .ok (some x) ∧ Near n d x) ∧ (d * F64.limit ≤ n.natAbs → r = .ok none)

/-- C170 in full. -/
def C170_full : Prop := ∀ s a t b, F64.Ok (.fin s a) → F64.Ok (.fin t b) →
  Safely (F64.sval s a + F64.sval t b) 1 (safeAdd (.fin s a) (.fin t b)) ∧
  Safely (F64.sval s a - F64.sval t b) 1 (safeSubtract (.fin s a) (.fin t b)) ∧
  Safely (F64.sval s a * F64.sval t b) F64.one (safeMultiply (.fin s a) (.fin t b)) ∧
  (if b = 0 then safeDivide (.fin s a) (.fin t b) = .ok none
   else Safely (F64.sval (s != t) (a * F64.one)) b (safeDivide (.fin s a) (.fin t b)))

/-- SAFE_ADD of the largest value to itself is infinite instead of NULL. -/
theorem C170_full_false : ¬ C170_full := by
  intro h
  have h1 := (h false maxFin false maxFin ⟨maxFin_lt, rep_maxFin⟩ ⟨maxFin_lt, rep_maxFin⟩).1.2 (by decide +kernel)
  unfold safeAdd at h1
  simp at h1

/-- C170: the SAFE functions are never an error; in range the result is the nearest FLOAT64, division by zero is NULL
(missing: NULL instead of infinity on overflow). -/
theorem C170_partial (s a t b) :
    ((F64.sval s a + F64.sval t b).natAbs ≤ 1 * maxFin → ∃ x, safeAdd (.fin s a) (.fin t b) = .ok (some x) ∧
      Near (F64.sval s a + F64.sval t b) 1 x) ∧
    ((F64.sval s a - F64.sval t b).natAbs ≤ 1 * maxFin → ∃ x, safeSubtract (.fin s a) (.fin t b) = .ok (some x) ∧
      Near (F64.sval s a - F64.sval t b) 1 x) ∧
    ((F64.sval s a * F64.sval t b).natAbs ≤ F64.one * maxFin → ∃ x, safeMultiply (.fin s a) (.fin t b) = .ok (some x) ∧
      Near (F64.sval s a * F64.sval t b) F64.one x) ∧
    (b = 0 → safeDivide (.fin s a) (.fin t b) = .ok none) ∧
    (b ≠ 0 → a * F64.one ≤ b * maxFin → ∃ x, safeDivide (.fin s a) (.fin t b) = .ok (some x) ∧
      Near (F64.sval (s != t) (a * F64.one)) b x) := by
  obtain ⟨h1, h2, h3, h4⟩ := C159_partial s a t b
  refine ⟨fun h => ?_, fun h => ?_, fun h => ?_, fun h => ?_, fun hb h => ?_⟩
  · obtain ⟨x, e, hx⟩ := h1.1 h
    exact ⟨x, by rw [safeAdd, Res.ok.inj e], hx⟩
  · obtain ⟨x, e, hx⟩ := h2.1 h
    exact ⟨x, by rw [safeSubtract, Res.ok.inj e], hx⟩
  · obtain ⟨x, e, hx⟩ := h3.1 h
    exact ⟨x, by rw [safeMultiply, Res.ok.inj e], hx⟩
  · rw [safeDivide, fin_eq_zero, h]; rfl
  · rw [if_neg hb] at h4
    obtain ⟨x, e, hx⟩ := h4.1 (by rw [natAbs_sval]; exact h)
    unfold div at e
    rw [fin_eq_zero] at e
    refine ⟨x, ?_, hx⟩
    simp only [safeDivide, fin_eq_zero, hb, decide_false, Bool.false_eq_true, if_false] at e ⊢
    rw [Res.ok.inj e]

/-- SAFE_DIVIDE(1.5, 0.25) = 6.0 -/
example : safeDivide (.fin false (3 * 2 ^ 1073)) (.fin false (2 ^ 1072)) = .ok (some (.fin false (6 * F64.one))) := by decide +kernel

end Verif.Float
