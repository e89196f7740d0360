import Verif.Model.FloatAgg
import Verif.Props.Float
import Verif.Lemmas.F64Exact

/-!
# Aggregates of FLOAT64

C235: SUM.  C236: MIN and MAX.  C237: AVG.
-/

namespace Verif.Float

open Go

set_option exponentiation.threshold 3000

/-- The values of a column that are not NULL. -/
def values (rows : List (Option F64)) : List F64 := rows.filterMap id

/-- A finite FLOAT64. -/
def Finite (x : F64) : Prop := ∃ s k, x = .fin s k

/-- The units of a finite FLOAT64. -/
def units : F64 → Int
  | .fin s k => F64.sval s k
  | _ => 0

/-- The exact sum and the sum of the magnitudes, in units. -/
def total (xs : List F64) : Int := (xs.map units).sum
def weight (xs : List F64) : Nat := (xs.map fun x => (units x).natAbs).sum

/-- `r` differs from the exact sum of `n + 1` numbers by no more than `n` roundings allow: ((1 + 2⁻⁵³)ⁿ − 1) times the sum of the magnitudes. -/
def Within (xs : List F64) (r : F64) : Prop :=
  ∃ s k, r = .fin s k ∧ (2 ^ 53) ^ (xs.length - 1) * (F64.sval s k - total xs).natAbs + (2 ^ 53) ^ (xs.length - 1) * weight xs ≤
    (2 ^ 53 + 1) ^ (xs.length - 1) * weight xs

/-- C235: the sum of finite values is within the error of rounding once per addition if it is within the range of FLOAT64, whatever the order of
the rows; without values it is NULL. -/
def C235_full : Prop := ∀ rows : List (Option F64), (∀ x ∈ values rows, F64.Ok x ∧ Finite x) →
  (values rows = [] → sum rows = none) ∧
  (values rows ≠ [] → (total (values rows)).natAbs ≤ maxFin → ∃ r, sum rows = some r ∧ Within (values rows) r)

theorem fold_sum (rows : List (Option F64)) : ∀ s, rows.foldl sumStep (some s) = some ((values rows).foldl F64.add s) := by
  induction rows with
  | nil => intro s; rfl
  | cons v rows ih =>
    intro s
    cases v with
    | none => exact ih s
    | some x => exact ih _

theorem sum_eq (rows : List (Option F64)) :
    sum rows = match values rows with | [] => none | x :: xs => sqlite (xs.foldl F64.add x) := by
  induction rows with
  | nil => rfl
  | cons v rows ih =>
    cases v with
    | none => exact ih
    | some x => simp only [sum, List.foldl_cons, sumStep, fold_sum]; rfl

/-- Rounding changes a number by no more than one part in 2⁵³. -/
theorem round_rel (n : Nat) : 2 ^ 53 * ((F64.roundQ n 1 : Int) - n).natAbs ≤ n := by
  by_cases h0 : n = 0
  · subst h0
    have : F64.roundQ 0 1 = 0 := by decide
    rw [this]
    simp
  have hl := F64.log2_bounds h0
  simp only [F64.roundQ, Nat.div_one, Nat.one_mul]
  have hu : 2 ^ (n.log2 - 52) = 1 ∨ 2 ^ 52 * 2 ^ (n.log2 - 52) ≤ n := by
    by_cases h : n.log2 ≤ 52
    · left
      rw [show n.log2 - 52 = 0 by omega]
    · right
      rw [← Nat.pow_add, show 52 + (n.log2 - 52) = n.log2 by omega]
      exact hl.1
  have hpos : 0 < 2 ^ (n.log2 - 52) := Nat.pow_pos (by decide)
  generalize 2 ^ (n.log2 - 52) = u at *
  have hd := Nat.div_add_mod n u
  have hm := Nat.mod_lt n hpos
  have hq : n / u * u = u * (n / u) := Nat.mul_comm ..
  have hq1 : (n / u + 1) * u = u * (n / u) + u := by rw [Nat.add_mul, Nat.one_mul, hq]
  split
  · rw [hq]
    generalize u * (n / u) = w at *
    omega
  · split
    · rw [hq1]
      generalize u * (n / u) = w at *
      omega
    · split
      · rw [hq]
        generalize u * (n / u) = w at *
        omega
      · rw [hq1]
        generalize u * (n / u) = w at *
        omega

/-- One addition. -/
theorem add_rel {s a t b p k} (h : F64.add (.fin s a) (.fin t b) = .fin p k) :
    2 ^ 53 * (F64.sval p k - (F64.sval s a + F64.sval t b)).natAbs ≤ (F64.sval s a + F64.sval t b).natAbs := by
  simp only [F64.add] at h
  generalize F64.sval s a + F64.sval t b = z at *
  split at h
  · rename_i h0
    injection h with h1 h2
    subst h1 h2 h0
    have : F64.sval (s && t) 0 = 0 := by cases s && t <;> rfl
    rw [this]
    simp
  · rename_i h0
    simp only [F64.round, F64.pack] at h
    split at h
    · injection h with h1 h2
      subst h1 h2
      have hr := round_rel z.natAbs
      generalize F64.roundQ z.natAbs 1 = q at *
      by_cases hz : z < 0
      · simp only [hz, decide_true, F64.sval, if_true]
        omega
      · simp only [hz, decide_false, F64.sval, Bool.false_eq_true, if_false]
        omega
    · cases h

theorem fold_finite (xs : List F64) : ∀ s, Finite (xs.foldl F64.add s) → Finite s ∧ ∀ x ∈ xs, Finite x := by
  induction xs with
  | nil => intro s h; exact ⟨h, fun _ h => by simp at h⟩
  | cons x xs ih =>
    intro s h
    obtain ⟨⟨p, k, h1⟩, h2⟩ := ih _ h
    have : Finite s ∧ Finite x := by
      cases s <;> cases x <;> simp only [F64.add] at h1 <;> first | exact ⟨⟨_, _, rfl⟩, ⟨_, _, rfl⟩⟩ | (split at h1 <;> cases h1) | cases h1
    refine ⟨this.1, fun y hy => ?_⟩
    rcases List.mem_cons.1 hy with rfl | hy
    · exact this.2
    · exact h2 y hy

theorem step_arith {P D B E E' A A' e z : Nat} (h1 : P * E ≤ D * A) (hA : A ≤ A') (h2 : B * e ≤ z) (h3 : z ≤ A' + E) (h4 : E' ≤ e + E) :
    P * B * E' ≤ (P + D * (B + 1)) * A' := by
  have a1 : P * (B * E') ≤ P * (A' + E + B * E) := by
    apply Nat.mul_le_mul_left
    have := Nat.mul_le_mul_left B h4
    rw [Nat.mul_add] at this
    omega
  have a2 : D * A ≤ D * A' := Nat.mul_le_mul_left D hA
  have a3 : B * (P * E) ≤ B * (D * A') := Nat.mul_le_mul_left B (Nat.le_trans h1 a2)
  have e1 : P * B * E' = P * (B * E') := Nat.mul_assoc ..
  have e2 : P * (A' + E + B * E) = P * A' + P * E + B * (P * E) := by rw [Nat.mul_add, Nat.mul_add, Nat.mul_left_comm]
  have e3 : (P + D * (B + 1)) * A' = P * A' + (B * (D * A') + D * A') := by
    rw [Nat.add_mul, Nat.mul_comm D, Nat.mul_assoc, Nat.add_mul, Nat.one_mul]
  omega

theorem weight_cons (x : F64) (xs : List F64) : weight (x :: xs) = (units x).natAbs + weight xs := by simp [weight]
theorem total_cons (x : F64) (xs : List F64) : total (x :: xs) = units x + total xs := by simp [total]

/-- The powers in the bounds. -/
theorem pow_split (B m : Nat) : ∃ D, (B + 1) ^ m = B ^ m + D ∧ (B + 1) ^ (m + 1) = B ^ (m + 1) + (B ^ m + D * (B + 1)) := by
  have h : B ^ m ≤ (B + 1) ^ m := Nat.pow_le_pow_left (Nat.le_succ B) m
  refine ⟨(B + 1) ^ m - B ^ m, by omega, ?_⟩
  have e : (B + 1) ^ m = B ^ m + ((B + 1) ^ m - B ^ m) := by omega
  rw [Nat.pow_succ, Nat.pow_succ]
  generalize (B + 1) ^ m - B ^ m = D at *
  rw [e, Nat.add_mul, Nat.mul_add, Nat.mul_one]
  omega

/-- The error of a running sum `s` of exact value `S` and magnitude `A` after `m` additions. -/
def Err (m : Nat) (s : F64) (S : Int) (A : Nat) : Prop :=
  ∃ p k, s = .fin p k ∧ S.natAbs ≤ A ∧ (2 ^ 53) ^ m * (F64.sval p k - S).natAbs + (2 ^ 53) ^ m * A ≤ (2 ^ 53 + 1) ^ m * A

theorem err_add {m s S A x} (h : Err m s S A) (hx : Finite x) (hf : Finite (F64.add s x)) :
    Err (m + 1) (F64.add s x) (S + units x) (A + (units x).natAbs) := by
  obtain ⟨p, k, rfl, hS, hE⟩ := h
  obtain ⟨t, b, rfl⟩ := hx
  obtain ⟨q, j, hj⟩ := hf
  have hrel := add_rel hj
  refine ⟨q, j, hj, ?_, ?_⟩
  · simp only [units]
    omega
  · simp only [units] at *
    obtain ⟨D, h1, h2⟩ := pow_split (2 ^ 53) m
    rw [h1] at hE
    rw [h2]
    generalize (F64.sval p k) = sv at *
    generalize (F64.sval t b) = tv at *
    generalize (F64.sval q j) = qv at *
    have hP : (2 ^ 53) ^ m * (sv - S).natAbs ≤ D * A := by
      rw [Nat.add_mul] at hE
      omega
    have := step_arith (B := 2 ^ 53) (E' := (qv - (S + tv)).natAbs) (A' := A + tv.natAbs) hP (by omega) hrel (by omega) (by omega)
    rw [← Nat.pow_succ, Nat.succ_eq_add_one] at this
    rw [Nat.add_mul ((2 ^ 53) ^ (m + 1))]
    omega

theorem err_fold (xs : List F64) : ∀ m s S A, Err m s S A → Finite (xs.foldl F64.add s) →
    Err (m + xs.length) (xs.foldl F64.add s) (S + total xs) (A + weight xs) := by
  induction xs with
  | nil =>
    intro m s S A h _
    simpa [total, weight] using h
  | cons x xs ih =>
    intro m s S A h hf
    have h1 := fold_finite xs _ hf
    have h2 := (fold_finite (x :: xs) s hf).2 x (List.mem_cons_self ..)
    have := ih (m + 1) _ _ _ (err_add h h2 h1.1) hf
    rw [total_cons, weight_cons, List.length_cons, ← Int.add_assoc, ← Nat.add_assoc A, show m + (xs.length + 1) = m + 1 + xs.length by omega]
    exact this

/-- A finite sum is within the error, and all values are finite. -/
theorem C235_bound (rows : List (Option F64)) (r : F64) (h : sum rows = some r) (hf : Finite r) :
    (∀ x ∈ values rows, Finite x) ∧ Within (values rows) r := by
  rw [sum_eq] at h
  cases hv : values rows with
  | nil => rw [hv] at h; cases h
  | cons x xs =>
    rw [hv] at h
    have h1 : xs.foldl F64.add x = r := by
      simp only [sqlite] at h
      split at h
      · cases h
      · injection h
    have h2 := fold_finite xs x (h1 ▸ hf)
    refine ⟨fun y hy => ?_, ?_⟩
    · rcases List.mem_cons.1 hy with rfl | hy
      · exact h2.1
      · exact h2.2 y hy
    · obtain ⟨s, k, rfl⟩ := h2.1
      have h0 : Err 0 (.fin s k) (F64.sval s k) k := ⟨s, k, rfl, by rw [natAbs_sval]; exact Nat.le_refl _, by simp⟩
      obtain ⟨p, j, h3, _, h4⟩ := err_fold xs 0 _ _ _ h0 (h1 ▸ hf)
      rw [h1] at h3
      refine ⟨p, j, h3, ?_⟩
      rw [total_cons, weight_cons]
      simpa [units, natAbs_sval] using h4

/-- The sum is finite if the magnitudes leave room for the errors. -/
theorem fold_fin (xs : List F64) (n W : Nat) (hW : (2 ^ 53 + 1) ^ n * W ≤ (2 ^ 53) ^ n * maxFin) : ∀ m s S A, Err m s S A →
    (∀ x ∈ xs, Finite x) → m + xs.length ≤ n + 1 → A + weight xs ≤ W → Finite (xs.foldl F64.add s) := by
  induction xs with
  | nil =>
    rintro m s S A ⟨p, k, h, _⟩ _ _ _
    exact ⟨p, k, h⟩
  | cons x xs ih =>
    intro m s S A h hx hl hA
    have hx0 := hx x (List.mem_cons_self ..)
    have hf : Finite (F64.add s x) := by
      obtain ⟨p, k, rfl, hS, hE⟩ := h
      obtain ⟨t, b, rfl⟩ := hx0
      have hbound : (F64.sval p k + F64.sval t b).natAbs ≤ maxFin := by
        rw [weight_cons] at hA
        simp only [units, natAbs_sval] at hA
        rw [List.length_cons] at hl
        have b1 : (F64.sval p k + F64.sval t b).natAbs ≤ A + (F64.sval p k - S).natAbs + b := by
          have := natAbs_sval t b
          omega
        have b2 : (2 ^ 53) ^ m * (A + (F64.sval p k - S).natAbs + b) ≤ (2 ^ 53 + 1) ^ m * W := by
          have c1 : (2 ^ 53) ^ m * b ≤ (2 ^ 53 + 1) ^ m * b := Nat.mul_le_mul_right b (Nat.pow_le_pow_left (by decide) m)
          have c2 : (2 ^ 53 + 1) ^ m * (A + b) ≤ (2 ^ 53 + 1) ^ m * W := Nat.mul_le_mul_left _ (by omega)
          rw [Nat.mul_add] at c2
          rw [Nat.mul_add, Nat.mul_add]
          omega
        have b3 : (2 ^ 53 + 1) ^ m * W ≤ (2 ^ 53) ^ m * maxFin := by
          have hd : n = m + (n - m) := by omega
          rw [hd, Nat.pow_add, Nat.pow_add] at hW
          have c1 : (2 ^ 53) ^ (n - m) ≤ (2 ^ 53 + 1) ^ (n - m) := Nat.pow_le_pow_left (by decide) _
          have c2 := Nat.mul_le_mul_left ((2 ^ 53 + 1) ^ m * W) c1
          have c3 : (2 ^ 53) ^ (n - m) * ((2 ^ 53 + 1) ^ m * W) ≤ (2 ^ 53) ^ (n - m) * ((2 ^ 53) ^ m * maxFin) := by
            generalize (2 ^ 53 + 1) ^ (n - m) = q1 at *
            generalize (2 ^ 53) ^ (n - m) = q2 at *
            generalize (2 ^ 53 + 1) ^ m = q3 at *
            generalize (2 ^ 53) ^ m = q4 at *
            generalize maxFin = F at *
            have e1 : q3 * q1 * W = q3 * W * q1 := by rw [Nat.mul_right_comm]
            have e2 : q4 * q2 * F = q2 * (q4 * F) := by rw [Nat.mul_comm q4, Nat.mul_assoc]
            have e3 : q2 * (q3 * W) = q3 * W * q2 := Nat.mul_comm ..
            omega
          exact Nat.le_of_mul_le_mul_left c3 (Nat.pow_pos (by decide))
        have b4 := Nat.le_trans (Nat.mul_le_mul_left ((2 ^ 53) ^ m) b1) (Nat.le_trans b2 b3)
        exact Nat.le_of_mul_le_mul_left b4 (Nat.pow_pos (by decide))
      obtain ⟨y, h1, h2⟩ := (sat_add p k t b).1 (by rw [Nat.one_mul]; exact hbound)
      injection h1 with h1
      rw [h1]
      cases y with
      | fin s k => exact ⟨s, k, rfl⟩
      | inf s => exact absurd h2 id
      | nan => exact absurd h2 id
    refine ih (m + 1) _ _ _ (err_add h hx0 hf) (fun y hy => hx y (List.mem_cons_of_mem _ hy)) ?_ ?_
    · rw [List.length_cons] at hl
      omega
    · rw [weight_cons] at hA
      omega

/-- What is proved of C235: without values the sum is NULL; a sum that is finite is within the error; and it is finite if the magnitudes of the
values, enlarged by one part in 2⁵³ per addition, do not add up to more than the largest FLOAT64.  Missing: sums whose total is in range though the
magnitudes are not. -/
theorem C235_partial (rows : List (Option F64)) (hx : ∀ x ∈ values rows, Finite x) :
    (values rows = [] → sum rows = none) ∧
    (∀ r, sum rows = some r → Finite r → Within (values rows) r) ∧
    (values rows ≠ [] → (2 ^ 53 + 1) ^ ((values rows).length - 1) * weight (values rows) ≤ (2 ^ 53) ^ ((values rows).length - 1) * maxFin →
      ∃ r, sum rows = some r ∧ Within (values rows) r) := by
  refine ⟨fun h => by rw [sum_eq, h], fun r h hf => (C235_bound rows r h hf).2, fun h hW => ?_⟩
  have key : ∃ r, sum rows = some r ∧ Finite r := by
    rw [sum_eq]
    cases hv : values rows with
    | nil => exact absurd hv h
    | cons x xs =>
      rw [hv] at hx hW
      obtain ⟨s, k, rfl⟩ := hx x (List.mem_cons_self ..)
      have h0 : Err 0 (.fin s k) (F64.sval s k) k := ⟨s, k, rfl, by rw [natAbs_sval]; exact Nat.le_refl _, by simp⟩
      have hf := fold_fin xs _ _ hW 0 _ _ _ h0 (fun y hy => hx y (List.mem_cons_of_mem _ hy))
        (by simp) (by rw [weight_cons]; simp [units, natAbs_sval])
      obtain ⟨p, j, hj⟩ := hf
      exact ⟨.fin p j, by simp only [hj]; rfl, p, j, rfl⟩
  obtain ⟨r, h1, h2⟩ := key
  exact ⟨r, h1, (C235_bound rows r h1 h2).2⟩

/-- The hypotheses are met by 1.0, NULL and -1.0. -/
example : values [some (.fin false F64.one), none, some (.fin true F64.one)] = [.fin false F64.one, .fin true F64.one] ∧
    (∀ x ∈ values [some (.fin false F64.one), none, some (.fin true F64.one)], Finite x) ∧
    (2 ^ 53 + 1) ^ 1 * weight [.fin false F64.one, .fin true F64.one] ≤ (2 ^ 53) ^ 1 * maxFin ∧
    sum [some (.fin false F64.one), none, some (.fin true F64.one)] = some (.fin false 0) := by
  refine ⟨rfl, fun x hx => ?_, by decide +kernel, by decide +kernel⟩
  rcases List.mem_cons.1 hx with rfl | hx
  · exact ⟨_, _, rfl⟩
  · rw [List.mem_singleton.1 hx]
    exact ⟨_, _, rfl⟩

theorem fold_exact (xs : List F64) (hx : ∀ x ∈ xs, Finite x ∧ ∃ z : Int, units x = z * F64.one) : ∀ s (S : Int), F64.Is s (S * F64.one) →
    S.natAbs * F64.one + weight xs ≤ 2 ^ 53 * F64.one → F64.Is (xs.foldl F64.add s) (S * F64.one + total xs) := by
  induction xs with
  | nil =>
    intro s S hs _
    simpa [total] using hs
  | cons x xs ih =>
    intro s S hs hb
    obtain ⟨⟨t, k, rfl⟩, z, hz⟩ := hx x (List.mem_cons_self ..)
    have hy : F64.Is (.fin t k) (z * F64.one) := ⟨t, k, rfl, hz⟩
    rw [weight_cons, hz, Int.natAbs_mul, Int.natAbs_natCast, ← Nat.add_assoc, ← Nat.add_mul] at hb
    have hle : (S + z).natAbs * F64.one ≤ (S.natAbs + z.natAbs) * F64.one := Nat.mul_le_mul_right _ (Int.natAbs_add_le S z)
    have h1 : F64.Is (F64.add s (.fin t k)) ((S + z) * F64.one) := by
      rw [Int.add_mul]
      apply F64.is_add hs hy
      rw [← Int.add_mul]
      exact F64.fit_int (Nat.le_of_mul_le_mul_right (Nat.le_trans hle (Nat.le_trans (Nat.le_add_right _ _) hb)) one_pos)
    have := ih (fun y hy => hx y (List.mem_cons_of_mem _ hy)) _ _ h1 (Nat.le_trans (Nat.add_le_add_right hle _) hb)
    rw [total_cons, hz, ← Int.add_assoc, ← Int.add_mul]
    exact this

/-- Integral values whose magnitudes add up to no more than 2⁵³ have their exact sum, in every order. -/
theorem C235_exact (rows : List (Option F64)) (h0 : values rows ≠ []) (hx : ∀ x ∈ values rows, Finite x ∧ ∃ z : Int, units x = z * F64.one)
    (hb : weight (values rows) ≤ 2 ^ 53 * F64.one) : ∃ s k, sum rows = some (.fin s k) ∧ F64.sval s k = total (values rows) := by
  rw [sum_eq]
  cases hv : values rows with
  | nil => exact absurd hv h0
  | cons x xs =>
    rw [hv] at hx hb
    obtain ⟨⟨t, k, rfl⟩, z, hz⟩ := hx x (List.mem_cons_self ..)
    have h1 := fold_exact xs (fun y hy => hx y (List.mem_cons_of_mem _ hy)) (.fin t k) z ⟨t, k, rfl, hz⟩
      (by rw [weight_cons, hz, Int.natAbs_mul, Int.natAbs_natCast] at hb; exact hb)
    obtain ⟨p, j, h2, h3⟩ := h1
    refine ⟨p, j, by simp only [h2]; rfl, ?_⟩
    rw [h3, total_cons, hz]

/-- The hypotheses are met by NULL, 3.0 and -5.0. -/
example : values [none, some (.fin false (3 * F64.one)), some (.fin true (5 * F64.one))] = [.fin false (3 * F64.one), .fin true (5 * F64.one)] ∧
    units (.fin false (3 * F64.one)) = 3 * F64.one ∧ units (.fin true (5 * F64.one)) = -5 * F64.one ∧
    weight [.fin false (3 * F64.one), .fin true (5 * F64.one)] ≤ 2 ^ 53 * F64.one := by
  refine ⟨rfl, ?_, ?_, ?_⟩ <;> decide +kernel

/-- 2⁻⁵³ in units. -/
def tiny : Nat := 2 ^ 1021

/-- Otherwise the sum depends on the order of the rows: 1 + 2⁻⁵³ + 2⁻⁵³ is 1, 2⁻⁵³ + 2⁻⁵³ + 1 is not. -/
theorem C235_order : sum [some (.fin false F64.one), some (.fin false tiny), some (.fin false tiny)] = some (.fin false F64.one) ∧
    sum [some (.fin false tiny), some (.fin false tiny), some (.fin false F64.one)] = some (.fin false (F64.one + 2 * tiny)) := by
  constructor <;> decide +kernel

/-- An intermediate overflow is infinite though the total is in range, and infinities of both signs give NULL; neither is an error. -/
theorem C235_overflow : sum [some (.fin false maxFin), some (.fin false maxFin), some (.fin true maxFin)] = some (.inf false) ∧
    total [.fin false maxFin, .fin false maxFin, .fin true maxFin] = maxFin ∧
    sum [some (.inf false), some (.inf true), some (.fin false F64.one)] = none := by
  refine ⟨by decide +kernel, by decide +kernel, by decide +kernel⟩

theorem C235_full_false : ¬ C235_full := by
  intro h
  obtain ⟨h1, h2, _⟩ := C235_overflow
  have hok : ∀ s, F64.Ok (.fin s maxFin) ∧ Finite (.fin s maxFin) := fun s => ⟨⟨maxFin_lt, rep_maxFin⟩, _, _, rfl⟩
  obtain ⟨r, h3, s, k, h4, _⟩ := (h [some (.fin false maxFin), some (.fin false maxFin), some (.fin true maxFin)] (fun x hx => by
    simp only [values, List.filterMap_cons, id, List.filterMap_nil, List.mem_cons, List.not_mem_nil, or_false] at hx
    rcases hx with rfl | rfl | rfl
    · exact hok _
    · exact hok _
    · exact hok _)).2 (by simp [values]) (by
    have : values [some (.fin false maxFin), some (.fin false maxFin), some (.fin true maxFin)] =
      [.fin false maxFin, .fin false maxFin, .fin true maxFin] := rfl
    rw [this, h2]
    exact Nat.le_refl _)
  rw [h1] at h3
  injection h3 with h3
  rw [h4] at h3
  cases h3

/-! ### MIN and MAX -/

theorem fold_max (rows : List (Option F64)) : ∀ m, rows.foldl maxStep m = greatestLoop m (values rows) := by
  induction rows with
  | nil => intro m; cases m <;> rfl
  | cons v rows ih =>
    intro m
    cases v with
    | none => exact ih m
    | some x => cases m with
      | none => exact ih _
      | some m => exact ih _

theorem fold_min (rows : List (Option F64)) : ∀ m, rows.foldl minStep m = leastLoop m (values rows) := by
  induction rows with
  | nil => intro m; cases m <;> rfl
  | cons v rows ih =>
    intro m
    cases v with
    | none => exact ih m
    | some x => cases m with
      | none => exact ih _
      | some m => exact ih _

/-- C236: MAX and MIN of a column are NULL without values, and otherwise values of the column, none being greater or less; NULL is ignored and
infinities count. -/
theorem C236 (rows : List (Option F64)) (hx : ∀ x ∈ values rows, F64.Ok x ∧ x ≠ .nan) :
    (values rows = [] → maxOf rows = none ∧ minOf rows = none) ∧
    (values rows ≠ [] → (∃ r, maxOf rows = some r ∧ r ∈ values rows ∧ ∀ x ∈ values rows, place x ≤ place r) ∧
      (∃ r, minOf rows = some r ∧ r ∈ values rows ∧ ∀ x ∈ values rows, place r ≤ place x)) := by
  have hs : ∀ r, r ≠ .nan → sqlite r = some r := fun r hr => by
    cases r <;> first | rfl | exact absurd rfl hr
  refine ⟨fun h => by rw [maxOf, minOf, fold_max, fold_min, h]; exact ⟨rfl, rfl⟩, fun h => ⟨?_, ?_⟩⟩
  · obtain ⟨r, h1, h2, h3⟩ := C166_greatest _ h hx
    refine ⟨r, ?_, h2, h3⟩
    rw [maxOf, fold_max]
    injection h1 with h1
    rw [h1]
    exact hs r (hx r h2).2
  · obtain ⟨r, h1, h2, h3⟩ := C166_least _ h hx
    refine ⟨r, ?_, h2, h3⟩
    rw [minOf, fold_min]
    injection h1 with h1
    rw [h1]
    exact hs r (hx r h2).2

/-- 1.0, NULL and -infinity. -/
example : maxOf [some (.fin false F64.one), none, some (.inf true)] = some (.fin false F64.one) ∧
    minOf [some (.fin false F64.one), none, some (.inf true)] = some (.inf true) := by constructor <;> decide +kernel

/-! ### AVG -/

theorem fold_avg (rows : List (Option F64)) : ∀ s n, rows.foldl avgStep (s, n) = (rows.foldl sumStep s, n + (values rows).length) := by
  induction rows with
  | nil => intro s n; rfl
  | cons v rows ih =>
    intro s n
    cases v with
    | none => exact ih s n
    | some x =>
      simp only [List.foldl_cons, avgStep, ih]
      simp only [values, List.filterMap_cons, id, List.length_cons]
      rw [show n + 1 + (List.filterMap id rows).length = n + ((List.filterMap id rows).length + 1) by omega]

/-- C237: AVG is NULL without values, and otherwise the nearest FLOAT64 to the mean if the values are finite. -/
def C237_full : Prop := ∀ rows : List (Option F64), (∀ x ∈ values rows, F64.Ok x ∧ Finite x) → (values rows).length ≤ 2 ^ 53 →
  (values rows = [] → avg rows = none) ∧
  (values rows ≠ [] → ∃ r, avg rows = some r ∧ Near (total (values rows)) (values rows).length r)

theorem avg_eq (rows : List (Option F64)) : avg rows = match values rows with
    | [] => none
    | x :: xs => sqlite ((xs.foldl F64.add x).div (F64.ofInt (values rows).length)) := by
  rw [avg, fold_avg, Nat.zero_add]
  have : rows.foldl sumStep none = match values rows with | [] => none | x :: xs => some (xs.foldl F64.add x) := by
    induction rows with
    | nil => rfl
    | cons v rows ih =>
      cases v with
      | none => exact ih
      | some x => simp only [List.foldl_cons, sumStep, fold_sum]; rfl
  rw [this]
  cases values rows <;> rfl

theorem add_ok {x y : F64} (hx : F64.Ok x) (hy : F64.Ok y) : F64.Ok (F64.add x y) := by
  have hz : ∀ s, F64.Ok (.fin s 0) := fun s => ⟨by decide +kernel, 0, 0, by decide, by decide⟩
  match x, y with
  | .nan, _ => exact trivial
  | .inf _, .nan | .fin _ _, .nan => exact trivial
  | .inf s, .inf t => simp only [F64.add]; split <;> exact trivial
  | .inf _, .fin _ _ | .fin _ _, .inf _ => exact trivial
  | .fin s a, .fin t b =>
    simp only [F64.add]
    split
    · exact hz _
    · simp only [F64.round, F64.pack]
      split
      · rename_i h
        exact ⟨h, F64.roundQ_rep _ _⟩
      · exact trivial

theorem fold_ok (xs : List F64) : ∀ s, F64.Ok s → (∀ x ∈ xs, F64.Ok x) → F64.Ok (xs.foldl F64.add s) := by
  induction xs with
  | nil => intro s h _; exact h
  | cons x xs ih => exact fun s h hx => ih _ (add_ok h (hx x (List.mem_cons_self ..))) fun y hy => hx y (List.mem_cons_of_mem _ hy)

/-- What is proved: it is the nearest FLOAT64 to SUM(x) / COUNT(x), if SUM(x) is finite. -/
theorem C237_partial (rows : List (Option F64)) (hx : ∀ x ∈ values rows, F64.Ok x) (hl : (values rows).length ≤ 2 ^ 53) :
    (values rows = [] → avg rows = none) ∧
    (∀ s k, sum rows = some (.fin s k) → ∃ r, avg rows = some r ∧ Near (F64.sval s k) (values rows).length r) := by
  refine ⟨fun h => by rw [avg_eq, h], fun s k h => ?_⟩
  have hok : F64.Ok (.fin s k) := by
    rw [sum_eq] at h
    cases hv : values rows with
    | nil => rw [hv] at h; cases h
    | cons x xs =>
      rw [hv] at h hx
      simp only [sqlite] at h
      split at h
      · cases h
      · injection h with h
        rw [← h]
        exact fold_ok xs x (hx x (List.mem_cons_self ..)) fun y hy => hx y (List.mem_cons_of_mem _ hy)
  rw [sum_eq] at h
  rw [avg_eq]
  cases hv : values rows with
  | nil => rw [hv] at h; cases h
  | cons x xs =>
    rw [hv] at h hl
    have h1 : xs.foldl F64.add x = .fin s k := by
      simp only [sqlite] at h
      split at h
      · cases h
      · injection h
    have hn : 0 < (x :: xs).length := Nat.succ_pos _
    generalize (x :: xs).length = n at hl hn ⊢
    obtain ⟨t, l, h2, h3⟩ := F64.is_ofInt (z := (n : Int)) (by simpa using hl)
    have hl' : l = n * F64.one := by
      have h4 := congrArg Int.natAbs h3
      rwa [natAbs_sval, Int.natAbs_mul, Int.natAbs_natCast, Int.natAbs_natCast] at h4
    have hl0 : l ≠ 0 := by rw [hl']; exact Nat.pos_iff_ne_zero.mp (Nat.mul_pos hn one_pos)
    have ht : t = false := by
      cases t with
      | false => rfl
      | true =>
        exfalso
        simp only [F64.sval, if_true] at h3
        have h4 : (0 : Int) < l := by omega
        have h5 : (0 : Int) ≤ n * F64.one := by exact_mod_cast Nat.zero_le _
        omega
    subst ht
    have hkm : k ≤ maxFin := by
      by_cases hk : k ≤ maxFin
      · exact hk
      · exact absurd hok.1 (Nat.not_lt.2 (rep_gap hok.2 (by omega)))
    have hr : Near (F64.sval s k) n (F64.round s (k * F64.one) (n * F64.one)) := by
      apply F64.near_scale (c := F64.one) one_pos
      refine round_near (Nat.mul_pos hn one_pos) ?_ ?_
      · cases s
        · simp [F64.sval]
        · simp [F64.sval, Int.neg_mul]
      · have h5 : k * F64.one ≤ maxFin * F64.one := Nat.mul_le_mul_right _ hkm
        have h6 : F64.one * maxFin ≤ n * F64.one * maxFin := Nat.mul_le_mul_right _ (Nat.le_mul_of_pos_left _ hn)
        rw [Nat.mul_comm maxFin] at h5
        exact Nat.le_trans h5 h6
    have e : (F64.fin s k).div (F64.ofInt n) = F64.round s (k * F64.one) (n * F64.one) := by
      rw [h2]
      simp only [F64.div]
      rw [if_neg hl0, hl']
      cases s <;> rfl
    refine ⟨F64.round s (k * F64.one) (n * F64.one), ?_, hr⟩
    simp only [h1, e]
    generalize F64.round s (k * F64.one) (n * F64.one) = r at hr
    cases r with
    | fin => rfl
    | inf => exact absurd hr id
    | nan => exact absurd hr id

/-- The average of integral values whose magnitudes add up to no more than 2⁵³ is the nearest FLOAT64 to the mean. -/
theorem C237_exact (rows : List (Option F64)) (hl : (values rows).length ≤ 2 ^ 53) (h0 : values rows ≠ [])
    (hx : ∀ x ∈ values rows, F64.Ok x ∧ Finite x ∧ ∃ z : Int, units x = z * F64.one) (hb : weight (values rows) ≤ 2 ^ 53 * F64.one) :
    ∃ r, avg rows = some r ∧ Near (total (values rows)) (values rows).length r := by
  obtain ⟨s, k, h1, h2⟩ := C235_exact rows h0 (fun x h => (hx x h).2) hb
  obtain ⟨r, h5, h6⟩ := (C237_partial rows (fun x h => (hx x h).1) hl).2 s k h1
  exact ⟨r, h5, by rw [← h2]; exact h6⟩

/-- 1.0, NULL and 2.0. -/
example : avg [some (.fin false F64.one), none, some (.fin false (2 * F64.one))] = some (.fin false (F64.one + F64.one / 2)) := by decide +kernel

/-- The mean of 2⁻⁵³, 2⁻⁵³, 1 and -1 is 2⁻⁵⁴; in the order 1, 2⁻⁵³, 2⁻⁵³, -1 the average is 0. -/
theorem C237_full_false : ¬ C237_full := by
  intro h
  have ho : F64.Ok (.fin false F64.one) := ⟨by decide +kernel, 1, 1074, by decide, by decide +kernel⟩
  have ht : F64.Ok (.fin false tiny) := ⟨by decide +kernel, 1, 1021, by decide, by decide +kernel⟩
  have hn : F64.Ok (.fin true F64.one) := ho
  obtain ⟨r, h1, h2⟩ := (h [some (.fin false F64.one), some (.fin false tiny), some (.fin false tiny), some (.fin true F64.one)] (fun x hx => by
    simp only [values, List.filterMap_cons, id, List.filterMap_nil, List.mem_cons, List.not_mem_nil, or_false] at hx
    rcases hx with rfl | rfl | rfl | rfl
    · exact ⟨ho, _, _, rfl⟩
    · exact ⟨ht, _, _, rfl⟩
    · exact ⟨ht, _, _, rfl⟩
    · exact ⟨hn, _, _, rfl⟩) (by simp [values])).2 (by simp [values])
  have h3 : avg [some (.fin false F64.one), some (.fin false tiny), some (.fin false tiny), some (.fin true F64.one)] = some (.fin false 0) := by
    decide +kernel
  rw [h3] at h1
  injection h1 with h1
  subst h1
  have h4 := h2.2 false 1 1020 (by decide)
  revert h4
  decide +kernel

end Verif.Float
