import Verif.Model.Arith

/-! # C30: INT64 arithmetic -/

namespace Verif.Arith

open Go

/-- An operation is exact: it returns the mathematical result or an error. -/
def Exact (r : Res Num) (v : Int) : Prop := ∀ n, r = .ok n → n.val = v

/-- Full C30: +, -, *, DIV, MOD on 64-bit integers are exact or fail. -/
def C30_full : Prop :=
  ∀ a b, InI64 a → InI64 b → Exact (add a b) (a + b) ∧ Exact (sub a b) (a - b) ∧ Exact (mul a b) (a * b) ∧
    (b ≠ 0 → Exact (div a b) (a.tdiv b)) ∧ (b ≠ 0 → Exact (mod a b) (a.tmod b))

/-- 9223372036854775807 + 1 is a negative number. -/
theorem C30_full_false : ¬ C30_full := by
  intro h
  have := (h 9223372036854775807 1 (by decide) (by decide)).1 _ rfl
  revert this; decide

/-- Every operation of the full statement has its own counterexample. -/
theorem C30_counterexamples :
    ¬ Exact (sub (-9223372036854775808) 1) (-9223372036854775808 - 1) ∧
    ¬ Exact (mul 4611686018427387904 2) (4611686018427387904 * 2) ∧
    ¬ Exact (div (-9223372036854775808) (-1)) 9223372036854775808 ∧
    ¬ Exact (mod 9007199254740993 2) (Int.tmod 9007199254740993 2) ∧
    ¬ Exact (safeAdd 9007199254740992 1) (9007199254740992 + 1) := by
  refine ⟨fun h => ?_, fun h => ?_, fun h => ?_, fun h => ?_, fun h => ?_⟩
  all_goals (have := h _ rfl; revert this; decide)

/-- **C30** exactly when the result fits: for +, - and * the answer is right iff
the mathematical result is a 64-bit integer. -/
theorem C30_add_sub_mul_partial (a b : Int) :
    (Exact (add a b) (a + b) ↔ InI64 (a + b)) ∧ (Exact (sub a b) (a - b) ↔ InI64 (a - b)) ∧
    (Exact (mul a b) (a * b) ↔ InI64 (a * b)) := by
  have key : ∀ x : Int, Exact (.ok (.int (wrap64 x))) x ↔ InI64 x := by
    intro x
    constructor
    · intro h; exact (wrap64_eq_iff x).mp (h _ rfl)
    · rintro h n hn; cases hn; exact wrap64_eq h
  exact ⟨key _, key _, key _⟩

/-- **C30** DIV: division by zero is an error, otherwise the truncated quotient,
except for the one overflowing pair. -/
theorem C30_div_partial (a b : Int) (ha : InI64 a) (hb : InI64 b) :
    (div a b = .err ↔ b = 0) ∧ (b ≠ 0 → ¬ (a = -9223372036854775808 ∧ b = -1) → div a b = .ok (.int (a.tdiv b))) := by
  constructor
  · unfold div; split <;> simp_all
  · intro h0 hne
    have hin : InI64 (a.tdiv b) := by
      unfold InI64 at ha hb ⊢
      have hab : (a.tdiv b).natAbs = a.natAbs / b.natAbs := Int.natAbs_tdiv a b
      have hle : a.natAbs / b.natAbs ≤ a.natAbs := Nat.div_le_self _ _
      by_cases hb1 : b = -1
      · subst hb1
        rw [show a.tdiv (-1) = -a by simp]
        omega
      · by_cases ha1 : a = -9223372036854775808
        · by_cases hb2 : b = 1
          · subst hb2; rw [Int.tdiv_one]; omega
          · have : 2 ≤ b.natAbs := by omega
            have : a.natAbs / b.natAbs ≤ a.natAbs / 2 := Nat.div_le_div_left this (by omega)
            omega
        · omega
    unfold div; rw [if_neg h0, wrap64_eq hin]

/-- **C30** MOD, ABS and the SAFE_ functions are exact below 2^53. -/
theorem C30_float_range_partial (a b : Int) (ha : a.natAbs < 9007199254740992) (hb : b.natAbs < 9007199254740992) :
    (mod a b = if b = 0 then .err else .ok (.float (a.tmod b))) ∧ abs a = .ok (.float a.natAbs) ∧
    safeNeg a = .ok (.float (-a)) ∧
    ((a + b).natAbs < 9007199254740992 → safeAdd a b = .ok (.float (a + b))) ∧
    ((a - b).natAbs < 9007199254740992 → safeSub a b = .ok (.float (a - b))) ∧
    ((a * b).natAbs < 9007199254740992 → safeMul a b = .ok (.float (a * b))) := by
  have h1 : f64 a = a := f64_exact (by omega) (by omega)
  have h2 : f64 b = b := f64_exact (by omega) (by omega)
  simp only [mod, abs, safeNeg, safeAdd, safeSub, safeMul, h1, h2, true_and]
  refine ⟨fun h => ?_, fun h => ?_, fun h => ?_⟩
  all_goals rw [f64_exact (by omega) (by omega)]

example : mod (-7) 3 = .ok (.float (-1)) ∧ div (-7) 2 = .ok (.int (-3)) := by decide

end Verif.Arith
