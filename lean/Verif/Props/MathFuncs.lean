import Verif.Model.MathFuncs

/-!
# C264: mathematical functions refuse arguments outside their domain
-/

namespace Verif.MathFuncs

open Verif.Go Verif.Float

/-- The arguments for which the function must report an error: SQRT of a negative
number, LN and LOG10 of a number that is not positive, ACOS and ASIN outside
[-1, 1], ACOSH below 1, ATANH outside (-1, 1), EXP of a number whose exponential is
too large. -/
def Outside : Fn → F64 → Prop
  | .sqrt, .fin s k => s = true ∧ 0 < k
  | .sqrt, .inf s => s = true
  | .exp, .fin s k => s = false ∧ 710 * F64.one < k
  | .exp, .inf _ => False
  | .ln, .fin s k => s = true ∨ k = 0
  | .ln, .inf s => s = true
  | .log10, .fin s k => s = true ∨ k = 0
  | .log10, .inf s => s = true
  | .acos, .fin _ k => F64.one < k
  | .acos, .inf _ => True
  | .asin, .fin _ k => F64.one < k
  | .asin, .inf _ => True
  | .acosh, .fin s k => s = true ∨ k < F64.one
  | .acosh, .inf s => s = true
  | .atanh, .fin _ k => F64.one ≤ k
  | .atanh, .inf _ => True
  | _, .nan => False

/-- POW must report an error: a zero to a negative power, a negative number to a power
that is no integer. -/
def OutsidePow : F64 → F64 → Prop
  | .fin s k, .fin t m =>
      (k = 0 ∧ t = true ∧ 0 < m) ∨ (s = true ∧ 0 < k ∧ ¬ ∃ i, m = i * F64.one)
  | _, _ => False

/-- The property: outside the domain there is an error. -/
def C264_full (L : Lib) : Prop :=
  (∀ f x, Outside f x → eval (.call (fn1 L f) [.param x]) = .err) ∧
  (∀ x y, OutsidePow x y → eval (.call (pow L) [.param x, .param y]) = .err)

/-- What the client sees outside the domain: an infinity for LN and LOG10 of zero,
ATANH of ±1 and EXP, NULL for the others. -/
def seen : Fn → F64 → Option F64
  | .exp, _ => some (.inf false)
  | .ln, .fin _ k => if k = 0 then some (.inf true) else none
  | .log10, .fin _ k => if k = 0 then some (.inf true) else none
  | .atanh, .fin s k => if k = F64.one then some (.inf s) else none
  | _, _ => none

theorem one_pos : 0 < F64.one := by decide +kernel

/-- The value of a call with one argument that is not NaN. -/
theorem eval_fn1 (L : Lib) (f : Fn) (x : F64) (hx : x ≠ .nan) :
    eval (.call (fn1 L f) [.param x]) = .ok (sqlite (L.fn f x)) := by
  cases x <;> first | exact absurd rfl hx | rfl

theorem special_outside (f : Fn) (x : F64) (h : Outside f x) :
    (special f x).map sqlite = some (seen f x) := by
  have h1 : 0 < F64.one := one_pos
  cases x with
  | nan => cases f <;> exact h.elim
  | inf s =>
    cases f <;> cases s <;>
      simp_all [Outside, special, seen, F64.lt, F64.eq, f0, f1, fm1, sqlite]
  | fin s k =>
    generalize ho : F64.one = o at h1
    have hk : k = 0 ∨ (0 < k ∧ k < o) ∨ k = o ∨ (o < k ∧ ¬ 710 * o < k) ∨ (o < k ∧ 710 * o < k) := by
      omega
    cases f <;> cases s <;>
      simp only [Outside, special, seen, F64.lt, F64.eq, f0, f1, fm1, f710, F64.sval, ho] at h ⊢ <;>
      grind [sqlite]

/-- Outside its domain a function never reports an error: the client gets NULL, or an
infinity for LN and LOG10 of zero, ATANH of ±1 and EXP. -/
theorem C264_exact (L : Lib) (f : Fn) (x : F64) (h : Outside f x) :
    eval (.call (fn1 L f) [.param x]) = .ok (seen f x) := by
  have hx : x ≠ .nan := by rintro rfl; cases f <;> exact h.elim
  have h1 := special_outside f x h
  cases hs : special f x with
  | none => simp [hs] at h1
  | some r =>
    rw [hs] at h1
    rw [eval_fn1 L f x hx, L.fn_special f x r hs, Option.some.inj h1]

theorem isOdd_iff (k : Nat) : isOdd k = true ↔ ∃ i, k = (2 * i + 1) * F64.one := by
  have h1 : 0 < F64.one := one_pos
  unfold isOdd isInt
  generalize F64.one = o at h1
  constructor
  · intro h
    simp only [Bool.and_eq_true, beq_iff_eq] at h
    refine ⟨k / o / 2, ?_⟩
    have := Nat.div_add_mod k o
    have h3 : 2 * (k / o / 2) + 1 = k / o := by omega
    rw [h3, Nat.mul_comm]; omega
  · rintro ⟨i, rfl⟩
    simp [Nat.mul_div_cancel _ h1]

/-- A zero to a negative power is an infinity, negative exactly when the zero is and
the power is an odd integer. -/
theorem C264_pow_zero (L : Lib) (s : Bool) (m : Nat) (hm : 0 < m) :
    ∃ b, eval (.call (pow L) [.param (.fin s 0), .param (.fin true m)]) = .ok (some (.inf b)) ∧
      (b = true ↔ s = true ∧ ∃ i, m = (2 * i + 1) * F64.one) := by
  obtain ⟨n, rfl⟩ : ∃ n, m = n + 1 := ⟨m - 1, by omega⟩
  refine ⟨s && isOdd (n + 1), ?_, by rw [Bool.and_eq_true, isOdd_iff]⟩
  show Res.ok (sqlite (L.pow (.fin s 0) (.fin true (n + 1)))) = _
  rw [L.pow_special _ _ _ rfl]; rfl

/-- A negative number to a power that is no integer is NULL. -/
theorem C264_pow_neg (L : Lib) (t : Bool) (k m : Nat) (hk : 0 < k)
    (hm : ¬ ∃ i, m = i * F64.one) :
    eval (.call (pow L) [.param (.fin true k), .param (.fin t m)]) = .ok none := by
  obtain ⟨n, rfl⟩ : ∃ n, k = n + 1 := ⟨k - 1, by omega⟩
  have hi : isInt m = false := by
    cases h : isInt m with
    | false => rfl
    | true =>
      refine absurd ⟨m / F64.one, ?_⟩ hm
      have h2 : m % F64.one = 0 := by simpa [isInt] using h
      exact (Nat.div_mul_cancel (Nat.dvd_of_mod_eq_zero h2)).symm
  show Res.ok (sqlite (L.pow (.fin true (n + 1)) (.fin t m))) = _
  rw [L.pow_special _ _ .nan (by simp [specialPow, hi])]; rfl

/-- Inside the domain, and for every argument that is not NaN, the client sees what
package math returns, with NULL for NaN. -/
theorem C264_value (L : Lib) (f : Fn) (x : F64) (hx : x ≠ .nan) :
    eval (.call (fn1 L f) [.param x]) = .ok (if L.fn f x = .nan then none else some (L.fn f x)) := by
  rw [eval_fn1 L f x hx]
  cases h : L.fn f x <;> simp [sqlite]

/-- Never an error: with every package math the property fails, for each function. -/
theorem C264_full_false (L : Lib) : ¬ C264_full L ∧
    ∀ f, ∃ x, Outside f x ∧ eval (.call (fn1 L f) [.param x]) ≠ .err := by
  have h2 : ∀ f, ∃ x, Outside f x ∧ eval (.call (fn1 L f) [.param x]) ≠ .err := by
    intro f
    have key : ∀ x, Outside f x → ∃ x, Outside f x ∧ eval (.call (fn1 L f) [.param x]) ≠ .err :=
      fun x h => ⟨x, h, by rw [C264_exact L f x h]; simp⟩
    cases f
    case exp =>
      refine key (.fin false (710 * F64.one + 1)) ⟨rfl, ?_⟩
      generalize F64.one = o; omega
    all_goals exact key (.inf true) (by simp [Outside])
  refine ⟨fun h => ?_, h2⟩
  obtain ⟨x, h3, h4⟩ := h2 .sqrt
  exact h4 (h.1 _ _ h3)

/-- A package math that meets the assumptions. -/
def lib : Lib where
  fn f x := (special f x).getD f0
  pow x y := (specialPow x y).getD f1
  fn_special f x r h := by simp [h]
  pow_special x y r h := by simp [h]

/-- SQRT(-1), LN(0) and POW(-0.0, -1). -/
example : eval (.call (fn1 lib .sqrt) [.param fm1]) = .ok none :=
  C264_exact lib .sqrt fm1 ⟨rfl, one_pos⟩
example : eval (.call (fn1 lib .ln) [.param f0]) = .ok (some (.inf true)) :=
  C264_exact lib .ln f0 (Or.inr rfl)
example : OutsidePow (.fin true 0) fm1 := Or.inl ⟨rfl, rfl, one_pos⟩

end Verif.MathFuncs
