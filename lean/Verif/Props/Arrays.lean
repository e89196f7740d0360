import Verif.Model.Arrays
import Verif.Lemmas.Value
import Verif.Lemmas.Date

/-! # C64: subscripts; C65, C88: generated arrays; C66: array functions; C67: RANGE_BUCKET; C89: GREATEST, LEAST -/

namespace Verif.Arrays

open Go Verif.Val Verif.Logic Verif.Sql Verif.Date

/-! ### C64 -/

/-- **C64** the element counted from 0 (OFFSET) or 1 (ORDINAL) when it exists; otherwise an error, or NULL in the
SAFE_ forms. -/
theorem C64_subscript (vs : List Val) (i : Int) :
    (∀ k : Nat, ∀ v, i = k → vs[k]? = some v →
      subscript offsetAt (.arr vs) (.int i) = .ok v ∧ subscript safeOffsetAt (.arr vs) (.int i) = .ok v ∧
      subscript ordinalAt (.arr vs) (.int (i + 1)) = .ok v ∧ subscript safeOrdinalAt (.arr vs) (.int (i + 1)) = .ok v) ∧
    ((i < 0 ∨ vs.length ≤ i) →
      subscript offsetAt (.arr vs) (.int i) = .err ∧ subscript safeOffsetAt (.arr vs) (.int i) = .ok .null ∧
      subscript ordinalAt (.arr vs) (.int (i + 1)) = .err ∧ subscript safeOrdinalAt (.arr vs) (.int (i + 1)) = .ok .null) := by
  constructor
  · rintro k v rfl hk
    have hlt : k < vs.length := (List.getElem?_eq_some_iff.mp hk).1
    simp only [subscript, existsNull, Val.isNull, Val.toInt64, toArray, Res.bind'_ok, offsetAt, safeOffsetAt, ordinalAt, safeOrdinalAt]
    have h1 : ¬ ((k : Int) < 0 ∨ (vs.length : Int) ≤ k) := by omega
    have h2 : ¬ ((k : Int) + 1 < 1 ∨ (vs.length : Int) < k + 1) := by omega
    simp only [if_neg h1, if_neg h2, show ((k : Int) + 1 - 1).toNat = k by omega, show (k : Int).toNat = k by omega, hk]
    simp
  · intro h
    simp only [subscript, existsNull, Val.isNull, Val.toInt64, toArray, Res.bind'_ok, offsetAt, safeOffsetAt, ordinalAt, safeOrdinalAt]
    have h2 : i + 1 < 1 ∨ (vs.length : Int) < i + 1 := by omega
    simp only [if_pos h, if_pos h2]
    simp

/-- **C64** a NULL array or index gives NULL. -/
theorem C64_null (f : List Val → Int → Res Val) (a i : Val) (h : a = .null ∨ i = .null) : subscript f a i = .ok .null := by
  unfold subscript
  rw [if_pos]
  rcases h with rfl | rfl
  · rfl
  · cases a <;> rfl

example : subscript ordinalAt (.arr [.int 7, .null, .int 9]) (.int 3) = .ok (.int 9) := by rfl

/-! ### C66 -/

theorem concatLoop_ok : ∀ (xss : List (List Val)) (acc : List Val), concatLoop acc (xss.map .arr) = .ok (acc ++ xss.flatten)
  | [], acc => by simp [concatLoop]
  | xs :: xss, acc => by simp [concatLoop, toArray, concatLoop_ok xss]

theorem reverseLoop_eq (vs : List Val) : ∀ (n : Nat) (ret : List Val), n ≤ vs.length → reverseLoop vs n ret = ret ++ (vs.take n).reverse
  | 0, ret, _ => by simp [reverseLoop]
  | n + 1, ret, h => by
    rw [reverseLoop, reverseLoop_eq vs n _ (by omega), List.take_add_one, List.reverse_append, List.append_assoc]
    simp [-List.take_append_getElem, List.getD, List.getElem?_eq_getElem (show n < vs.length by omega)]

/-- **C66** ARRAY_CONCAT concatenates, ARRAY_REVERSE reverses (twice is nothing), ARRAY_LENGTH counts; NULL elements
are elements like others. -/
theorem C66_arrays (xs : List Val) (xss : List (List Val)) :
    arrayConcat (.arr xs :: xss.map .arr) = .ok (.arr (xs ++ xss.flatten)) ∧
    arrayLength (.arr xs) = .ok (.int xs.length) ∧
    arrayReverse (.arr xs) = .ok (.arr xs.reverse) ∧
    (arrayReverse (.arr xs)).bind arrayReverse = .ok (.arr xs) := by
  have rev : ∀ xs : List Val, arrayReverse (.arr xs) = .ok (.arr xs.reverse) := by
    intro xs
    simp only [arrayReverse, toArray, Res.bind'_ok]
    rw [reverseLoop_eq xs _ _ (Nat.le_refl _), List.take_length, List.nil_append]
  refine ⟨?_, rfl, rev xs, ?_⟩
  · have := concatLoop_ok (xs :: xss) []
    simp only [List.map_cons, List.nil_append, List.flatten_cons] at this
    simp only [arrayConcat, List.length_cons]
    rw [if_neg (by omega), this]; rfl
  · rw [rev]; simp only [Res.bind'_ok]; rw [rev, List.reverse_reverse]

/-- **C66** the length of a concatenation is the sum of the lengths. -/
theorem C66_length (xs : List Val) (xss : List (List Val)) :
    (arrayConcat (.arr xs :: xss.map .arr)).bind arrayLength = .ok (.int (xs.length + (xss.map List.length).sum)) := by
  rw [(C66_arrays xs xss).1]
  simp [arrayLength, toArray, List.length_flatten]

/-- A NULL array panics in all three. -/
theorem C66_null : arrayConcat [.null] = .panic ∧ arrayLength .null = .panic ∧ arrayReverse .null = .panic := ⟨rfl, rfl, rfl⟩

/-! ### The loop -/

/-- The k-th value of the loop. -/
def iter {α} (next : α → α) (a : α) : Nat → α
  | 0 => a
  | k + 1 => next (iter next a k)

theorem iter_shift {α} (next : α → α) (a : α) : ∀ k, iter next (next a) k = iter next a (k + 1)
  | 0 => rfl
  | k + 1 => by simp only [iter, iter_shift next a k]

/-- A run that ends after `n + 1` values. -/
theorem loop_ends {α} (next : α → α) (keep : α → Bool) : ∀ (n : Nat) (a : α) (acc : List α),
    (∀ k, k < n → keep (iter next a (k + 1)) = true) → keep (iter next a (n + 1)) = false →
    loop next keep (n + 1) a acc = some (acc ++ (List.range (n + 1)).map (iter next a))
  | 0, a, acc, _, h => by
    simp only [iter] at h
    simp [loop, h, List.range_succ, iter]
  | n + 1, a, acc, h1, h2 => by
    have h0 := h1 0 (by omega)
    simp only [iter] at h0
    rw [loop, if_pos h0, loop_ends next keep n (next a) (acc ++ [a])]
    · congr 1
      rw [List.append_assoc]
      congr 1
      rw [List.range_succ_eq_map (n := n + 1), List.map_cons, List.map_map]
      simp only [iter, List.singleton_append]
      congr 1
      apply List.map_congr_left
      intro k _
      exact iter_shift next a k
    · intro k hk
      rw [iter_shift]; exact h1 (k + 1) (by omega)
    · rw [iter_shift]; exact h2

theorem loop_more {α} (next : α → α) (keep : α → Bool) : ∀ (n m : Nat) (a : α) (acc r : List α),
    loop next keep n a acc = some r → n ≤ m → loop next keep m a acc = some r
  | 0, _, _, _, _, h, _ => by simp [loop] at h
  | n + 1, 0, _, _, _, _, hm => by omega
  | n + 1, m + 1, a, acc, r, h, hm => by
    unfold loop at h ⊢
    split
    · rename_i hk
      rw [if_pos hk] at h
      exact loop_more next keep n m _ _ r h (by omega)
    · rename_i hk
      rwa [if_neg hk] at h

theorem loop_unique {α} {next : α → α} {keep : α → Bool} {n m : Nat} {a : α} {acc r r' : List α}
    (h : loop next keep n a acc = some r) (h' : loop next keep m a acc = some r') : r = r' := by
  rcases Nat.le_total n m with hm | hm
  · have := loop_more _ _ _ _ _ _ _ h hm
    rw [h'] at this; exact (Option.some.inj this).symm
  · have := loop_more _ _ _ _ _ _ _ h' hm
    rw [h] at this; exact Option.some.inj this

/-- If the first `n` next values are kept, a result has more than `n` values. -/
theorem loop_long {α} (next : α → α) (keep : α → Bool) : ∀ (n fuel : Nat) (a : α) (acc r : List α),
    (∀ k, k < n → keep (iter next a (k + 1)) = true) → loop next keep fuel a acc = some r → acc.length + n < r.length
  | _, 0, _, _, _, _, h => by simp [loop] at h
  | 0, fuel + 1, a, acc, r, _, h => by
    have grows : ∀ (fuel : Nat) (a : α) (acc r : List α), loop next keep fuel a acc = some r → acc.length < r.length := by
      intro fuel
      induction fuel with
      | zero => intro a acc r h; simp [loop] at h
      | succ fuel ih =>
        intro a acc r h
        unfold loop at h
        split at h
        · have := ih _ _ _ h
          simp at this; omega
        · cases h; simp
    exact grows _ _ _ _ h
  | n + 1, fuel + 1, a, acc, r, hk, h => by
    have h0 := hk 0 (by omega)
    simp only [iter] at h0
    unfold loop at h
    rw [if_pos h0] at h
    have := loop_long next keep n fuel (next a) (acc ++ [a]) r (fun k hk' => by
      rw [iter_shift]; exact hk (k + 1) (by omega)) h
    simp at this; omega

/-- Every next value kept: the loop never ends. -/
theorem loop_forever {α} (next : α → α) (keep : α → Bool) (a : α) (h : ∀ k, keep (iter next a (k + 1)) = true) (fuel : Nat) :
    loop next keep fuel a [] = none := by
  cases hl : loop next keep fuel a [] with
  | none => rfl
  | some r =>
    have := loop_long next keep r.length fuel a [] r (fun k _ => h k) hl
    simp at this

/-! ### C65 -/

/-- `r` is the arithmetic progression `f 0, f 1, …` from `a` as far as it is within `b`: `within x` says that `x` is not
beyond `b` in the direction of the step. -/
def Progression (f : Nat → Int) (within : Int → Prop) (r : List Int) : Prop :=
  ∃ n, r = (List.range n).map f ∧ (∀ k, k < n → within (f k)) ∧ ¬ within (f n)

/-- Not beyond `b` when going in steps of `s`. -/
def Within (s b x : Int) : Prop := if s > 0 then x ≤ b else b ≤ x

instance (s b x : Int) : Decidable (Within s b x) := by unfold Within; infer_instance

/-- Full C65: for INT64 arguments and a step other than 0, GENERATE_ARRAY returns the progression. -/
def C65_full : Prop :=
  ∀ a b s : Int, InI64 a → InI64 b → InI64 s → s ≠ 0 →
    ∃ r, generateArray (some a) (some b) (some (some s)) (.value r) ∧ Progression (fun k => a + k * s) (Within s b) r

theorem progression_unique {f : Nat → Int} {w : Int → Prop} {r r' : List Int} (h : Progression f w r) (h' : Progression f w r') : r = r' := by
  obtain ⟨n, rfl, h1, h2⟩ := h
  obtain ⟨m, rfl, h1', h2'⟩ := h'
  rcases Nat.lt_trichotomy n m with h | rfl | h
  · exact absurd (h1' n h) h2
  · rfl
  · exact absurd (h1 m h) h2'

theorem mul_add_step (a s : Int) (k : Nat) : a + ((k + 1 : Nat) : Int) * s = a + k * s + s := by
  rw [Int.natCast_add, Int.add_mul]; omega

/-- Without wrap-around the loop computes the progression. -/
theorem iter_progression (a s : Int) : ∀ k : Nat, (∀ j : Nat, j < k → InI64 (a + j * s + s)) →
    iter (fun x => wrap64 (x + s)) a k = a + k * s
  | 0, _ => by simp [iter]
  | k + 1, h => by
    rw [iter, iter_progression a s k (fun j hj => h j (by omega)), mul_add_step, wrap64_eq (h k (by omega))]

/-- The largest number of steps within the bound. -/
theorem steps_exist (a b s : Int) (hs : s ≠ 0) (h : Within s b a) :
    ∃ n : Nat, (∀ k : Nat, k ≤ n → Within s b (a + k * s)) ∧ ¬ Within s b (a + ((n + 1 : Nat) : Int) * s) := by
  have key : ∀ (fuel : Nat) (a : Int), Within s b a → (b - a).natAbs < fuel →
      ∃ n : Nat, (∀ k : Nat, k ≤ n → Within s b (a + k * s)) ∧ ¬ Within s b (a + ((n + 1 : Nat) : Int) * s) := by
    intro fuel
    induction fuel with
    | zero => intro a _ h; omega
    | succ fuel ih =>
      intro a hw hf
      by_cases hn : Within s b (a + s)
      · obtain ⟨n, h1, h2⟩ := ih (a + s) hn (by
          unfold Within at hw hn
          split at hw
          · rw [if_pos (by omega)] at hn; omega
          · rw [if_neg (by omega)] at hn; omega)
        refine ⟨n + 1, fun k hk => ?_, ?_⟩
        · cases k with
          | zero => simpa using hw
          | succ k =>
            have := h1 k (by omega)
            rwa [show a + s + (k : Int) * s = a + ((k + 1 : Nat) : Int) * s by rw [mul_add_step]; omega] at this
        · rwa [show a + s + ((n + 1 : Nat) : Int) * s = a + ((n + 1 + 1 : Nat) : Int) * s by
            rw [mul_add_step, mul_add_step, mul_add_step]; omega] at h2
      · exact ⟨0, fun k hk => by simpa [show k = 0 by omega] using hw, by simpa using hn⟩
  exact key _ a h (Nat.lt_succ_self _)

theorem within_inI64 {a b s x : Int} (ha : InI64 a) (hb : InI64 b) (h1 : Within s b x) (h2 : Within (-s) a x) (hs : s ≠ 0) : InI64 x := by
  unfold Within at h1 h2; unfold InI64 at *
  split at h1 <;> split at h2 <;> omega

/-- All values up to the last one fit into 64 bits. -/
theorem terms_fit {a b s : Int} (ha : InI64 a) (hb : InI64 b) (hs : s ≠ 0) {n : Nat} (h : ∀ k : Nat, k ≤ n → Within s b (a + k * s)) :
    ∀ k : Nat, k ≤ n → InI64 (a + k * s) := by
  have back : ∀ k : Nat, Within (-s) a (a + k * s) := by
    intro k
    unfold Within
    rcases Int.lt_trichotomy s 0 with h | h | h
    · have : (k : Int) * s ≤ 0 := Int.mul_nonpos_of_nonneg_of_nonpos (by omega) (by omega)
      rw [if_pos (by omega)]; omega
    · omega
    · have : 0 ≤ (k : Int) * s := Int.mul_nonneg (by omega) (by omega)
      rw [if_neg (by omega)]; omega
  intro k hk
  exact within_inI64 ha hb (h k hk) (back k) hs

theorem keepEq {a b s : Int} (h : decide (a ≤ b) = decide (s > 0)) (x : Int) :
    (if a ≤ b then decide (x ≤ b) else decide (b ≤ x)) = decide (Within s b x) := by
  unfold Within
  by_cases hp : s > 0
  · have : a ≤ b := by simpa [hp] using h
    simp [hp, this]
  · have : ¬ a ≤ b := by simpa [hp] using h
    simp [hp, this]

/-- Without an overflow the loop gives the progression. -/
theorem generates_progression {a b s : Int} {next : Int → Int} (hs : s ≠ 0) (hup : decide (a ≤ b) = decide (s > 0))
    (hnext : ∀ n : Nat, (∀ k : Nat, k ≤ n → Within s b (a + k * s)) → next (a + n * s) = a + n * s + s) :
    ∃ r, Generates (decide (a ≤ b)) (decide (s > 0)) next (fun x => if a ≤ b then decide (x ≤ b) else decide (b ≤ x)) a (.value r) ∧
      Progression (fun k => a + k * s) (Within s b) r := by
  have hw : Within s b a := by
    unfold Within
    by_cases hp : s > 0
    · rw [if_pos hp]; simpa [hp] using hup
    · rw [if_neg hp]
      have : ¬ a ≤ b := by simpa [hp] using hup
      omega
  obtain ⟨n, h1, h2⟩ := steps_exist a b s hs hw
  have hit : ∀ k : Nat, k ≤ n + 1 → iter next a k = a + k * s := by
    intro k
    induction k with
    | zero => intro _; simp [iter]
    | succ k ih =>
      intro hk
      rw [iter, ih (by omega), hnext k (fun j hj => h1 j (by omega)), mul_add_step]
  refine ⟨(List.range (n + 1)).map (iter next a), ?_, n + 1, ?_, ?_, h2⟩
  · simp only [Generates]
    rw [if_neg (by simp [hup])]
    refine ⟨n + 1, ?_⟩
    have := loop_ends next (fun x => if a ≤ b then decide (x ≤ b) else decide (b ≤ x)) n a []
      (fun k hk => by rw [keepEq hup, hit (k + 1) (by omega)]; exact decide_eq_true (h1 (k + 1) (by omega)))
      (by rw [keepEq hup, hit (n + 1) (by omega)]; exact decide_eq_false h2)
    simpa using this
  · apply List.map_congr_left
    intro k hk
    exact hit k (by have := List.mem_range.mp hk; omega)
  · intro k hk; exact h1 k (by omega)

theorem progression_empty {a b s : Int} (h : ¬ Within s b a) : Progression (fun k => a + k * s) (Within s b) [] :=
  ⟨0, rfl, fun k hk => by omega, by simpa using h⟩

/-- **C65** GENERATE_ARRAY returns the progression exactly when the value after the last one fits into 64 bits and
it is not asked for a single value with a negative step. -/
theorem C65_partial (a b s : Int) (ha : InI64 a) (hb : InI64 b) (hI : InI64 s) (hs : s ≠ 0) :
    (∃ r, generateArray (some a) (some b) (some (some s)) (.value r) ∧ Progression (fun k => a + k * s) (Within s b) r) ↔
    (¬ (a = b ∧ s < 0) ∧ ∀ n : Nat, Within s b (a + n * s) → InI64 (a + n * s + s)) := by
  simp only [generateArray, Option.getD_some]
  constructor
  · rintro ⟨r, hg, hp⟩
    constructor
    · rintro ⟨rfl, hneg⟩
      simp only [Generates] at hg
      rw [if_pos (by simp; omega)] at hg
      subst hg
      obtain ⟨n, e, _, h2⟩ := hp
      have : n = 0 := by cases n with | zero => rfl | succ n => simp [List.range_succ] at e
      subst this
      apply h2
      unfold Within
      rw [if_neg (by omega)]; simp
    · intro n hn
      apply Classical.byContradiction
      intro ho
      obtain ⟨m, e, h1, h2⟩ := hp
      -- what is within stays within on the way back
      have mono : ∀ k : Nat, k ≤ n → Within s b (a + k * s) := by
        intro k hk
        have : (n : Int) * s = k * s + (n - k : Nat) * s := by
          rw [← Int.add_mul]; congr 1; omega
        unfold Within at hn ⊢
        split
        · rename_i hp
          rw [if_pos hp] at hn
          have : 0 ≤ ((n - k : Nat) : Int) * s := Int.mul_nonneg (by omega) (by omega)
          omega
        · rename_i hp
          rw [if_neg hp] at hn
          have : ((n - k : Nat) : Int) * s ≤ 0 := Int.mul_nonpos_of_nonneg_of_nonpos (by omega) (by omega)
          omega
      have fit := terms_fit ha hb hs mono
      have hm : m ≤ n + 1 := by
        apply Classical.byContradiction
        intro hc
        have := h1 (n + 1) (by omega)
        simp only at this
        rw [mul_add_step] at this
        have fn := fit n (Nat.le_refl _)
        unfold Within at this hn
        unfold InI64 at ho fn hb hI
        split at this
        · omega
        · omega
      have hup : decide (a ≤ b) = decide (s > 0) := by
        apply Classical.byContradiction
        intro hc
        simp only [Generates] at hg
        rw [if_pos hc] at hg
        subst hg
        have : m = 0 := by cases m with | zero => rfl | succ m => simp [List.range_succ] at e
        subst this
        exact h2 (mono 0 (by omega))
      simp only [Generates] at hg
      rw [if_neg (by simp [hup])] at hg
      obtain ⟨fuel, hg⟩ := hg
      have hit : ∀ k : Nat, k ≤ n → iter (fun x => wrap64 (x + s)) a k = a + k * s := by
        intro k hk
        apply iter_progression
        intro j hj
        have := fit (j + 1) (by omega)
        rwa [mul_add_step] at this
      have := loop_long _ _ (n + 1) fuel a [] r (fun k hk => by
        rw [keepEq hup]
        apply decide_eq_true
        by_cases hkn : k + 1 ≤ n
        · rw [hit (k + 1) hkn]; exact mono _ hkn
        · have : k = n := by omega
          subst this
          rw [iter, hit k (by omega)]
          have fn := fit k (Nat.le_refl _)
          unfold Within at hn ⊢
          unfold InI64 at ho fn hb hI
          unfold wrap64
          split
          · rename_i hp
            rw [if_pos hp] at hn
            omega
          · rename_i hp
            rw [if_neg hp] at hn
            omega) hg
      rw [e] at this
      simp at this
      omega
  · rintro ⟨h1, h2⟩
    by_cases hup : decide (a ≤ b) = decide (s > 0)
    · apply generates_progression hs hup
      intro n hn
      exact wrap64_eq (h2 n (hn n (Nat.le_refl _)))
    · refine ⟨[], ?_, progression_empty ?_⟩
      · simp only [Generates]
        simp [hup]
      · unfold Within
        by_cases hp : s > 0
        · rw [if_pos hp]; simpa [hp] using hup
        · rw [if_neg hp]
          have : a ≤ b := by simpa [hp] using hup
          omega

/-- A single value with a negative step is lost. -/
theorem C65_full_false : ¬ C65_full := by
  intro h
  exact ((C65_partial 5 5 (-1) (by decide) (by decide) (by decide) (by decide)).mp
    (h 5 5 (-1) (by decide) (by decide) (by decide) (by decide))).1 ⟨rfl, by decide⟩

/-- Up to the largest INT64, or with step 0 from a larger to a smaller value, it never returns. -/
theorem C65_never_ends (a b s : Int) (ha : InI64 a) (h : (b = 2 ^ 63 - 1 ∧ 0 < s) ∨ (b < a ∧ s = 0)) :
    generateArray (some a) (some b) (some (some s)) .forever := by
  simp only [generateArray, Option.getD_some, Generates]
  rcases h with ⟨rfl, hs⟩ | ⟨hb, rfl⟩
  · have hle : a ≤ 2 ^ 63 - 1 := by unfold InI64 at ha; omega
    refine ⟨by rw [decide_eq_true hle, decide_eq_true hs], loop_forever _ _ _ fun k => ?_⟩
    rw [if_pos hle]
    apply decide_eq_true
    simp only [iter]
    generalize iter _ a k + s = y
    have := wrap64_inI64 y
    unfold InI64 at this; omega
  · refine ⟨by simp; omega, loop_forever _ _ _ fun k => ?_⟩
    rw [if_neg (by omega)]
    apply decide_eq_true
    have : ∀ k : Nat, iter (fun x => wrap64 (x + 0)) a k = a := by
      intro k
      induction k with
      | zero => rfl
      | succ k ih => rw [iter, ih, Int.add_zero, wrap64_eq ha]
    rw [this]; omega

/-- **C65** a NULL bound or step gives NULL and nothing else; the step is 1 when absent. -/
theorem C65_null (a b : Option Int) (s : Option (Option Int)) (h : a = none ∨ b = none ∨ s = some none) (out : Gen (List Int)) :
    generateArray a b s out ↔ out = .null := by
  rcases h with rfl | rfl | rfl
  · rfl
  · cases a <;> rfl
  · cases a <;> cases b <;> rfl

theorem C65_default (a b : Option Int) (out : Gen (List Int)) : generateArray a b none out ↔ generateArray a b (some (some 1)) out := Iff.rfl

example : generateArray (some 1) (some 10) (some (some 4)) (.value [1, 5, 9]) := by
  simp only [generateArray, Option.getD_some, Generates]
  exact ⟨3, by decide⟩
example : generateArray (some 10) (some 1) (some (some (-4))) (.value [10, 6, 2]) := by
  simp only [generateArray, Option.getD_some, Generates]
  exact ⟨3, by decide⟩

end Verif.Arrays
