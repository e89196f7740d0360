import Verif.Model.Strings
import Verif.Props.StringCut

/-! # C63: STRPOS and INSTR -/

namespace Verif.Strings

open Go Val

/-- `t` occurs in `s` with `k` elements in front of it. -/
def Occurs {α} (t s : List α) (k : Nat) : Prop := ∃ a b, s = a ++ t ++ b ∧ a.length = k

/-- `n` is the 1-based position of the first occurrence, 0 if there is none. -/
def FirstPos {α} (s t : List α) (n : Int) : Prop :=
  (n = 0 ∧ ∀ k, ¬ Occurs t s k) ∨ ∃ k : Nat, n = k + 1 ∧ Occurs t s k ∧ ∀ j < k, ¬ Occurs t s j

/-- Full C63. -/
def C63_full : Prop :=
  (∀ s t : List Char, ∃ n, strpos (.str s) (.str t) = .ok (.int n) ∧ FirstPos s t n) ∧
  (∀ s t : List UInt8, ∃ n, strpos (.bytes s) (.bytes t) = .ok (.int n) ∧ FirstPos s t n) ∧
  (∀ s t : List Char, ∃ n, instr (.str s) (.str t) none none = .ok (.int n) ∧ FirstPos s t n)

theorem occurs_at {α} {t s : List α} {k : Nat} (hk : k ≤ s.length) : Occurs t s k ↔ At t s k := (at_iff hk).symm

theorem occurs_le {α} {t s : List α} {k : Nat} (h : Occurs t s k) : k ≤ s.length := by
  obtain ⟨a, b, rfl, rfl⟩ := h; simp

theorem index_firstPos {α} [DecidableEq α] (s t : List α) :
    FirstPos s t (match index t s with | some k => k + 1 | none => 0) := by
  cases h : index t s with
  | none => exact .inl ⟨rfl, fun k hk => index_none h k ((occurs_at (occurs_le hk)).mp hk)⟩
  | some k =>
    obtain ⟨h1, h2, h3⟩ := index_some h
    exact .inr ⟨k, rfl, (occurs_at h1).mpr h2, fun j hj ho => h3 j hj ((occurs_at (by omega)).mp ho)⟩

theorem firstPos_unique {α} {s t : List α} {m n : Int} (hm : FirstPos s t m) (hn : FirstPos s t n) : m = n := by
  rcases hm with ⟨rfl, h⟩ | ⟨k, rfl, h1, h2⟩ <;> rcases hn with ⟨rfl, h'⟩ | ⟨k', rfl, h1', h2'⟩
  · rfl
  · exact absurd h1' (h _)
  · exact absurd h1 (h' _)
  · rcases Nat.lt_trichotomy k k' with h | rfl | h
    · exact absurd h1 (h2' k h)
    · rfl
    · exact absurd h1' (h2 k' h)

/-- **C63** STRPOS of BYTES is right. -/
theorem C63_strpos_bytes (s t : List UInt8) : ∃ n, strpos (.bytes s) (.bytes t) = .ok (.int n) ∧ FirstPos s t n :=
  ⟨_, rfl, index_firstPos s t⟩

theorem utf8_length_ascii : ∀ {s : List Char}, (utf8 s).length = s.length ↔ ∀ c ∈ s, c.toNat < 128
  | [] => by simp
  | c :: s => by
    have ih := utf8_length_ascii (s := s)
    have hle := utf8_length_le s
    rw [utf8_cons, List.length_append, List.length_cons]
    constructor
    · intro h d hd
      by_cases hc : c.toNat < 128
      · rw [ascii_enc hc, List.length_singleton] at h
        rcases List.mem_cons.mp hd with rfl | hd
        · exact hc
        · exact ih.mp (by omega) d hd
      · have := enc_long (c := c) (by omega)
        omega
    · intro h
      rw [ascii_enc (h c List.mem_cons_self), ih.mpr fun d hd => h d (List.mem_cons_of_mem _ hd), List.length_singleton]
      omega

/-- **C63** STRPOS of a STRING is right exactly when there is no occurrence or the text in front of the first
one is ASCII. -/
theorem C63_strpos_partial (s t : List Char) : ∃ n, strpos (.str s) (.str t) = .ok (.int n) ∧
    (FirstPos s t n ↔ ∀ k, Occurs t s k → (∀ j < k, ¬ Occurs t s j) → ∀ c ∈ s.take k, c.toNat < 128) := by
  refine ⟨_, rfl, ?_⟩
  rw [utf8_index]
  cases h : index t s with
  | none =>
    refine ⟨fun _ k hk => absurd ((occurs_at (occurs_le hk)).mp hk) (index_none h k), fun _ => ?_⟩
    exact .inl ⟨rfl, fun k hk => index_none h k ((occurs_at (occurs_le hk)).mp hk)⟩
  | some k =>
    have right := index_firstPos s t
    rw [h] at right
    simp only at right
    obtain ⟨h1, h2, h3⟩ := index_some h
    have ho : Occurs t s k := (occurs_at h1).mpr h2
    have hmin : ∀ j < k, ¬ Occurs t s j := fun j hj ho => h3 j hj ((occurs_at (by omega)).mp ho)
    have hl : (s.take k).length = k := by simp; omega
    simp only [Option.map_some]
    constructor
    · intro hf k' ho' hmin'
      have e := firstPos_unique hf right
      have hk : k' = k := by
        rcases Nat.lt_trichotomy k k' with h | rfl | h
        · exact absurd ho (hmin' k h)
        · rfl
        · exact absurd ho' (hmin k' h)
      subst hk
      exact utf8_length_ascii.mp (by omega)
    · intro hf
      rw [utf8_length_ascii.mpr (hf k ho hmin), hl]
      exact right

/-- **C63** INSTR without a position is always an error. -/
theorem C63_instr_two (s t : List Char) : instr (.str s) (.str t) none none = .err := by
  simp [instr, instrBytes]

/-- STRPOS('éa', 'a') is 3. -/
theorem C63_full_false : ¬ C63_full := by
  intro h
  obtain ⟨n, h1, _⟩ := h.2.2 [] []
  rw [C63_instr_two] at h1
  cases h1

theorem C63_strpos_false : ¬ ∀ s t : List Char, ∃ n, strpos (.str s) (.str t) = .ok (.int n) ∧ FirstPos s t n := by
  intro h
  obtain ⟨n, h1, h2⟩ := h ['é','a'] ['a']
  have e : strpos (.str ['é','a']) (.str ['a']) = .ok (.int 3) := by rfl
  rw [e] at h1
  simp only [Res.ok.injEq, Val.int.injEq] at h1
  subst h1
  exact absurd (firstPos_unique h2 (index_firstPos ['é','a'] ['a'])) (by decide)

/-! ### INSTR with a position -/

instance {α} [DecidableEq α] (t s : List α) (k : Nat) : Decidable (At t s k) := by unfold At; infer_instance

/-- How many occurrences start in `[lo, hi)`. -/
def occurrences {α} [DecidableEq α] (t s : List α) (lo hi : Nat) : Nat :=
  (List.range' lo (hi - lo)).countP fun j => decide (At t s j)

theorem occurrences_self {α} [DecidableEq α] (t s : List α) (lo hi : Nat) (h : hi ≤ lo) : occurrences t s lo hi = 0 := by
  unfold occurrences; rw [Nat.sub_eq_zero_of_le h]; rfl

theorem occurrences_add {α} [DecidableEq α] (t s : List α) {a b c : Nat} (h1 : a ≤ b) (h2 : b ≤ c) :
    occurrences t s a c = occurrences t s a b + occurrences t s b c := by
  unfold occurrences
  rw [show c - a = (b - a) + (c - b) by omega, ← List.range'_append_1, List.countP_append, show a + (b - a) = b by omega]

theorem occurrences_none {α} [DecidableEq α] {t s : List α} {a b : Nat} (h : ∀ j, a ≤ j → j < b → ¬ At t s j) :
    occurrences t s a b = 0 := by
  unfold occurrences
  rw [List.countP_eq_zero]
  intro j hj
  have := List.mem_range'_1.mp hj
  simpa using h j this.1 (by omega)

theorem occurrences_one {α} [DecidableEq α] {t s : List α} {a : Nat} (h : At t s a) : occurrences t s a (a + 1) = 1 := by
  unfold occurrences
  rw [show a + 1 - a = 1 by omega]
  simp [List.range', h]

theorem at_drop {α} {t s : List α} {i k : Nat} : At t (s.drop i) k ↔ At t s (i + k) := by
  unfold At; rw [List.drop_drop]

/-- The loop finds the occurrence with the right number. -/
theorem instrLoop_spec (t s : List UInt8) (ht : t ≠ []) (occ : Int) : ∀ (fuel i : Nat) (found : Int), s.length ≤ i + fuel → found < occ →
    match instrLoop t s occ fuel i found with
    | some r => i ≤ r ∧ At t s r ∧ found + occurrences t s i r + 1 = occ
    | none => found + occurrences t s i s.length < occ
  | 0, i, found, hf, h => by
    simp only [instrLoop]
    rw [occurrences_self _ _ _ _ (by omega)]; omega
  | fuel + 1, i, found, hf, h => by
    unfold instrLoop
    by_cases hi : i < s.length
    · rw [if_pos hi]
      cases hk : index t (s.drop i) with
      | none =>
        have hno : ∀ j, i ≤ j → ¬ At t s j := by
          intro j hj hat
          have := index_none hk (j - i)
          rw [at_drop, show i + (j - i) = j by omega] at this
          exact this hat
        simp only
        rw [if_neg (by omega)]
        have ih := instrLoop_spec t s ht occ fuel (i + 1) found (by omega) h
        split at ih
        · rename_i r hr
          exact absurd ih.2.1 (hno r (by omega))
        · rw [occurrences_none fun j hj _ => hno j hj]; omega
      | some k =>
        obtain ⟨h1, h2, h3⟩ := index_some hk
        have hat : At t s (i + k) := at_drop.mp h2
        have hz : occurrences t s i (i + k) = 0 := by
          apply occurrences_none
          intro j hj1 hj2 hj
          apply h3 (j - i) (by omega)
          rw [at_drop, show i + (j - i) = j by omega]
          exact hj
        simp only
        by_cases hocc : found + 1 = occ
        · rw [if_pos hocc]
          refine ⟨by omega, hat, ?_⟩
          rw [hz]; omega
        · rw [if_neg hocc]
          have ih := instrLoop_spec t s ht occ fuel (i + k + 1) (found + 1) (by omega) (by omega)
          have one := occurrences_one hat
          split at ih
          · rename_i r hr
            have e1 := occurrences_add t s (show i ≤ i + k by omega) (show i + k ≤ r by omega)
            have e2 := occurrences_add t s (show i + k ≤ i + k + 1 by omega) (show i + k + 1 ≤ r by omega)
            exact ⟨by omega, ih.2.1, by omega⟩
          · have hlen := at_length hat ht
            have htl : 0 < t.length := List.length_pos_iff.mpr ht
            have e1 := occurrences_add t s (show i ≤ i + k by omega) (show i + k ≤ s.length by omega)
            have e2 := occurrences_add t s (show i + k ≤ i + k + 1 by omega) (show i + k + 1 ≤ s.length by omega)
            omega
    · rw [if_neg hi]
      simp only
      rw [occurrences_self _ _ _ _ (by omega)]; omega

/-- `r` is the 1-based position of the `occ`-th occurrence (overlaps count) at or after position `p`; 0 if there
are fewer. -/
def NthPos {α} [DecidableEq α] (s t : List α) (p : Nat) (occ : Int) (r : Int) : Prop :=
  (r = 0 ∧ occurrences t s (p - 1) s.length < occ) ∨
  ∃ k : Nat, r = k + 1 ∧ p ≤ k + 1 ∧ At t s k ∧ (occurrences t s (p - 1) k : Int) + 1 = occ

theorem occurrences_drop {α} [DecidableEq α] (t s : List α) (d a b : Nat) :
    occurrences t (s.drop d) a b = occurrences t s (d + a) (d + b) := by
  unfold occurrences
  rw [show d + b - (d + a) = b - a by omega, show d + a = a + d by omega]
  have : List.range' (a + d) (b - a) = (List.range' a (b - a)).map (· + d) := by
    apply List.ext_getElem
    · simp
    · intro i h1 h2; simp; omega
  rw [this, List.countP_map]
  apply List.countP_congr
  intro j _
  simp only [Function.comp, decide_eq_true_eq]
  rw [at_drop, Nat.add_comm]

/-- **C63** INSTR of BYTES from a position before the last byte. -/
theorem C63_instr_bytes_partial (s t : List UInt8) (ht : t ≠ []) (p : Nat) (occ : Int) (h1 : 1 ≤ p) (h2 : p < s.length) (h3 : 1 ≤ occ) :
    ∃ r, instrBytes s t p occ = .ok r ∧ NthPos s t p occ r := by
  unfold instrBytes
  rw [if_neg (by omega), if_neg (by omega)]
  simp only [Int.natAbs_natCast]
  rw [if_neg (by omega), if_neg (by omega), slice_ok (by omega) (by omega) (by omega)]
  simp only [Res.bind'_ok]
  have e : (s.take (s.length : Int).toNat).drop ((p : Int) - 1).toNat = s.drop (p - 1) := by
    rw [List.take_of_length_le (by omega), show ((p : Int) - 1).toNat = p - 1 by omega]
  rw [e]
  have sp := instrLoop_spec t (s.drop (p - 1)) ht occ (s.drop (p - 1)).length 0 0 (by omega) (by omega)
  split at sp
  · rename_i r hr
    rw [hr]
    refine ⟨_, rfl, .inr ⟨p - 1 + r, ?_, by omega, at_drop.mp sp.2.1, ?_⟩⟩
    · rw [if_neg (by omega)]; omega
    · have := occurrences_drop t s (p - 1) 0 r
      have := sp.2.2
      rw [Nat.add_zero] at *
      omega
  · rename_i hr
    rw [hr]
    refine ⟨_, rfl, .inl ⟨rfl, ?_⟩⟩
    have := occurrences_drop t s (p - 1) 0 (s.drop (p - 1)).length
    rw [List.length_drop, show p - 1 + (s.length - (p - 1)) = s.length by omega, Nat.add_zero] at this
    rw [List.length_drop] at sp
    omega

theorem at_ascii {s t : List Char} (h : ∀ c ∈ s, c.toNat < 128) (k : Nat) : At (utf8 t) (utf8 s) k ↔ At t s k := by
  have l := utf8_ascii_length h
  unfold At
  have e : (utf8 s).drop k = utf8 (s.drop k) := by
    rcases Nat.le_total k s.length with hk | hk
    · have := utf8_cut (s := s) hk (Nat.le_refl _) (by simpa using h)
      rwa [List.take_of_length_le (by omega), List.take_of_length_le (by omega)] at this
    · rw [List.drop_of_length_le (by omega), List.drop_of_length_le hk]; rfl
  rw [e, utf8_prefix]

theorem nthPos_ascii {s t : List Char} (h : ∀ c ∈ s, c.toNat < 128) (p : Nat) (occ r : Int) :
    NthPos (utf8 s) (utf8 t) p occ r ↔ NthPos s t p occ r := by
  have e : ∀ a b, occurrences (utf8 t) (utf8 s) a b = occurrences t s a b := fun a b =>
    List.countP_congr fun j _ => by simp [at_ascii h]
  unfold NthPos
  simp only [e, at_ascii h, utf8_ascii_length h]

/-- **C63** INSTR of an ASCII text from a position before the last character. -/
theorem C63_instr_ascii_partial (s t : List Char) (h : ∀ c ∈ s, c.toNat < 128) (ht : t ≠ []) (p : Nat) (occ : Int) (h1 : 1 ≤ p)
    (h2 : p < s.length) (h3 : 1 ≤ occ) :
    ∃ r, instr (.str s) (.str t) (some p) (some occ) = .ok (.int r) ∧ NthPos s t p occ r := by
  have hu : utf8 t ≠ [] := fun e => ht (List.length_eq_zero_iff.1 (by have := utf8_length_le t; rw [e] at this; simpa using this))
  obtain ⟨r, hr, hn⟩ := C63_instr_bytes_partial (utf8 s) (utf8 t) hu p occ h1 (by rw [utf8_ascii_length h]; exact h2) h3
  refine ⟨r, ?_, (nthPos_ascii h p occ r).1 hn⟩
  simp only [instr, Option.getD_some]
  rw [hr, Res.bind'_ok]

/-- INSTR('éa', 'a', 1) is 3. -/
theorem C63_instr_not_ascii : instr (.str ['é', 'a']) (.str ['a']) (some 1) none = .ok (.int 3) ∧ ¬ NthPos ['é', 'a'] ['a'] 1 1 3 := by
  refine ⟨by rfl, ?_⟩
  rintro (⟨h, -⟩ | ⟨k, hk, -, ha, -⟩)
  · cases h
  · have : k = 2 := by omega
    subst this
    exact absurd ha (by decide)

/-- **C63** INSTR from the last position or beyond is an error. -/
theorem C63_instr_last (s t : List UInt8) (p : Nat) (occ : Int) (h : s.length ≤ p) : instrBytes s t p occ = .err := by
  unfold instrBytes
  split
  · rfl
  · split
    · rfl
    · simp only [Int.natAbs_natCast]
      rw [if_pos (by omega)]

/-- Counting from the end is wrong: INSTR('helloooo', 'oo', -1) must be 7. -/
theorem C63_instr_negative : instr (.str ['h','e','l','l','o','o','o','o']) (.str ['o','o']) (some (-1)) none = .ok (.int 3) := by
  rfl

example : instr (.str ['b','a','n','a','n','a']) (.str ['a','n']) (some 1) (some 2) = .ok (.int 4) := by rfl

end Verif.Strings
