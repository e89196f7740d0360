import Verif.Model.Strings

/-! # C60: SPLIT and ARRAY_TO_STRING; C87: REPLACE -/

namespace Verif.Strings

open Go Val

theorem elems_str (t : Option (List Char)) : ∀ ps : List (List Char), elems t (ps.map .str) = ps
  | [] => rfl
  | p :: ps => by simp [elems, elems_str t ps]

/-- **C60** SPLIT then ARRAY_TO_STRING with the same non-empty delimiter gives the string back, and no piece
contains the delimiter. -/
theorem C60_split (s d : List Char) (hd : d ≠ []) : ∃ ps : List (List Char),
    splitV (.str s) (some (.str d)) = .ok (.arr (ps.map .str)) ∧
    (∀ t, arrayToString (.arr (ps.map .str)) d t = .ok (.str s)) ∧
    ∀ p ∈ ps, ¬ ∃ a b, p = a ++ d ++ b := by
  refine ⟨split s d, rfl, fun t => ?_, ?_⟩
  · simp only [arrayToString, elems_str, join_split hd]
  · rintro p hp ⟨a, b, e⟩
    refine split_pieces hd s p hp a.length ?_
    rw [e]
    unfold At
    rw [List.append_assoc, List.drop_left' rfl]
    exact List.prefix_append d b

/-- **C60** SPLIT without a delimiter splits at commas. -/
theorem C60_comma (s : List Char) : splitV (.str s) none = splitV (.str s) (some (.str [','])) := rfl

/-- **C60** the same for BYTES: concatenating the pieces with the delimiter gives the value back. -/
theorem C60_split_bytes (s d : List UInt8) (hd : d ≠ []) : ∃ ps : List (List UInt8),
    splitV (.bytes s) (some (.bytes d)) = .ok (.arr (ps.map .bytes)) ∧ join d ps = s ∧
    ∀ p ∈ ps, ¬ ∃ a b, p = a ++ d ++ b := by
  refine ⟨split s d, by rw [splitV, splitBytes, if_neg hd], join_split hd s, ?_⟩
  rintro p hp ⟨a, b, e⟩
  refine split_pieces hd s p hp a.length ?_
  rw [e]
  unfold At
  rw [List.append_assoc, List.drop_left' rfl]
  exact List.prefix_append d b

/-- **C60** with an empty delimiter the pieces are the characters. -/
theorem C60_empty (s : List Char) : splitV (.str s) (some (.str [])) = .ok (.arr (s.map fun c => .str [c])) := by
  simp [splitV, split]

/-- **C60** conversely: joining pieces that do not contain the delimiter's character and splitting gives them
back. -/
theorem C60_join_split (ps : List (List Char)) (d : Char) (hne : ps ≠ []) (h : ∀ p ∈ ps, d ∉ p) :
    splitV (.str (join [d] ps)) (some (.str [d])) = .ok (.arr (ps.map .str)) := by
  simp only [splitV]
  congr 3
  induction ps with
  | nil => exact absurd rfl hne
  | cons p ps ih =>
    have hp := h p List.mem_cons_self
    have noAt : ∀ j, ¬ At [d] p j := by
      intro j hj
      obtain ⟨t, ht⟩ := hj
      exact hp (List.mem_of_mem_drop (i := j) (by rw [← ht]; simp))
    cases hps : ps with
    | nil =>
      rw [split_eq (by simp)]
      simp only [join, index_eq_none noAt]
    | cons q qs =>
      have hq : ps ≠ [] := by simp [hps]
      rw [join_cons [d] p (by simp), split_eq (by simp)]
      have hi : index [d] (p ++ [d] ++ join [d] (q :: qs)) = some p.length := by
        apply index_eq_some
        · simp
        · unfold At
          rw [List.append_assoc, List.drop_left' rfl]
          exact List.prefix_append _ _
        · intro j hj hat
          obtain ⟨t, ht⟩ := hat
          have : (p ++ [d] ++ join [d] (q :: qs))[j]? = some d := by
            have := congrArg (fun l => l[0]?) ht
            simp only [List.getElem?_drop] at this
            simpa using this.symm
          rw [List.append_assoc, List.getElem?_append_left hj] at this
          exact hp (List.mem_of_getElem? this)
      rw [hi]
      simp only
      rw [List.append_assoc, List.take_left' rfl, ← List.append_assoc, List.drop_left' (by simp)]
      rw [← hps, ih hq fun p hp => h p (List.mem_cons_of_mem _ hp)]

example : splitV (.str ['a',',','b']) none = .ok (.arr [.str ['a'], .str ['b']]) := by rfl

/-! ### C87 -/

/-- `Replaced f t s r`: `r` is `s` with every occurrence of `f`, taken from left to right without overlap,
replaced by `t`. -/
inductive Replaced {α} (f t : List α) : List α → List α → Prop
  | none {s} : (¬ ∃ a b, s = a ++ f ++ b) → Replaced f t s s
  | one {p s r} : (∀ a b, p ++ f ++ s = a ++ f ++ b → p.length ≤ a.length) →
      Replaced f t s r → Replaced f t (p ++ f ++ s) (p ++ t ++ r)

/-- Full C87: REPLACE is the left-to-right replacement, and nothing is replaced for an empty text. -/
def C87_full : Prop :=
  (∀ s f t : List Char, f ≠ [] → ∃ r, replaceV (.str s) (.str f) (.str t) = .ok (.str r) ∧ Replaced f t s r) ∧
  (∀ s f t : List UInt8, f ≠ [] → ∃ r, replaceV (.bytes s) (.bytes f) (.bytes t) = .ok (.bytes r) ∧ Replaced f t s r) ∧
  (∀ s t : List Char, replaceV (.str s) (.str []) (.str t) = .ok (.str s)) ∧
  (∀ s t : List UInt8, replaceV (.bytes s) (.bytes []) (.bytes t) = .ok (.bytes s))

theorem split_ne {α} [DecidableEq α] {d : List α} (hd : d ≠ []) (s : List α) : split s d ≠ [] := by
  unfold split; rw [if_neg hd]; exact splitAux_ne d _ s

theorem replaceAll_spec {α} [DecidableEq α] {f : List α} (hf : f ≠ []) (t : List α) :
    ∀ (n : Nat) (s : List α), s.length ≤ n → Replaced f t s (replaceAll s f t) := by
  have fl : 0 < f.length := List.length_pos_iff.mpr hf
  intro n
  induction n with
  | zero =>
    intro s h
    have : s = [] := List.eq_nil_of_length_eq_zero (by omega)
    subst this
    have : replaceAll [] f t = [] := by
      unfold replaceAll; rw [if_neg hf, split_eq hf]; simp [index, hf, join]
    rw [this]
    refine .none ?_
    rintro ⟨a, b, e⟩
    have := congrArg List.length e
    simp at this
    omega
  | succ n ih =>
    intro s h
    unfold replaceAll; rw [if_neg hf, split_eq hf]
    cases hk : index f s with
    | none =>
      simp only [join]
      refine .none ?_
      rintro ⟨a, b, e⟩
      refine index_none hk a.length ?_
      rw [e]
      unfold At
      rw [List.append_assoc, List.drop_left' rfl]
      exact List.prefix_append f b
    | some k =>
      obtain ⟨h1, h2, h3⟩ := index_some hk
      have e := at_split h1 h2
      simp only
      rw [join_cons _ _ (split_ne hf _)]
      have ih := ih (s.drop (k + f.length)) (by simp; omega)
      unfold replaceAll at ih
      rw [if_neg hf] at ih
      have := Replaced.one (p := s.take k) (t := t) (f := f) ?_ ih
      · rw [e] at this; exact this
      · intro a b e'
        rw [e] at e'
        refine Decidable.byContradiction fun hlt => ?_
        refine h3 a.length (by simp at hlt; omega) ?_
        rw [e']
        unfold At
        rw [List.append_assoc, List.drop_left' rfl]
        exact List.prefix_append f b

/-- **C87** REPLACE of a text that is not empty. -/
theorem C87_partial (s f t : List Char) (bs bf bt : List UInt8) (hf : f ≠ []) (hb : bf ≠ []) :
    (∃ r, replaceV (.str s) (.str f) (.str t) = .ok (.str r) ∧ Replaced f t s r) ∧
    (∃ r, replaceV (.bytes bs) (.bytes bf) (.bytes bt) = .ok (.bytes r) ∧ Replaced bf bt bs r) :=
  ⟨⟨_, rfl, replaceAll_spec hf t _ s (Nat.le_refl _)⟩, ⟨_, by rw [replaceV, replaceBytes, if_neg hb], replaceAll_spec hb bt _ bs (Nat.le_refl _)⟩⟩

/-- **C87** an empty text to replace: the value comes back unchanged only if the replacement is empty. -/
theorem C87_empty_partial (s t : List Char) :
    replaceV (.str s) (.str []) (.str t) = .ok (.str s) ↔ t = [] := by
  simp only [replaceV, replaceAll, if_pos, Res.ok.injEq, Val.str.injEq]
  constructor
  · intro h
    have hlen : ∀ s : List Char, s.length ≤ (s.flatMap fun c => c :: t).length := by
      intro s
      induction s with
      | nil => simp
      | cons c s ih => simp only [List.flatMap_cons, List.length_append, List.length_cons]; omega
    have := congrArg List.length h
    have h2 := hlen s
    rw [List.length_append] at this
    exact List.eq_nil_of_length_eq_zero (by omega)
  · rintro rfl
    simp

theorem afterRunes_length (t : List UInt8) : ∀ n s, s.length ≤ (afterRunes t n s).length
  | 0, _ => Nat.le_refl _
  | n + 1, [] => Nat.zero_le _
  | n + 1, x :: s => by
    have ih := afterRunes_length t n ((x :: s).drop (decodeRune (x :: s)).2)
    rw [List.length_drop] at ih
    rw [afterRunes, List.length_append, List.length_append, List.length_take]
    · omega
    · simp

theorem afterRunes_nil : ∀ n s, afterRunes [] n s = s
  | 0, _ => rfl
  | n + 1, [] => rfl
  | n + 1, x :: s => by
    rw [afterRunes, afterRunes_nil n, List.nil_append, List.take_append_drop]
    simp

/-- **C87** the same for BYTES. -/
theorem C87_empty_bytes_partial (s t : List UInt8) :
    replaceV (.bytes s) (.bytes []) (.bytes t) = .ok (.bytes s) ↔ t = [] := by
  simp only [replaceV, replaceBytes, if_pos, Res.ok.injEq, Val.bytes.injEq]
  constructor
  · intro h
    have := congrArg List.length h
    rw [List.length_append] at this
    have h2 := afterRunes_length t s.length s
    exact List.eq_nil_of_length_eq_zero (by omega)
  · rintro rfl
    rw [afterRunes_nil, List.nil_append]

/-- **C87** With an empty text to replace the replacement stands before, between and after the characters. -/
theorem C87_inserted (s t : List Char) : replaceV (.str s) (.str []) (.str t) = .ok (.str (t ++ s.flatMap fun c => c :: t)) := by
  simp only [replaceV, replaceAll, if_pos]

/-- REPLACE(b'\xc3\xa4\xff', b'', b'x') keeps the bytes of a character together. -/
example : replaceV (.bytes [0xc3, 0xa4, 0xff]) (.bytes []) (.bytes [0x78]) = .ok (.bytes [0x78, 0xc3, 0xa4, 0x78, 0xff, 0x78]) := by rfl

/-- REPLACE('ab', '', 'x') is 'xaxbx'. -/
theorem C87_full_false : ¬ C87_full := by
  intro h
  exact absurd ((C87_empty_partial ['a','b'] ['x']).mp (h.2.2.1 _ _)) (by simp)

example : replaceV (.str ['a','a','a','b']) (.str ['a','a']) (.str ['x']) = .ok (.str ['x','a','b']) := by rfl

/-! ### C93 -/

/-- An array of strings and NULLs. -/
def ofOptions (xs : List (Option (List Char))) : Val := .arr (xs.map fun | some s => .str s | none => .null)

/-- **C93** ARRAY_TO_STRING joins the elements in order; a NULL element is left out, or replaced by the text given for
NULLs. -/
theorem C93 (xs : List (Option (List Char))) (d : List Char) :
    arrayToString (ofOptions xs) d none = .ok (.str (join d (xs.filterMap id))) ∧
    ∀ t, arrayToString (ofOptions xs) d (some t) = .ok (.str (join d (xs.map fun x => x.getD t))) := by
  have h1 : ∀ xs : List (Option (List Char)), elems none (xs.map fun | some s => .str s | none => .null) = xs.filterMap id := by
    intro xs
    induction xs with
    | nil => rfl
    | cons x xs ih => cases x <;> simp [elems, ih]
  have h2 : ∀ t, ∀ xs : List (Option (List Char)), elems (some t) (xs.map fun | some s => .str s | none => .null) = xs.map fun x => x.getD t := by
    intro t xs
    induction xs with
    | nil => rfl
    | cons x xs ih => cases x <;> simp [elems, ih]
  refine ⟨?_, fun t => ?_⟩
  · simp only [ofOptions, arrayToString, h1]
  · simp only [ofOptions, arrayToString, h2]

/-- The pieces joined are the elements with the delimiter between them. -/
theorem C93_join (d a b : List Char) (xs : List (List Char)) : join d [] = [] ∧ join d [a] = a ∧ join d (a :: b :: xs) = a ++ d ++ join d (b :: xs) :=
  ⟨rfl, rfl, by simp [join]⟩

example : arrayToString (ofOptions [some ['a'], none, some ['b']]) [','] none = .ok (.str ['a', ',', 'b']) ∧
    arrayToString (ofOptions [some ['a'], none, some ['b']]) [','] (some ['-']) = .ok (.str ['a', ',', '-', ',', 'b']) := ⟨rfl, rfl⟩

end Verif.Strings
