import Verif.Spec.NamePath

namespace Verif.NamePath
open Spec

theorem splitDot_ne_nil (s : List Char) : splitDot s ≠ [] := by
  cases s with
  | nil => simp [splitDot]
  | cons c cs =>
    simp only [splitDot]
    split
    · simp
    · split <;> simp

theorem splitDot_noDot (s : List Char) : ∀ c ∈ splitDot s, '.' ∉ c := by
  induction s with
  | nil => simp [splitDot]
  | cons x xs ih =>
    simp only [splitDot]
    split
    · intro c hc
      rcases List.mem_cons.1 hc with h | h
      · simp [h]
      · exact ih c h
    · rename_i hx
      split
      · rename_i h; exact absurd h (splitDot_ne_nil xs)
      · rename_i h t heq
        rw [heq] at ih
        intro c hc
        rcases List.mem_cons.1 hc with h' | h'
        · subst h'
          simp only [List.mem_cons, not_or]
          exact ⟨fun h => hx h.symm, ih h (List.mem_cons_self ..)⟩
        · exact ih c (List.mem_cons_of_mem _ h')

theorem dotted_cons (c : Comp) {cs : Path} (h : cs ≠ []) : dotted (c :: cs) = c ++ '.' :: dotted cs := by
  cases cs with
  | nil => exact absurd rfl h
  | cons => rfl

theorem dotted_append {a b : Path} (ha : a ≠ []) (hb : b ≠ []) :
    dotted (a ++ b) = dotted a ++ '.' :: dotted b := by
  induction a with
  | nil => exact absurd rfl ha
  | cons x xs ih =>
    cases xs with
    | nil => simp [dotted_cons x hb, dotted]
    | cons y ys =>
      have := ih (by simp)
      rw [List.cons_append, dotted_cons x (by simp), this, dotted_cons x (by simp)]
      simp

theorem dotted_splitDot (s : List Char) : dotted (splitDot s) = s := by
  induction s with
  | nil => simp [splitDot, dotted]
  | cons x xs ih =>
    simp only [splitDot]
    split
    · rename_i hx
      rw [dotted_cons _ (splitDot_ne_nil xs), ih, hx]; rfl
    · split
      · rename_i h; exact absurd h (splitDot_ne_nil xs)
      · rename_i h t heq
        rw [heq] at ih
        cases t with
        | nil => simpa [dotted] using ih
        | cons y ys =>
          rw [dotted_cons _ (by simp)] at ih ⊢
          simp [← ih]

theorem normalizePath_expands (ps : Path) : Expands ps (normalizePath ps) := by
  induction ps with
  | nil => simp [Expands, normalizePath, dotted]
  | cons p ps ih =>
    obtain ⟨h1, h2, h3⟩ := ih
    have hn : normalizePath (p :: ps) = splitDot p ++ normalizePath ps := by simp [normalizePath]
    refine ⟨?_, ?_, ?_⟩
    · intro c hc
      rw [hn] at hc
      rcases List.mem_append.1 hc with h | h
      · exact splitDot_noDot p c h
      · exact h1 c h
    · rw [hn]
      by_cases hp : ps = []
      · subst hp; simp [normalizePath, dotted_splitDot, dotted]
      · have : normalizePath ps ≠ [] := fun h => hp (h3.2 h)
        rw [dotted_append (splitDot_ne_nil p) this, dotted_splitDot, h2, dotted_cons _ hp]
    · rw [hn]; simp [splitDot_ne_nil]

theorem sep_split_unique {sep : Char} : ∀ {a b x y : List Char}, sep ∉ a → sep ∉ b →
    a ++ sep :: x = b ++ sep :: y → a = b ∧ x = y
  | [], [], x, y, _, _, h => by simpa using h
  | [], b :: bs, x, y, _, hb, h => by simp at h; simp [h.1] at hb
  | a :: as, [], x, y, ha, _, h => by simp at h; simp [h.1] at ha
  | a :: as, b :: bs, x, y, ha, hb, h => by
    simp at h ha hb
    have := sep_split_unique ha.2 hb.2 h.2
    simp [h.1, this]

theorem sep_absent {sep : Char} {a b : List Char} {y : List Char} (ha : sep ∉ a) : a ≠ b ++ sep :: y := by
  intro h; apply ha; simp [h]

/-- Expansion is unique: the two conditions of `Expands` pin the result down. -/
theorem expands_unique {ps qs qs' : Path} (h : Expands ps qs) (h' : Expands ps qs') : qs = qs' := by
  obtain ⟨h1, h2, h3⟩ := h
  obtain ⟨g1, g2, g3⟩ := h'
  have hd : dotted qs = dotted qs' := by rw [h2, g2]
  have hnil : qs = [] ↔ qs' = [] := by rw [← h3, g3]
  clear h2 h3 g2 g3
  induction qs generalizing qs' with
  | nil => exact (hnil.1 rfl).symm
  | cons x xs ih =>
    cases qs' with
    | nil => simp at hnil
    | cons y ys =>
      have hx := h1 x (List.mem_cons_self ..)
      have hy := g1 y (List.mem_cons_self ..)
      by_cases hxs : xs = [] <;> by_cases hys : ys = []
      · subst hxs hys; simpa [dotted] using hd
      · subst hxs; rw [dotted_cons y hys] at hd; exact absurd hd (sep_absent hx)
      · subst hys; rw [dotted_cons x hxs] at hd; exact absurd hd.symm (sep_absent hy)
      · rw [dotted_cons x hxs, dotted_cons y hys] at hd
        obtain ⟨rfl, hd'⟩ := sep_split_unique hx hy hd
        rw [ih (fun c hc => h1 c (List.mem_cons_of_mem _ hc)) (fun c hc => g1 c (List.mem_cons_of_mem _ hc)) hd'
          (by simp [hxs, hys])]

theorem splitDot_of_noDot {s : List Char} (h : '.' ∉ s) : splitDot s = [s] := by
  induction s with
  | nil => rfl
  | cons x xs ih =>
    simp at h
    have hx : x ≠ '.' := fun e => h.1 e.symm
    simp [splitDot, hx, ih h.2]

theorem normalizePath_of_noDot {ps : Path} (h : ∀ c ∈ ps, '.' ∉ c) : normalizePath ps = ps := by
  induction ps with
  | nil => rfl
  | cons p ps ih =>
    have : normalizePath (p :: ps) = splitDot p ++ normalizePath ps := by simp [normalizePath]
    rw [this, splitDot_of_noDot (h p (List.mem_cons_self ..)), ih (fun c hc => h c (List.mem_cons_of_mem _ hc))]
    rfl

theorem mergeLoop_eq (path : Path) (m : Nat) (hm : m = 0) : ∀ (base merged : Path),
    mergeLoop path m merged base = merged ++ base.takeWhile (fun b => path.head? ≠ some b)
  | [], merged => by simp [mergeLoop]
  | b :: bs, merged => by
    simp only [mergeLoop]
    by_cases h : path.head? = some b
    · simp [h]
    · rw [if_neg h, if_neg (by omega), mergeLoop_eq path m hm bs]
      simp [h]

theorem mergeLoop_eq' (path : Path) (m : Nat) (hm : 0 < m) : ∀ (base merged : Path),
    mergeLoop path m merged base
      = merged ++ (base.takeWhile (fun b => path.head? ≠ some b)).take (m - (merged.length + path.length))
  | [], merged => by simp [mergeLoop]
  | b :: bs, merged => by
    simp only [mergeLoop]
    by_cases h : path.head? = some b
    · simp [h]
    · rw [if_neg h]
      by_cases h2 : m ≤ merged.length + path.length
      · rw [if_pos ⟨hm, h2⟩]
        have : m - (merged.length + path.length) = 0 := by omega
        simp [this]
      · rw [if_neg (by omega), mergeLoop_eq' path m hm bs]
        have e : m - (merged.length + path.length) = (m - ((merged ++ [b]).length + path.length)) + 1 := by
          simp; omega
        rw [e]; simp [h]

end Verif.NamePath
