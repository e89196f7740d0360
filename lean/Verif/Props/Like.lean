import Verif.Model.Like

/-! # C29: LIKE -/

namespace Verif.Like

open Go

/-- SQL LIKE: `%` stands for any string, `_` for any one character, every other
character for itself. -/
inductive Likes : List Char → List Char → Prop where
  | nil : Likes [] []
  | pct {p} (x : List Char) {y} : Likes p y → Likes ('%' :: p) (x ++ y)
  | any {p} (c : Char) {s} : Likes p s → Likes ('_' :: p) (c :: s)
  | lit {p} {c : Char} {s} : c ≠ '%' → c ≠ '_' → Likes p s → Likes (c :: p) (c :: s)

/-- Full C29 (patterns without the escape character). -/
def C29_full : Prop := ∀ s p : List Char, '\\' ∉ p → ∃ r, like s p = .ok r ∧ (r = true ↔ Likes p s)

/-- `'a' LIKE '_'` is FALSE. -/
theorem C29_full_false : ¬ C29_full := by
  intro h
  obtain ⟨r, h1, h2⟩ := h ['a'] ['_'] (by decide)
  have : like ['a'] ['_'] = .ok false := by decide
  rw [this] at h1
  cases h1
  exact absurd (h2.mpr (.any 'a' .nil)) (by decide)

/-- `%` does not match a line break. -/
theorem C29_newline : like ['\n'] ['%'] = .ok false ∧ Likes ['%'] ['\n'] := by
  refine ⟨by decide, ?_⟩
  simpa using Likes.pct ['\n'] .nil

/-- The items a pattern is translated to. -/
def items (p : List Char) : List ReItem := p.map fun c => if c = '%' then .star else .lit c

theorem parse_translate (p : List Char) : parseRe (replacePct (quoteMeta p)) = some (items p) := by
  induction p with
  | nil => rfl
  | cons c p ih =>
    have hq : quoteMeta (c :: p) = (if isMeta c then ['\\', c] else [c]) ++ quoteMeta p := rfl
    have happ : ∀ x y, replacePct (x ++ y) = replacePct x ++ replacePct y := by intro x y; simp [replacePct]
    rw [hq, happ]
    cases hm : isMeta c
    · by_cases hc : c = '%'
      · subst hc
        simp [replacePct, items] at ih ⊢
        simp [parseRe, ih]
      · have h1 : c ≠ '\\' := by rintro rfl; simp [isMeta] at hm
        have h2 : c ≠ '.' := by rintro rfl; simp [isMeta] at hm
        simp only [replacePct, items] at ih
        simp [replacePct, items, hc]
        unfold parseRe; simp [h1, h2, hm, ih]
    · have hc : c ≠ '%' := by rintro rfl; revert hm; decide
      simp only [replacePct, items] at ih
      simp [replacePct, items, hc]
      simp [parseRe, ih]

theorem starMatch_iff (f : List Char → Bool) (s : List Char) (hs : '\n' ∉ s) :
    starMatch f s = true ↔ ∃ x y, s = x ++ y ∧ f y = true := by
  induction s with
  | nil =>
    simp only [starMatch]
    constructor
    · intro h; exact ⟨[], [], rfl, h⟩
    · rintro ⟨x, y, h1, h2⟩
      have := (List.append_eq_nil_iff.mp h1.symm).2
      exact this ▸ h2
  | cons c s ih =>
    simp only [List.mem_cons, not_or] at hs
    simp only [starMatch, Bool.or_eq_true, Bool.and_eq_true, decide_eq_true_eq, ih hs.2]
    constructor
    · rintro (h | ⟨_, x, y, h1, h2⟩)
      · exact ⟨[], c :: s, rfl, h⟩
      · exact ⟨c :: x, y, by simp [h1], h2⟩
    · rintro ⟨x, y, h1, h2⟩
      cases x with
      | nil => left; rw [show c :: s = y from h1]; exact h2
      | cons d x =>
        simp only [List.cons_append, List.cons.injEq] at h1
        right; exact ⟨fun h => hs.1 h.symm, x, y, h1.2, h2⟩

theorem matchRe_iff (p s : List Char) (hu : '_' ∉ p) (hs : '\n' ∉ s) : matchRe (items p) s = true ↔ Likes p s := by
  induction p generalizing s with
  | nil =>
    simp only [items, List.map_nil, matchRe, List.isEmpty_iff]
    constructor
    · rintro rfl; exact .nil
    · intro h; cases h; rfl
  | cons c p ih =>
    simp only [List.mem_cons, not_or] at hu
    by_cases hc : c = '%'
    · subst hc
      simp only [items, List.map_cons, if_true, matchRe]
      rw [starMatch_iff _ _ hs]
      constructor
      · rintro ⟨x, y, rfl, h⟩
        have := (ih y hu.2 (fun h => hs (by simp [h]))).mp h
        exact .pct x this
      · intro h
        cases h with
        | pct x h => exact ⟨x, _, rfl, (ih _ hu.2 (fun h => hs (by simp [h]))).mpr h⟩
        | lit h _ _ => exact absurd rfl h
    · simp only [items, List.map_cons, if_neg hc, matchRe]
      cases s with
      | nil =>
        simp only [Bool.false_eq_true, false_iff]
        intro h
        generalize hp : c :: p = q, hz : ([] : List Char) = z at h
        cases h with
        | nil => cases hp
        | pct x h => cases hp; exact hc rfl
        | any d h => cases hz
        | lit _ _ h => cases hz
      | cons d s =>
        simp only [List.mem_cons, not_or] at hs
        simp only [Bool.and_eq_true, decide_eq_true_eq]
        constructor
        · rintro ⟨rfl, h⟩; exact .lit hc (fun h => hu.1 h.symm) ((ih s hu.2 hs.2).mp h)
        · intro h
          generalize hp : c :: p = q, hz : d :: s = z at h
          cases h with
          | nil => cases hp
          | pct x h => cases hp; exact absurd rfl hc
          | any d h => cases hp; exact absurd rfl hu.1
          | lit _ _ h => cases hp; cases hz; exact ⟨rfl, (ih s hu.2 hs.2).mpr h⟩

/-- **C29** for patterns without `_` and single-line texts.  Missing: `_` (taken
literally), `%` across line breaks, escapes. -/
theorem C29_like_partial (s p : List Char) (hu : '_' ∉ p) (hs : '\n' ∉ s) :
    ∃ r, like s p = .ok r ∧ (r = true ↔ Likes p s) :=
  ⟨_, by rw [like, parse_translate], matchRe_iff p s hu hs⟩

/-- LIKE never fails, whatever the pattern: all metacharacters are quoted. -/
theorem C29_total (s p : List Char) : ∃ r, like s p = .ok r := ⟨_, by rw [like, parse_translate]⟩

example : like ['a', '.', 'c'] ['a', '.', '%'] = .ok true ∧ like ['a', 'b', 'c'] ['a', '.', '%'] = .ok false := by decide

end Verif.Like
