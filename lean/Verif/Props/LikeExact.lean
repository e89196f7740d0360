import Verif.Props.Like

/-! # C29: exactly what LIKE matches, and for which patterns it is always right -/

namespace Verif.Like

open Go

/-- What the code matches: `%` stands for any string without a line break, every other character for itself. -/
inductive CodeLikes : List Char → List Char → Prop where
  | nil : CodeLikes [] []
  | pct {p} (x : List Char) {y} : '\n' ∉ x → CodeLikes p y → CodeLikes ('%' :: p) (x ++ y)
  | lit {p} {c : Char} {s} : c ≠ '%' → CodeLikes p s → CodeLikes (c :: p) (c :: s)

/-- SQL LIKE with the escape character: a backslash makes the next character stand for itself. -/
inductive LikesE : List Char → List Char → Prop where
  | nil : LikesE [] []
  | pct {p} (x : List Char) {y} : LikesE p y → LikesE ('%' :: p) (x ++ y)
  | any {p} (c : Char) {s} : LikesE p s → LikesE ('_' :: p) (c :: s)
  | esc {p} (c : Char) {s} : LikesE p s → LikesE ('\\' :: c :: p) (c :: s)
  | lit {p} {c : Char} {s} : c ≠ '%' → c ≠ '_' → c ≠ '\\' → LikesE p s → LikesE (c :: p) (c :: s)

/-- Without escapes this is LIKE as before. -/
theorem likesE_iff {p s : List Char} (h : '\\' ∉ p) : LikesE p s ↔ Likes p s := by
  constructor
  · intro hl
    induction hl with
    | nil => exact .nil
    | pct x _ ih => exact .pct x (ih (fun hm => h (List.mem_cons_of_mem _ hm)))
    | any c _ ih => exact .any c (ih (fun hm => h (List.mem_cons_of_mem _ hm)))
    | esc c _ _ => exact absurd (by simp) h
    | lit h1 h2 _ _ ih => exact .lit h1 h2 (ih (fun hm => h (List.mem_cons_of_mem _ hm)))
  · intro hl
    induction hl with
    | nil => exact .nil
    | pct x _ ih => exact .pct x (ih (fun hm => h (List.mem_cons_of_mem _ hm)))
    | any c _ ih => exact .any c (ih (fun hm => h (List.mem_cons_of_mem _ hm)))
    | lit h1 h2 _ ih => exact .lit h1 h2 (fun e => h (by simp [e])) (ih (fun hm => h (List.mem_cons_of_mem _ hm)))

theorem starMatch_code (f : List Char → Bool) (s : List Char) :
    starMatch f s = true ↔ ∃ x y, s = x ++ y ∧ '\n' ∉ x ∧ f y = true := by
  induction s with
  | nil =>
    simp only [starMatch]
    constructor
    · intro h; exact ⟨[], [], rfl, by simp, h⟩
    · rintro ⟨x, y, h1, _, h2⟩
      exact (List.append_eq_nil_iff.mp h1.symm).2 ▸ h2
  | cons c s ih =>
    simp only [starMatch, Bool.or_eq_true, Bool.and_eq_true, decide_eq_true_eq, ih]
    constructor
    · rintro (h | ⟨hc, x, y, h1, h3, h2⟩)
      · exact ⟨[], c :: s, rfl, by simp, h⟩
      · exact ⟨c :: x, y, by simp [h1], by simp [h3, Ne.symm hc], h2⟩
    · rintro ⟨x, y, h1, h3, h2⟩
      cases x with
      | nil => left; rw [show c :: s = y from h1]; exact h2
      | cons d x =>
        simp only [List.cons_append, List.cons.injEq] at h1
        simp only [List.mem_cons, not_or] at h3
        right; exact ⟨fun h => h3.1 (by rw [← h1.1, h]), x, y, h1.2, h3.2, h2⟩

theorem matchRe_code (p s : List Char) : matchRe (items p) s = true ↔ CodeLikes p s := by
  induction p generalizing s with
  | nil =>
    simp only [items, List.map_nil, matchRe, List.isEmpty_iff]
    constructor
    · rintro rfl; exact .nil
    · intro h; cases h; rfl
  | cons c p ih =>
    by_cases hc : c = '%'
    · subst hc
      simp only [items, List.map_cons, if_true, matchRe]
      rw [starMatch_code]
      constructor
      · rintro ⟨x, y, rfl, hx, h⟩
        exact .pct x hx ((ih y).mp h)
      · intro h
        cases h with
        | pct x hx h => exact ⟨x, _, rfl, hx, (ih _).mpr h⟩
        | lit h _ => exact absurd rfl h
    · simp only [items, List.map_cons, if_neg hc, matchRe]
      cases s with
      | nil =>
        simp only [Bool.false_eq_true, false_iff]
        intro h
        generalize hp : c :: p = q, hz : ([] : List Char) = z at h
        cases h with
        | nil => cases hp
        | pct x _ h => cases hp; exact hc rfl
        | lit _ h => cases hz
      | cons d s =>
        simp only [Bool.and_eq_true, decide_eq_true_eq]
        constructor
        · rintro ⟨rfl, h⟩; exact .lit hc ((ih s).mp h)
        · intro h
          generalize hp : c :: p = q, hz : d :: s = z at h
          cases h with
          | nil => cases hp
          | pct x _ h => cases hp; exact absurd rfl hc
          | lit _ h => cases hp; cases hz; exact ⟨rfl, (ih s).mpr h⟩

/-- C29: what LIKE matches, for all patterns and texts. -/
theorem C29_exact (s p : List Char) : ∃ r, like s p = .ok r ∧ (r = true ↔ CodeLikes p s) :=
  ⟨_, by rw [like, parse_translate], matchRe_code p s⟩

/-- C29: without escapes, what LIKE matches it should match. -/
theorem C29_sound (s p : List Char) (he : '\\' ∉ p) (h : like s p = .ok true) : Likes p s := by
  obtain ⟨r, h1, h2⟩ := C29_exact s p
  rw [h] at h1
  cases h1
  have := h2.1 rfl
  clear h h2
  induction this with
  | nil => exact .nil
  | pct x _ _ ih => exact .pct x (ih (fun hm => he (List.mem_cons_of_mem _ hm)))
  | @lit p c s hc _ ih =>
    have := ih (fun hm => he (List.mem_cons_of_mem _ hm))
    by_cases hu : c = '_'
    · subst hu; exact .any '_' this
    · exact .lit hc hu this

/-- LIKE of the texts `s` with the pattern `p` is right. -/
def Right (p s : List Char) : Prop := ∃ r, like s p = .ok r ∧ (r = true ↔ LikesE p s)

theorem right_iff (p s : List Char) : Right p s ↔ (CodeLikes p s ↔ LikesE p s) := by
  obtain ⟨r, h1, h2⟩ := C29_exact s p
  unfold Right
  rw [h1]
  constructor
  · rintro ⟨r', h, h'⟩
    cases h
    rw [← h2, h']
  · intro h
    exact ⟨r, rfl, by rw [h2, h]⟩

/-- Other characters than `%` and line breaks occur in the text at least as often as in the pattern. -/
theorem code_count {p s : List Char} (h : CodeLikes p s) {c : Char} (hc : c ≠ '%') : p.count c ≤ s.count c := by
  induction h with
  | nil => simp
  | pct x _ _ ih =>
    rw [List.count_cons_of_ne (Ne.symm hc), List.count_append]
    omega
  | lit _ _ ih => simp only [List.count_cons]; omega

theorem code_lines {p s : List Char} (h : CodeLikes p s) : s.count '\n' = p.count '\n' := by
  induction h with
  | nil => rfl
  | pct x hx _ ih =>
    rw [List.count_append, List.count_cons_of_ne (by decide), ih, List.count_eq_zero.2 hx]
    omega
  | lit _ _ ih => simp only [List.count_cons, ih]

/-- A short text the pattern matches; none if the pattern ends in an escape character. -/
def wit : List Char → Option (List Char)
  | [] => some []
  | ['\\'] => none
  | '\\' :: c :: p => (wit p).map (c :: ·)
  | c :: p => if c = '%' then wit p else if c = '_' then (wit p).map ('a' :: ·) else (wit p).map (c :: ·)

theorem wit_likes (p : List Char) : (∀ s, wit p = some s → LikesE p s) ∧ (wit p = none → ∀ s, ¬ LikesE p s) := by
  fun_induction wit p with
  | case1 => exact ⟨by intro s h; cases h; exact .nil, by simp⟩
  | case2 =>
    refine ⟨by simp, fun _ s h => ?_⟩
    generalize hp : ['\\'] = q at h
    cases h with
    | nil => cases hp
    | pct x _ => cases hp
    | any c _ => cases hp
    | esc c _ => cases hp
    | lit _ _ h _ => cases hp; exact h rfl
  | case3 c p ih =>
    constructor
    · intro s h
      obtain ⟨t, ht, rfl⟩ := Option.map_eq_some_iff.1 h
      exact .esc c (ih.1 t ht)
    · intro h s hl
      rw [Option.map_eq_none_iff] at h
      generalize hp : '\\' :: c :: p = q at hl
      cases hl with
      | nil => cases hp
      | pct x _ => cases hp
      | any c _ => cases hp
      | esc c hl => cases hp; exact ih.2 h _ hl
      | lit _ _ h _ => cases hp; exact h rfl
  | case4 p h1 h2 ih =>
    constructor
    · intro s h
      exact .pct [] (ih.1 s h)
    · intro h s hl
      generalize hp : '%' :: p = q at hl
      cases hl with
      | nil => cases hp
      | pct x hl => cases hp; exact ih.2 h _ hl
      | any c _ => cases hp
      | esc c hl => cases hp
      | lit h _ _ _ => cases hp; exact h rfl
  | case5 p h1 h2 h3 ih =>
    constructor
    · intro s h
      obtain ⟨t, ht, rfl⟩ := Option.map_eq_some_iff.1 h
      exact .any 'a' (ih.1 t ht)
    · intro h s hl
      rw [Option.map_eq_none_iff] at h
      generalize hp : '_' :: p = q at hl
      cases hl with
      | nil => cases hp
      | pct x hl => cases hp
      | any c hl => cases hp; exact ih.2 h _ hl
      | esc c hl => cases hp
      | lit _ h _ _ => cases hp; exact h rfl
  | case6 c p h1 h2 h3 h4 ih =>
    have h5 : c ≠ '\\' := by
      rintro rfl
      cases p with
      | nil => exact h1 rfl rfl
      | cons d p => exact h2 d p rfl rfl
    constructor
    · intro s h
      obtain ⟨t, ht, rfl⟩ := Option.map_eq_some_iff.1 h
      exact .lit h3 h4 h5 (ih.1 t ht)
    · intro h s hl
      rw [Option.map_eq_none_iff] at h
      generalize hp : c :: p = q at hl
      cases hl with
      | nil => cases hp
      | pct x hl => cases hp; exact h3 rfl
      | any c hl => cases hp; exact h4 rfl
      | esc c hl => cases hp; exact h5 rfl
      | lit _ _ _ hl => cases hp; exact ih.2 h _ hl

theorem wit_count (p : List Char) : ∀ s, wit p = some s → ('\\' ∈ p → s.count '\\' < p.count '\\') ∧ s.count '\\' ≤ p.count '\\' ∧ ('\\' ∉ p → s.count '_' = 0) := by
  fun_induction wit p with
  | case1 => intro s h; cases h; simp
  | case2 => intro s h; cases h
  | case3 c p ih =>
    intro s h
    obtain ⟨t, ht, rfl⟩ := Option.map_eq_some_iff.1 h
    have := (ih t ht).2.1
    simp only [List.count_cons]
    refine ⟨fun _ => ?_, ?_, by simp⟩
    · simp; omega
    · simp; omega
  | case4 p h1 h2 ih =>
    intro s h
    have := ih s h
    refine ⟨?_, ?_, ?_⟩
    · intro hm
      have := this.1 (by simpa using hm)
      simpa using this
    · simpa using this.2.1
    · intro hm
      exact this.2.2 (by simpa using hm)
  | case5 p h1 h2 h3 ih =>
    intro s h
    obtain ⟨t, ht, rfl⟩ := Option.map_eq_some_iff.1 h
    have := ih t ht
    refine ⟨?_, ?_, ?_⟩
    · intro hm
      have := this.1 (by simpa using hm)
      simpa using this
    · simpa using this.2.1
    · intro hm
      simpa using this.2.2 (by simpa using hm)
  | case6 c p h1 h2 h3 h4 ih =>
    have h5 : c ≠ '\\' := by
      rintro rfl
      cases p with
      | nil => exact h1 rfl rfl
      | cons d p => exact h2 d p rfl rfl
    intro s h
    obtain ⟨t, ht, rfl⟩ := Option.map_eq_some_iff.1 h
    have := ih t ht
    refine ⟨?_, ?_, ?_⟩
    · intro hm
      have := this.1 (by simpa [Ne.symm h5] using hm)
      simpa [List.count_cons, h5] using this
    · simpa [List.count_cons, h5] using this.2.1
    · intro hm
      have := this.2.2 (by simpa [Ne.symm h5] using hm)
      simpa [List.count_cons, h4] using this

/-- The pattern without `%`, which the code always matches. -/
theorem code_self : ∀ p : List Char, ∃ s, CodeLikes p s
  | [] => ⟨[], .nil⟩
  | c :: p => by
    obtain ⟨s, h⟩ := code_self p
    by_cases hc : c = '%'
    · subst hc; exact ⟨_, .pct [] (by simp) h⟩
    · exact ⟨_, .lit hc h⟩

/-- `%` filled with line breaks. -/
theorem likes_lines : ∀ p : List Char, '\\' ∉ p → ∃ s, LikesE p s ∧ s.count '\n' = p.count '\n' + p.count '%'
  | [], _ => ⟨[], .nil, rfl⟩
  | c :: p, h => by
    simp only [List.mem_cons, not_or] at h
    obtain ⟨s, h1, h2⟩ := likes_lines p h.2
    by_cases hc : c = '%'
    · subst hc
      refine ⟨['\n'] ++ s, .pct _ h1, ?_⟩
      simp [h2]; omega
    · by_cases hu : c = '_'
      · subst hu
        refine ⟨'a' :: s, .any _ h1, ?_⟩
        simp [h2]
      · refine ⟨c :: s, .lit hc hu (Ne.symm h.1) h1, ?_⟩
        simp [List.count_cons, h2, hc]; omega

theorem plain_iff {p s : List Char} (h1 : '%' ∉ p) (h2 : '_' ∉ p) (h3 : '\\' ∉ p) : (CodeLikes p s ↔ s = p) ∧ (LikesE p s ↔ s = p) := by
  induction p generalizing s with
  | nil =>
    refine ⟨⟨fun h => by cases h; rfl, fun h => h ▸ .nil⟩, ⟨fun h => by cases h; rfl, fun h => h ▸ .nil⟩⟩
  | cons c p ih =>
    simp only [List.mem_cons, not_or] at h1 h2 h3
    have ih := fun s => @ih s h1.2 h2.2 h3.2
    constructor
    · constructor
      · intro h
        cases h with
        | pct x _ h => exact absurd rfl h1.1
        | lit _ h => rw [(ih _).1.1 h]
      · rintro rfl
        exact .lit (Ne.symm h1.1) ((ih p).1.2 rfl)
    · constructor
      · intro h
        cases h with
        | pct x h => exact absurd rfl h1.1
        | any d h => exact absurd rfl h2.1
        | esc d h => exact absurd rfl h3.1
        | lit _ _ _ h => rw [(ih _).2.1 h]
      · rintro rfl
        exact .lit (Ne.symm h1.1) (Ne.symm h2.1) (Ne.symm h3.1) ((ih p).2.2 rfl)

/-- C29: LIKE with a pattern is right for all texts exactly if the pattern has no `%`, no `_` and no escape. -/
theorem C29_pattern_iff (p : List Char) : (∀ s, Right p s) ↔ '%' ∉ p ∧ '_' ∉ p ∧ '\\' ∉ p := by
  simp only [right_iff]
  constructor
  · intro h
    have he : '\\' ∉ p := by
      intro hm
      cases hw : wit p with
      | none =>
        obtain ⟨s, hs⟩ := code_self p
        exact (wit_likes p).2 hw s ((h s).1 hs)
      | some s =>
        have h1 := (wit_count p s hw).1 hm
        have h2 := code_count ((h s).2 ((wit_likes p).1 s hw)) (c := '\\') (by decide)
        omega
    refine ⟨?_, ?_, he⟩
    · intro hm
      obtain ⟨s, h1, h2⟩ := likes_lines p he
      have h3 := code_lines ((h s).2 h1)
      have := List.count_pos_iff.2 hm
      omega
    · intro hm
      cases hw : wit p with
      | none =>
        obtain ⟨s, hs⟩ := code_self p
        exact (wit_likes p).2 hw s ((h s).1 hs)
      | some s =>
        have h1 := (wit_count p s hw).2.2 he
        have h2 := code_count ((h s).2 ((wit_likes p).1 s hw)) (c := '_') (by decide)
        have := List.count_pos_iff.2 hm
        omega
  · rintro ⟨h1, h2, h3⟩ s
    obtain ⟨a, b⟩ := plain_iff (s := s) h1 h2 h3
    rw [a, b]

theorem wit_lines {p : List Char} (h : '\n' ∉ p) : ∀ s, wit p = some s → '\n' ∉ s := by
  fun_induction wit p with
  | case1 => intro s h; cases h; simp
  | case2 => intro s h; cases h
  | case3 c p ih =>
    intro s hs
    obtain ⟨t, ht, rfl⟩ := Option.map_eq_some_iff.1 hs
    simp only [List.mem_cons, not_or] at h ⊢
    exact ⟨h.2.1, ih h.2.2 t ht⟩
  | case4 p h1 h2 ih =>
    simp only [List.mem_cons, not_or] at h
    exact ih h.2
  | case5 p h1 h2 h3 ih =>
    intro s hs
    obtain ⟨t, ht, rfl⟩ := Option.map_eq_some_iff.1 hs
    simp only [List.mem_cons, not_or] at h ⊢
    exact ⟨by decide, ih h.2 t ht⟩
  | case6 c p h1 h2 h3 h4 ih =>
    intro s hs
    obtain ⟨t, ht, rfl⟩ := Option.map_eq_some_iff.1 hs
    simp only [List.mem_cons, not_or] at h ⊢
    exact ⟨h.1, ih h.2 t ht⟩

theorem code_self_lines : ∀ p : List Char, '\n' ∉ p → ∃ s, CodeLikes p s ∧ '\n' ∉ s
  | [], _ => ⟨[], .nil, by simp⟩
  | c :: p, hn => by
    simp only [List.mem_cons, not_or] at hn
    obtain ⟨s, h, h'⟩ := code_self_lines p hn.2
    by_cases hc : c = '%'
    · subst hc; exact ⟨_, .pct [] (by simp) h, h'⟩
    · exact ⟨_, .lit hc h, by simp [h', hn.1]⟩

/-- C29: a pattern of one line is right for all texts of one line exactly if it has no `_` and no escape. -/
theorem C29_line_iff (p : List Char) (hp : '\n' ∉ p) : (∀ s, '\n' ∉ s → Right p s) ↔ '_' ∉ p ∧ '\\' ∉ p := by
  constructor
  · intro h
    simp only [right_iff] at h
    have he : '\\' ∉ p := by
      intro hm
      cases hw : wit p with
      | none =>
        obtain ⟨s, hs, hl⟩ := code_self_lines p hp
        exact (wit_likes p).2 hw s ((h s hl).1 hs)
      | some s =>
        have h1 := (wit_count p s hw).1 hm
        have h2 := code_count ((h s (wit_lines hp s hw)).2 ((wit_likes p).1 s hw)) (c := '\\') (by decide)
        omega
    refine ⟨?_, he⟩
    intro hm
    cases hw : wit p with
    | none =>
      obtain ⟨s, hs, hl⟩ := code_self_lines p hp
      exact (wit_likes p).2 hw s ((h s hl).1 hs)
    | some s =>
      have h1 := (wit_count p s hw).2.2 he
      have h2 := code_count ((h s (wit_lines hp s hw)).2 ((wit_likes p).1 s hw)) (c := '_') (by decide)
      have := List.count_pos_iff.2 hm
      omega
  · rintro ⟨h1, h2⟩ s hs
    obtain ⟨r, hr, hr'⟩ := C29_like_partial s p h1 hs
    exact ⟨r, hr, by rw [likesE_iff h2]; exact hr'⟩

/-- Cases: `50\%` does not match `50%`; `a%c` matches `abc`. -/
example : like ['5', '%'] ['5', '\\', '%'] = .ok false ∧ LikesE ['5', '\\', '%'] ['5', '%'] ∧ like ['a', 'b', 'c'] ['a', '%', 'c'] = .ok true :=
  ⟨by decide, .lit (by decide) (by decide) (by decide) (.esc '%' .nil), by decide⟩

end Verif.Like
