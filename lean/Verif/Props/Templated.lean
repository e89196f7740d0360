import Verif.Model.Templated

/-!
# Functions with arguments of ANY TYPE

C233: which calls are accepted, and the type they are given.  C234: whether that is the type of what is computed.
-/

namespace Verif.Templated

/-- The arguments of a call have the declared types, where there are any. -/
def Fits (f : Fn) (us : List Ty) : Prop :=
  us.length = f.args.length ∧ ∀ (i : Nat) t, f.args[i]? = some (some t) → us[i]? = some t

/-- C233: a call with arguments for which the body has a type is accepted, and has the type declared with RETURNS or that of the body. -/
def C233_full : Prop := ∀ f s us r, create f = some s → Fits f us → f.body us = some r → s.Call us (f.returns.getD r)

/-- C234: what is computed for a call has the type the call has. -/
def C234_full : Prop := ∀ f s us r, create f = some s → s.Call us r → computed f us = some r

/-- `g` is the shape of the types the function is for: scalar types if the body has a type for one of those that are tried, array types if it
has only for arrays of them. -/
def Tried (f : Fn) (g : Base → Ty) : Prop :=
  (g = .one ∧ ∃ b ∈ inferTypes, f.body (f.at (.one b)) ≠ none) ∨
  (g = .arr ∧ (∀ b ∈ inferTypes, f.body (f.at (.one b)) = none) ∧ ∃ b ∈ inferTypes, f.body (f.at (.arr b)) ≠ none)

/-- The type of the body for the first type of this shape that fits. -/
def First (f : Fn) (g : Base → Ty) (r0 : Ty) : Prop :=
  ∃ l b l', inferTypes = l ++ b :: l' ∧ (∀ x ∈ l, f.body (f.at (g x)) = none) ∧ f.body (f.at (g b)) = some r0

/-- The body has this type for all types that are tried and fit. -/
def Common (f : Fn) (g : Base → Ty) (r0 : Ty) : Prop := ∀ b ∈ inferTypes, ∀ r, f.body (f.at (g b)) = some r → r = r0

theorem at_matches (f : Fn) (b t0 : Ty) (ht : none ∈ f.args) (us : List Ty) :
    matchAll b (f.args.map fun a => kindBy a (a.getD t0)) us = true ↔
      ∃ t, us = f.at t ∧ (if t0.isArray then ∃ x, b = .one x ∧ t = .arr x else t = b) := by
  have key : ∀ (as : List (Option Ty)) us, matchAll b (as.map fun a => kindBy a (a.getD t0)) us = true →
      ∀ t, (if t0.isArray then ∃ x, b = .one x ∧ t = .arr x else t = b) → us = as.map fun a => a.getD t := by
    intro as
    induction as with
    | nil => intro us h t _; cases us with
      | nil => rfl
      | cons => simp [matchAll] at h
    | cons a as ih =>
      intro us h t ht
      cases us with
      | nil => simp [matchAll] at h
      | cons u us =>
        simp only [List.map_cons, matchAll, Bool.and_eq_true] at h
        rw [List.map_cons, ← ih us h.2 t ht]
        congr 1
        cases a with
        | some v => simpa [kindBy, Kind.matches, eq_comm] using h.1
        | none =>
          have h1 := h.1
          simp only [kindBy, Option.getD_none] at h1 ⊢
          split at ht
          · rename_i ha
            obtain ⟨x, rfl, rfl⟩ := ht
            rw [if_pos ha] at h1
            simpa [Kind.matches] using h1
          · rename_i ha
            rw [if_neg ha] at h1
            rw [ht]
            simpa [Kind.matches] using h1
  have some_t : ∀ (as : List (Option Ty)) us, none ∈ as → matchAll b (as.map fun a => kindBy a (a.getD t0)) us = true →
      ∃ t, (if t0.isArray then ∃ x, b = .one x ∧ t = .arr x else t = b) := by
    intro as
    induction as with
    | nil => intro us h; simp at h
    | cons a as ih =>
      intro us hn h
      cases us with
      | nil => simp [matchAll] at h
      | cons u us =>
        simp only [List.map_cons, matchAll, Bool.and_eq_true] at h
        rcases List.mem_cons.1 hn with rfl | hn
        · have h1 := h.1
          simp only [kindBy, Option.getD_none] at h1
          split at h1
          · rename_i ha
            cases b with
            | one x => exact ⟨.arr x, by rw [if_pos ha]; exact ⟨x, rfl, rfl⟩⟩
            | arr x => simp [Kind.matches] at h1
          · rename_i ha
            exact ⟨b, by rw [if_neg ha]⟩
        · exact ih us hn h.2
  constructor
  · intro h
    obtain ⟨t, h1⟩ := some_t f.args us ht h
    exact ⟨t, key f.args us h t h1, h1⟩
  · rintro ⟨t, rfl, h⟩
    unfold Fn.at
    clear ht some_t key
    induction f.args with
    | nil => rfl
    | cons a as ih =>
      simp only [List.map_cons, matchAll, ih, Bool.and_true]
      cases a with
      | some v => simp [kindBy, Kind.matches]
      | none =>
        simp only [kindBy, Option.getD_none]
        split at h
        · rename_i ha
          obtain ⟨x, rfl, rfl⟩ := h
          rw [if_pos ha]
          simp [Kind.matches]
        · rename_i ha
          rw [if_neg ha, h]
          simp [Kind.matches]

/-- The types that are tried, by shape. -/
def tried (f : Fn) (g : Base → Ty) (bs : List Base) : List (Ty × Ty) := bs.filterMap fun b => (f.body (f.at (g b))).map fun r => (g b, r)

theorem infer_eq (f : Fn) : infer f = if tried f .one inferTypes ≠ [] then tried f .one inferTypes else tried f .arr inferTypes := rfl

theorem tried_nil (f : Fn) (g : Base → Ty) (bs : List Base) : tried f g bs = [] ↔ ∀ b ∈ bs, f.body (f.at (g b)) = none := by
  simp [tried, List.filterMap_eq_nil_iff]

theorem tried_ne (f : Fn) (g : Base → Ty) (bs : List Base) : tried f g bs ≠ [] ↔ ∃ b ∈ bs, f.body (f.at (g b)) ≠ none := by
  rw [ne_eq, tried_nil]
  simp

theorem tried_cons (f : Fn) (g : Base → Ty) (bs : List Base) (x : Ty × Ty) (rest : List (Ty × Ty)) (h : tried f g bs = x :: rest) :
    ∃ l b l', bs = l ++ b :: l' ∧ (∀ y ∈ l, f.body (f.at (g y)) = none) ∧ f.body (f.at (g b)) = some x.2 ∧ x.1 = g b ∧ rest = tried f g l' := by
  induction bs with
  | nil => cases h
  | cons b bs ih =>
    cases hb : f.body (f.at (g b)) with
    | none =>
      have h1 : tried f g (b :: bs) = tried f g bs := by simp [tried, hb]
      rw [h1] at h
      obtain ⟨l, c, l', rfl, h2, h3⟩ := ih h
      refine ⟨b :: l, c, l', rfl, fun y hy => ?_, h3⟩
      rcases List.mem_cons.1 hy with rfl | hy
      · exact hb
      · exact h2 y hy
    | some r =>
      have h1 : tried f g (b :: bs) = (g b, r) :: tried f g bs := by simp [tried, hb]
      rw [h1] at h
      injection h with h2 h3
      subst h2 h3
      exact ⟨[], b, bs, rfl, fun _ h => by simp at h, hb, rfl, rfl⟩

theorem tried_all (f : Fn) (g : Base → Ty) (bs : List Base) (r0 : Ty) :
    ((tried f g bs).all fun x => x.2 = r0) = true ↔ ∀ b ∈ bs, ∀ r, f.body (f.at (g b)) = some r → r = r0 := by
  simp only [tried, List.all_eq_true, List.mem_filterMap, Option.map_eq_some_iff, decide_eq_true_eq]
  constructor
  · intro h b hb r hr
    exact h (g b, r) ⟨b, hb, r, hr, rfl⟩
  · rintro h x ⟨b, hb, r, hr, rfl⟩
    exact h b hb r hr

theorem not_all (f : Fn) (ht : none ∈ f.args) : ¬ ∀ a ∈ f.args, a ≠ none := fun h => h _ ht rfl

/-- The shape and the first type of a function that can be created. -/
theorem shape_of (f : Fn) (x : Ty × Ty) (rest : List (Ty × Ty)) (h : infer f = x :: rest) :
    ∃ g, Tried f g ∧ First f g x.2 ∧ ((∃ b, x.1 = g b) ∧ ((rest.all fun y => y.2 = x.2) = true ↔ Common f g x.2)) := by
  have fin : ∀ g, tried f g inferTypes = x :: rest → First f g x.2 ∧ ((∃ b, x.1 = g b) ∧ ((rest.all fun y => y.2 = x.2) = true ↔ Common f g x.2)) := by
    intro g hg
    obtain ⟨l, b, l', h1, h2, h3, h4, rfl⟩ := tried_cons f g _ _ _ hg
    refine ⟨⟨l, b, l', h1, h2, h3⟩, ⟨b, h4⟩, ?_⟩
    rw [tried_all, Common, h1]
    constructor
    · intro h c hc r hr
      rcases List.mem_append.1 hc with hc | hc
      · rw [h2 c hc] at hr
        cases hr
      · rcases List.mem_cons.1 hc with rfl | hc
        · rw [h3] at hr
          injection hr with hr
          exact hr.symm
        · exact h c hc r hr
    · intro h c hc
      exact h c (List.mem_append_right _ (List.mem_cons_of_mem _ hc))
  rw [infer_eq] at h
  split at h
  · rename_i hne
    exact ⟨.one, .inl ⟨rfl, (tried_ne f _ _).1 hne⟩, fin _ h⟩
  · rename_i hne
    have h0 := (tried_nil f _ _).1 (Decidable.not_not.1 hne)
    exact ⟨.arr, .inr ⟨rfl, h0, (tried_ne f _ _).1 (by rw [h]; simp)⟩, fin _ h⟩

/-- What is proved of C233, for a function with arguments of ANY TYPE and without RETURNS.  CREATE FUNCTION fails exactly if the body has a type
for none of the thirteen types tried nor for an array of one.  Afterwards a call is accepted exactly if all its arguments of ANY TYPE have
one type `t`, an array in the second case; its type is the one that all types tried give, or if they do not agree that type
(`b`, the type `t` or in the second case that of its elements), or an array of it if the first type tried that fits gives an array. -/
theorem C233_partial (f : Fn) (hr : f.returns = none) (ht : none ∈ f.args) :
    (create f = none ↔ ∀ b ∈ inferTypes, f.body (f.at (.one b)) = none ∧ f.body (f.at (.arr b)) = none) ∧
    ∀ s, create f = some s → ∃ g r0, Tried f g ∧ First f g r0 ∧ ∀ us r, s.Call us r ↔
      ∃ t b, us = f.at t ∧ (g = .one ∧ t = b ∨ g = .arr ∧ ∃ x, b = .one x ∧ t = .arr x) ∧
        (Common f g r0 ∧ r = r0 ∨ ¬ Common f g r0 ∧ r0.isArray = false ∧ r = b ∨
          ¬ Common f g r0 ∧ r0.isArray = true ∧ ∃ x, b = .one x ∧ r = .arr x) := by
  have hc : create f = match infer f with
      | [] => none
      | (t0, r0) :: rest =>
        some ⟨f.args.map fun a => kindBy a (a.getD t0), if rest.all fun x => x.2 = r0 then .fixed r0 else kindBy none r0⟩ := by
    simp only [create, hr, if_neg (not_all f ht)]
    rfl
  constructor
  · rw [hc]
    have h1 : infer f = [] ↔ ∀ b ∈ inferTypes, f.body (f.at (.one b)) = none ∧ f.body (f.at (.arr b)) = none := by
      rw [infer_eq]
      split
      · rename_i h
        constructor
        · intro h0; exact absurd h0 h
        · intro h0; exact (tried_nil f _ _).2 fun b hb => (h0 b hb).1
      · rename_i h
        have h0 := (tried_nil f _ _).1 (Decidable.not_not.1 h)
        rw [tried_nil]
        exact ⟨fun h2 b hb => ⟨h0 b hb, h2 b hb⟩, fun h2 b hb => (h2 b hb).2⟩
    rw [← h1]
    cases infer f with
    | nil => simp
    | cons => simp
  · intro s hs
    rw [hc] at hs
    cases hi : infer f with
    | nil => rw [hi] at hs; cases hs
    | cons x rest =>
      obtain ⟨t0, r0⟩ := x
      rw [hi] at hs
      injection hs with hs
      obtain ⟨g, h1, h2, ⟨b0, hb0⟩, h3⟩ := shape_of f _ _ hi
      simp only at h2 h3 hb0
      refine ⟨g, r0, h1, h2, fun us r => ?_⟩
      subst hs
      have hg : ∀ (t b : Ty), (if t0.isArray then ∃ x, b = .one x ∧ t = .arr x else t = b) ↔
          (g = .one ∧ t = b ∨ g = .arr ∧ ∃ x, b = .one x ∧ t = .arr x) := by
        intro t b
        rcases h1 with ⟨rfl, _⟩ | ⟨rfl, _⟩
        · rw [hb0]
          have : (Ty.one : Base → Ty) ≠ .arr := fun h => by cases congrFun h .int64
          simp [Ty.isArray, this]
        · rw [hb0]
          have : (Ty.arr : Base → Ty) ≠ .one := fun h => by cases congrFun h .int64
          simp [Ty.isArray, this]
      have hres : ∀ b, (if rest.all fun x => x.2 = r0 then Kind.fixed r0 else kindBy none r0).type b = some r ↔
          (Common f g r0 ∧ r = r0 ∨ ¬ Common f g r0 ∧ r0.isArray = false ∧ r = b ∨
          ¬ Common f g r0 ∧ r0.isArray = true ∧ ∃ x, b = .one x ∧ r = .arr x) := by
        intro b
        by_cases hcm : Common f g r0
        · rw [if_pos (h3.2 hcm)]
          simp [Kind.type, hcm, @eq_comm _ r]
        · rw [if_neg (fun h => hcm (h3.1 h))]
          cases ha : r0.isArray with
          | false => simp [kindBy, ha, Kind.type, hcm, @eq_comm _ r]
          | true =>
            simp only [kindBy, ha, if_true, hcm]
            cases b <;> simp [Kind.type, @eq_comm _ r]
      simp only [Sig.Call, hres, at_matches f _ t0 ht, hg]
      constructor
      · rintro ⟨b, ⟨t, h4, h5⟩, h6⟩
        exact ⟨t, b, h4, h5, h6⟩
      · rintro ⟨t, b, h4, h5, h6⟩
        exact ⟨b, ⟨t, h4, h5⟩, h6⟩

/-- The body has a type for two of the types of this shape that are tried. -/
def Two (f : Fn) (g : Base → Ty) : Prop :=
  ∃ b ∈ inferTypes, ∃ c ∈ inferTypes, b ≠ c ∧ f.body (f.at (g b)) ≠ none ∧ f.body (f.at (g c)) ≠ none

/-- The type of the body is always the same; or it is, and that for two of the types tried, the type of the arguments, an array of it, for
arrays the type itself, or for arrays the type of the elements. -/
def Regular (f : Fn) : Prop :=
  (∃ r0, ∀ t r, f.body (f.at t) = some r → r = r0) ∨
  (Two f .one ∧ ∀ t r, f.body (f.at t) = some r → r = t) ∨
  (Two f .one ∧ ∀ t r, f.body (f.at t) = some r → ∃ x, t = .one x ∧ r = .arr x) ∨
  (Two f .arr ∧ ∀ t r, f.body (f.at t) = some r → ∃ x, t = .arr x ∧ r = .arr x) ∨
  (Two f .arr ∧ ∀ t r, f.body (f.at t) = some r → ∃ x, t = .arr x ∧ r = .one x)

theorem one_ne_arr : (Ty.one : Base → Ty) ≠ .arr := fun h => by cases congrFun h .int64

/-- Under `Regular` the type of an accepted call is the right one. -/
theorem C233_regular (f : Fn) (s : Sig) (t r : Ty) (hr : f.returns = none) (ht : none ∈ f.args) (hreg : Regular f) (hs : create f = some s)
    (hsc : (∃ b ∈ inferTypes, f.body (f.at (.one b)) ≠ none) ∨ t.isArray = true) (hb : f.body (f.at t) = some r) :
    ∀ r', s.Call (f.at t) r' ↔ r' = r := by
  obtain ⟨g, r0, h1, ⟨l, b0, l', hl, _, h0⟩, h3⟩ := (C233_partial f hr ht).2 s hs
  intro r'
  have hb0 : b0 ∈ inferTypes := by rw [hl]; exact List.mem_append_right _ (List.mem_cons_self ..)
  rw [h3]
  have inj : ∀ t', f.at t = f.at t' → t = t' := by
    intro t' h
    have := List.map_inj_left.1 h none ht
    simpa using this
  have ncom : ∀ h : Base → Ty, (∀ b c, h b = h c → b = c) → Two f g → (∀ b r, f.body (f.at (g b)) = some r → r = h b) → ¬ Common f g r0 := by
    rintro h hi ⟨b, hb, c, hc, hne, h4, h5⟩ h6 h7
    obtain ⟨rb, h8⟩ := Option.ne_none_iff_exists'.1 h4
    obtain ⟨rc, h9⟩ := Option.ne_none_iff_exists'.1 h5
    exact hne (hi _ _ (by rw [← h6 b rb h8, ← h6 c rc h9, h7 b hb rb h8, h7 c hc rc h9]))
  have i1 : ∀ b c, Ty.one b = .one c → b = c := fun b c h => by injection h
  have i2 : ∀ b c, Ty.arr b = .arr c → b = c := fun b c h => by injection h
  rcases hreg with ⟨q, hq⟩ | ⟨h2, hq⟩ | ⟨h2, hq⟩ | ⟨h2, hq⟩ | ⟨h2, hq⟩
  · have hcom : Common f g r0 := fun b hb r hr => by rw [hq _ _ hr, hq _ _ h0]
    have e : r = r0 := by rw [hq _ _ hb, hq _ _ h0]
    constructor
    · rintro ⟨t', b, _, _, h⟩
      rcases h with ⟨_, h⟩ | ⟨h, _⟩ | ⟨h, _⟩
      · rw [h, e]
      · exact absurd hcom h
      · exact absurd hcom h
    · intro h
      rcases h1 with ⟨rfl, _⟩ | ⟨rfl, hno, _⟩
      · exact ⟨t, t, rfl, .inl ⟨rfl, rfl⟩, .inl ⟨hcom, by rw [h, e]⟩⟩
      · rcases hsc with ⟨b, hb1, hb2⟩ | hsc
        · exact absurd (hno b hb1) hb2
        · cases t with
          | one => simp [Ty.isArray] at hsc
          | arr x => exact ⟨.arr x, .one x, rfl, .inr ⟨rfl, x, rfl, rfl⟩, .inl ⟨hcom, by rw [h, e]⟩⟩
  · have g1 : g = .one := by
      rcases h1 with ⟨h, _⟩ | ⟨_, hno, _⟩
      · exact h
      · obtain ⟨b, hb1, _, _, _, hb2, _⟩ := h2
        exact absurd (hno b hb1) hb2
    subst g1
    have hn := ncom .one i1 h2 (fun b r h => hq _ _ h)
    have e0 := hq _ _ h0
    subst e0
    have e := hq _ _ hb
    subst e
    simp only [hn, false_and, false_or, Ty.isArray, true_and, not_false_eq_true, reduceCtorEq, or_false, one_ne_arr]
    constructor
    · rintro ⟨t', b, h4, rfl, rfl⟩
      exact (inj _ h4).symm
    · rintro rfl
      exact ⟨_, _, rfl, rfl, rfl⟩
  · have g1 : g = .one := by
      rcases h1 with ⟨h, _⟩ | ⟨_, hno, _⟩
      · exact h
      · obtain ⟨b, hb1, _, _, _, hb2, _⟩ := h2
        exact absurd (hno b hb1) hb2
    subst g1
    have hn := ncom .arr i2 h2 (fun b r h => by obtain ⟨x, h5, h6⟩ := hq _ _ h; injection h5 with h5; rw [h6, h5])
    obtain ⟨x0, _, e0⟩ := hq _ _ h0
    subst e0
    obtain ⟨x, rfl, rfl⟩ := hq _ _ hb
    simp only [hn, false_and, false_or, Ty.isArray, true_and, not_false_eq_true, reduceCtorEq, or_false, one_ne_arr]
    constructor
    · rintro ⟨t', b, h4, rfl, y, rfl, rfl⟩
      have := inj _ h4
      injection this with this
      rw [this]
    · rintro rfl
      exact ⟨_, _, rfl, rfl, _, rfl, rfl⟩
  · have g1 : g = .arr := by
      rcases h1 with ⟨rfl, _⟩ | ⟨h, _⟩
      · obtain ⟨x, h5, _⟩ := hq _ _ h0
        cases h5
      · exact h
    subst g1
    have hn := ncom .arr i2 h2 (fun b r h => by obtain ⟨x, h5, h6⟩ := hq _ _ h; injection h5 with h5; rw [h6, h5])
    obtain ⟨x0, _, e0⟩ := hq _ _ h0
    subst e0
    obtain ⟨x, rfl, rfl⟩ := hq _ _ hb
    simp only [hn, false_and, false_or, Ty.isArray, true_and, not_false_eq_true, reduceCtorEq, one_ne_arr.symm]
    constructor
    · rintro ⟨t', b, h4, ⟨z, rfl, rfl⟩, y, h5, rfl⟩
      have := inj _ h4
      injection this with this
      injection h5 with h5
      rw [this, h5]
    · rintro rfl
      exact ⟨_, _, rfl, ⟨x, rfl, rfl⟩, _, rfl, rfl⟩
  · have g1 : g = .arr := by
      rcases h1 with ⟨rfl, _⟩ | ⟨h, _⟩
      · obtain ⟨x, h5, _⟩ := hq _ _ h0
        cases h5
      · exact h
    subst g1
    have hn := ncom .one i1 h2 (fun b r h => by obtain ⟨x, h5, h6⟩ := hq _ _ h; injection h5 with h5; rw [h6, h5])
    obtain ⟨x0, _, e0⟩ := hq _ _ h0
    subst e0
    obtain ⟨x, rfl, rfl⟩ := hq _ _ hb
    simp only [hn, false_and, false_or, Ty.isArray, true_and, not_false_eq_true, reduceCtorEq, or_false, one_ne_arr.symm]
    constructor
    · rintro ⟨t', b, h4, ⟨z, rfl, rfl⟩, rfl⟩
      have := inj _ h4
      injection this with this
      rw [this]
    · rintro rfl
      exact ⟨_, _, rfl, ⟨x, rfl, rfl⟩, rfl⟩

/-- `x`, for every type; `[x]`, for every type but arrays. -/
def fnId : Fn := ⟨[none], none, fun us => us.head?⟩
def fnWrap : Fn := ⟨[none], none, fun us => match us with | [.one b] => some (.arr b) | _ => none⟩

/-- The hypotheses of `C233_partial` and `C233_regular` are met by `x` and by `[x]`, and so calls with NUMERIC have the right type. -/
example : Regular fnId ∧ Regular fnWrap ∧ create fnId ≠ none ∧ create fnWrap ≠ none ∧ fnId.body (fnId.at (.one .numeric)) = some (.one .numeric) ∧
    fnWrap.body (fnWrap.at (.one .numeric)) = some (.arr .numeric) := by
  refine ⟨.inr (.inl ⟨⟨.int64, by decide, .double, by decide, by decide, by decide, by decide⟩, fun t r h => ?_⟩),
    .inr (.inr (.inl ⟨⟨.int64, by decide, .double, by decide, by decide, by decide, by decide⟩, fun t r h => ?_⟩)), fun h => ?_, fun h => ?_, by decide, by decide⟩
  · exact (Option.some.inj h).symm
  · cases t with
    | one b => exact ⟨b, rfl, (Option.some.inj h).symm⟩
    | arr b => cases h
  · exact absurd (((C233_partial fnId rfl (by decide)).1.1 h) .int64 (by decide)).1 (by decide)
  · exact absurd (((C233_partial fnWrap rfl (by decide)).1.1 h) .int64 (by decide)).1 (by decide)

/-- Functions without arguments of ANY TYPE: a call is accepted exactly with arguments of the declared types, and has the declared type or
that of the body. -/
theorem C233_fixed (f : Fn) (s : Sig) (us : List Ty) (r : Ty) (hf : ∀ a ∈ f.args, a ≠ none) (hs : create f = some s) :
    s.Call us r ↔ us.map some = f.args ∧ (f.returns = some r ∨ f.returns = none ∧ f.body us = some r) := by
  have hm : ∀ b (as : List (Option Ty)) us, (∀ a ∈ as, a ≠ none) →
      (matchAll b (as.map kindOf) us = true ↔ us.map some = as) := by
    intro b as
    induction as with
    | nil => intro us _; cases us <;> simp [matchAll]
    | cons a as ih =>
      intro us h
      cases us with
      | nil => simp [matchAll]
      | cons u us =>
        cases a with
        | none => exact absurd rfl (h none (List.mem_cons_self ..))
        | some v =>
          simp only [List.map_cons, matchAll, Bool.and_eq_true, ih us (fun a ha => h a (List.mem_cons_of_mem _ ha)), kindOf, Kind.matches,
            decide_eq_true_eq, List.cons.injEq, Option.some.injEq, @eq_comm _ v]
  have ex : ∀ us, us.map some = f.args → f.args.filterMap id = us := by
    intro us h
    rw [← h]
    simp [List.filterMap_map]
  cases hret : f.returns with
  | some q =>
    simp only [create, hret] at hs
    injection hs with hs
    subst hs
    simp only [Sig.Call, hm _ _ _ hf, Kind.type, Option.some.injEq]
    simp
    exact fun _ => ⟨fun ⟨_, h⟩ => h, fun h => ⟨.one .int64, h⟩⟩
  | none =>
    simp only [create, hret, if_pos hf, Option.map_eq_some_iff] at hs
    obtain ⟨q, hq, rfl⟩ := hs
    simp only [Sig.Call, hm _ _ _ hf, Kind.type, Option.some.injEq]
    constructor
    · rintro ⟨_, h, rfl⟩
      exact ⟨h, .inr ⟨trivial, by rw [← ex us h]; exact hq⟩⟩
    · rintro ⟨h, h1 | ⟨_, h1⟩⟩
      · cases h1
      · rw [ex us h, h1] at hq
        injection hq with hq
        exact ⟨.one .int64, h, hq.symm⟩

example : (∀ a ∈ (⟨[some (.one .int64)], none, fun us => us.head?⟩ : Fn).args, a ≠ none) ∧
    (create ⟨[some (.one .int64)], none, fun us => us.head?⟩).isSome = true := by decide

/-- Functions with arguments of ANY TYPE and RETURNS: every call whose other arguments have the declared types is accepted. -/
theorem C233_returns (f : Fn) (s : Sig) (us : List Ty) (r q : Ty) (hret : f.returns = some q) (hs : create f = some s) :
    s.Call us r ↔ Fits f us ∧ r = q := by
  simp only [create, hret] at hs
  injection hs with hs
  subst hs
  have hm : ∀ b (as : List (Option Ty)) us,
      (matchAll b (as.map kindOf) us = true ↔
        us.length = as.length ∧ ∀ (i : Nat) t, as[i]? = some (some t) → us[i]? = some t) := by
    intro b as
    induction as with
    | nil => intro us; cases us <;> simp [matchAll]
    | cons a as ih =>
      intro us
      cases us with
      | nil => simp [matchAll]
      | cons u us =>
        simp only [List.map_cons, matchAll, Bool.and_eq_true, ih us, List.length_cons, Nat.add_right_cancel_iff]
        constructor
        · rintro ⟨h1, h2, h3⟩
          refine ⟨h2, fun i t h => ?_⟩
          cases i with
          | zero =>
            simp only [List.getElem?_cons_zero, Option.some.injEq] at h ⊢
            subst h
            simpa [kindOf, Kind.matches, eq_comm] using h1
          | succ i =>
            simp only [List.getElem?_cons_succ] at h ⊢
            exact h3 i t h
        · rintro ⟨h2, h3⟩
          refine ⟨?_, h2, fun i t h => ?_⟩
          · cases a with
            | none => rfl
            | some v =>
              have := h3 0 v rfl
              simpa [kindOf, Kind.matches, eq_comm] using this
          · have := h3 (i + 1) t (by simpa using h)
            simpa using this
  simp only [Sig.Call, hm, Kind.type, Option.some.injEq, Fits]
  constructor
  · rintro ⟨_, h, rfl⟩
    exact ⟨h, rfl⟩
  · rintro ⟨h, rfl⟩
    exact ⟨.one .int64, h, rfl⟩

/-- What is proved of C234: it holds for functions without arguments of ANY TYPE that are called with arguments for which the body has a type;
with RETURNS, what is computed has the type of the body, not that of the call; without, for regular functions, a call that does not fail computes
a value of the type of the call. -/
theorem C234_partial (f : Fn) (s : Sig) (us : List Ty) (r : Ty) (hs : create f = some s) (hcall : s.Call us r) :
    ((∀ a ∈ f.args, a ≠ none) → f.body us ≠ none → computed f us = some r) ∧
    (none ∈ f.args → computed f us = f.body us) ∧
    (none ∈ f.args → f.returns = none → Regular f → ∀ r', computed f us = some r' → r' = r) := by
  refine ⟨fun hf hb => ?_, fun hn => by rw [computed, if_neg (not_all f hn)], fun hn hret hreg r' hr' => ?_⟩
  · obtain ⟨q, hq⟩ := Option.ne_none_iff_exists'.1 hb
    rw [computed, if_pos hf, hq]
    rcases ((C233_fixed f s us r hf hs).1 hcall).2 with h | ⟨h, h1⟩
    · rw [h]; rfl
    · rw [hq] at h1
      rw [h]
      exact h1
  · rw [computed, if_neg (not_all f hn)] at hr'
    obtain ⟨g, r0, h1, _, h3⟩ := (C233_partial f hret hn).2 s hs
    obtain ⟨t, b, rfl, h4, _⟩ := (h3 us r).1 hcall
    have hsc : (∃ b ∈ inferTypes, f.body (f.at (.one b)) ≠ none) ∨ t.isArray = true := by
      rcases h1 with ⟨_, h⟩ | ⟨rfl, _⟩
      · exact .inl h
      · rcases h4 with ⟨h, _⟩ | ⟨_, x, _, rfl⟩
        · exact absurd h.symm one_ne_arr
        · exact .inr rfl
    exact (((C233_regular f s t r' hret hn hreg hs hsc hr') r).1 hcall).symm

/-- The hypotheses are met by `x` called with NUMERIC. -/
example : ∃ s, create fnId = some s ∧ s.Call [.one .numeric] (.one .numeric) :=
  ⟨⟨[.any1], .any1⟩, by decide, .one .numeric, by decide, rfl⟩

/-- `y` of two arguments `x` and `y` of ANY TYPE, with INT64 and STRING: the call is rejected. -/
theorem C233_two_types : ∃ f s, create f = some s ∧ Fits f [.one .int64, .one .string] ∧ f.body [.one .int64, .one .string] = some (.one .string) ∧
    ∀ r, ¬ s.Call [.one .int64, .one .string] r := by
  refine ⟨⟨[none, none], none, fun us => us[1]?⟩, ⟨[.any1, .any1], .any1⟩, by decide, ⟨rfl, fun i t h => ?_⟩, rfl, ?_⟩
  · match i, h with
    | 0, h => cases h
    | 1, h => cases h
    | i + 2, h => simp at h
  · rintro r ⟨b, h, _⟩
    simp only [matchAll, Kind.matches, Bool.and_true, Bool.and_eq_true, decide_eq_true_eq] at h
    have := h.1.trans h.2.symm
    cases this

/-- `MOD(x, 2)` has the type of `x`, which must be INT64, NUMERIC or BIGNUMERIC.  Only the first of these is tried. -/
def fnMod : Fn := ⟨[none], none, fun us => if us = [.one .int64] ∨ us = [.one .numeric] ∨ us = [.one .bignumeric] then us.head? else none⟩

/-- So a call with NUMERIC is taken for INT64, though what is computed is NUMERIC. -/
theorem C234_numeric : ∃ s, create fnMod = some s ∧ s.Call [.one .numeric] (.one .int64) ∧ computed fnMod [.one .numeric] = some (.one .numeric) :=
  ⟨⟨[.any1], .fixed (.one .int64)⟩, by decide, ⟨.one .numeric, by decide, rfl⟩, by decide⟩

/-- `x - y` is INT64 for INT64, INTERVAL for DATE: the difference of two dates is taken for a DATE. -/
theorem C234_difference : ∃ s, create ⟨[none, none], none, fun us => if us = [.one .int64, .one .int64] then some (.one .int64)
      else if us = [.one .date, .one .date] then some (.one .interval) else none⟩ = some s ∧
    s.Call [.one .date, .one .date] (.one .date) ∧
    computed ⟨[none, none], none, fun us => if us = [.one .int64, .one .int64] then some (.one .int64)
      else if us = [.one .date, .one .date] then some (.one .interval) else none⟩ [.one .date, .one .date] = some (.one .interval) :=
  ⟨⟨[.any1, .any1], .any1⟩, by decide, ⟨.one .date, by decide, rfl⟩, by decide⟩

/-- RETURNS FLOAT64 with the body `x`: the INT64 of the argument is not converted. -/
theorem C234_returns : ∃ s, create ⟨[none], some (.one .double), fun us => us.head?⟩ = some s ∧ s.Call [.one .int64] (.one .double) ∧
    computed ⟨[none], some (.one .double), fun us => us.head?⟩ [.one .int64] = some (.one .int64) :=
  ⟨⟨[.arbitrary], .fixed (.one .double)⟩, by decide, ⟨.one .int64, by decide, rfl⟩, by decide⟩

/-- A body for NUMERIC only, `PARSE…`-like: the function cannot be created at all. -/
theorem C233_not_created : create ⟨[none], none, fun us => if us = [.one .numeric] then some (.one .numeric) else none⟩ = none := by decide

theorem C233_full_false : ¬ C233_full := by
  intro h
  obtain ⟨f, s, h1, h2, h3, h4⟩ := C233_two_types
  exact h4 _ (h f s _ _ h1 h2 h3)

theorem C234_full_false : ¬ C234_full := by
  intro h
  obtain ⟨s, h1, h2, h3⟩ := C234_numeric
  have := h _ s _ _ h1 h2
  rw [h3] at this
  cases this

end Verif.Templated
