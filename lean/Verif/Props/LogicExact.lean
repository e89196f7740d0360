import Verif.Props.Logic

/-! # C26, C27, C28: exactly when IN, NULLIF and BETWEEN are right -/

namespace Verif.Logic

open Go Verif.Val Verif.Sql

/-- C26, exact: IN is right unless the value is not NULL, is not in the list, and the list has a NULL. -/
theorem C26_in_iff (a : Val) (vs : List Val) (x : Option Scalar) (ys : List (Option Scalar)) (ha : Arg a x)
    (h : All2 Arg vs ys) (hne : ys ≠ []) (ht : ∀ y ∈ ys, SameTyN x y) :
    (∃ r, bindIn a vs = .ok (ofTri r) ∧ InSpec x ys r) ↔ (x = none ∨ none ∉ ys ∨ x ∈ ys) := by
  constructor
  · rintro ⟨r, h1, h2⟩
    cases ha with
    | null => exact .inl rfl
    | @some _ x' ha =>
      by_cases hn : none ∈ ys
      · refine .inr (.inr (Classical.byContradiction fun hx => ?_))
        obtain ⟨b, h3, h4⟩ := inScan_spec ha h ht
        have hb : b = false := by
          cases b with
          | false => rfl
          | true => exact absurd (h4.1 rfl) hx
        rw [hb] at h3
        have hr : r = none := h2.2.2 ⟨by rintro ⟨v, hv, hm⟩; exact hx (hv ▸ hm), hne, .inr hn⟩
        subst hr
        simp [bindIn, ha.not_null, h3, ofTri] at h1
      · exact .inr (.inl hn)
  · rintro (rfl | h')
    · cases ha
      exact ⟨none, rfl, by simp [InSpec, hne]⟩
    · exact C26_in_partial a vs x ys ha h hne ht h'

theorem cmp_null (a : Val) {x : Scalar} (ha : Arg1 a x) : cmp .eq .null a = .panic := by
  cases ha <;> rfl

/-- Elements before the first one that is equal have to be non-NULL. -/
def Seen (x : Scalar) (ys : List (Option Scalar)) : Prop := ∃ pre post, ys = pre ++ some x :: post ∧ none ∉ pre

theorem arrayHas_exact {a : Val} {x : Scalar} (ha : Arg1 a x) {vs : List Val} {ys : List (Option Scalar)} (h : All2 Arg vs ys)
    (ht : ∀ y ∈ ys, SameTyN (some x) y) :
    (Seen x ys ∧ arrayHas a vs = .ok true) ∨ (some x ∉ ys ∧ none ∉ ys ∧ arrayHas a vs = .ok false) ∨
    (none ∈ ys ∧ ¬ Seen x ys ∧ arrayHas a vs = .panic) := by
  induction h with
  | nil => exact .inr (.inl ⟨by simp, by simp, rfl⟩)
  | @cons v y vs ys hv _ ih =>
    have ih := ih (fun y hy => ht y (List.mem_cons_of_mem _ hy))
    cases hv with
    | null =>
      refine .inr (.inr ⟨by simp, ?_, by simp [arrayHas, cmp_null a ha]⟩)
      rintro ⟨pre, post, h1, h2⟩
      cases pre with
      | nil => simp at h1
      | cons p pre => simp at h1; exact h2 (by simp [← h1.1])
    | @some _ y' hv =>
      obtain ⟨c, h3, h4⟩ := cmp_scalar .eq hv ha (SameTy_symm (ht _ (List.mem_cons_self ..)))
      simp only [OpHolds] at h4
      simp only [arrayHas, h3, Res.bind'_ok]
      cases c
      · have hne : y' ≠ x := fun e => by simpa using h4.2 e
        have hs : Seen x (some y' :: ys) ↔ Seen x ys := by
          constructor
          · rintro ⟨pre, post, h1, h2⟩
            cases pre with
            | nil => simp at h1; exact absurd h1.1 hne
            | cons p pre =>
              simp only [List.cons_append, List.cons.injEq] at h1
              exact ⟨pre, post, h1.2, fun hm => h2 (by simp [hm])⟩
          · rintro ⟨pre, post, h1, h2⟩
            exact ⟨some y' :: pre, post, by simp [h1], by simpa using h2⟩
        simp only [Bool.false_eq_true, if_false, hs]
        rcases ih with ⟨h1, h2⟩ | ⟨h1, h1', h2⟩ | ⟨h1, h1', h2⟩
        · exact .inl ⟨h1, h2⟩
        · exact .inr (.inl ⟨by simp [h1, Ne.symm hne], by simpa using h1', h2⟩)
        · exact .inr (.inr ⟨by simpa using h1, h1', h2⟩)
      · have e := h4.1 rfl
        subst e
        exact .inl ⟨⟨[], ys, rfl, by simp⟩, by simp⟩

/-- C26, exact for UNNEST: right for a NULL value only with an empty array, for another value if no element is NULL or the value comes
before every NULL. -/
theorem C26_unnest_iff (a : Val) (vs : List Val) (x : Option Scalar) (ys : List (Option Scalar)) (ha : Arg a x)
    (h : All2 Arg vs ys) (ht : ∀ y ∈ ys, SameTyN x y) :
    (∃ r, bindInArray [a, .arr vs] = .ok (ofTri r) ∧ InSpec x ys r) ↔
      match x with
      | none => ys = []
      | some v => none ∉ ys ∨ ∃ pre post, ys = pre ++ some v :: post ∧ none ∉ pre := by
  cases ha with
  | null =>
    simp only
    constructor
    · rintro ⟨r, h1, h2⟩
      refine Classical.byContradiction fun hne => ?_
      have hr : r = none := h2.2.2 ⟨by simp, hne, .inl rfl⟩
      subst hr
      simp [bindInArray, existsNull, Val.isNull, ofTri] at h1
    · rintro rfl
      exact ⟨some false, by simp [bindInArray, existsNull, Val.isNull, ofTri], by simp [InSpec]⟩
  | @some _ v ha =>
    have hn : existsNull [a, .arr vs] = false := by simp [existsNull_eq, ha.not_null, show (Val.arr vs).isNull = false from rfl]
    simp only [bindInArray, hn, Bool.false_eq_true, if_false]
    rcases arrayHas_exact ha h ht with ⟨h1, h2⟩ | ⟨h1, h1', h2⟩ | ⟨h1, h1', h2⟩
    · refine iff_of_true ⟨some true, by rw [h2]; rfl, ?_⟩ (.inr h1)
      obtain ⟨pre, post, rfl, -⟩ := h1
      simp [InSpec]
    · exact iff_of_true ⟨some false, by rw [h2]; rfl, by simp [InSpec, h1, h1']⟩ (.inl h1')
    · refine iff_of_false ?_ ?_
      · rintro ⟨r, h3, -⟩
        rw [h2] at h3
        cases h3
      · rintro (h | h)
        · exact h h1
        · exact h1' h

theorem cmp_null' (a : Val) {x : Scalar} (ha : Arg1 a x) : cmp .eq a .null = .panic := by
  cases ha <;> rfl

/-- C27, exact for NULLIF: right unless the second operand alone is NULL; then it panics. -/
theorem C27_nullif_iff (a b : Val) (x y : Option Scalar) (ha : Arg a x) (hb : Arg b y) (ht : SameTyN x y) :
    (∃ v, bindNullIf [a, b] = .ok v ∧ ((x ≠ none ∧ x = y) → v = .null) ∧ (x ≠ y → v = a)) ↔ (x = none ∨ y ≠ none) := by
  cases hb with
  | null =>
    cases ha with
    | null => exact iff_of_true ⟨.null, rfl, by simp, by simp⟩ (.inl rfl)
    | some ha =>
      refine iff_of_false ?_ (by simp)
      rintro ⟨v, h, -⟩
      simp [bindNullIf, ha.not_null, cmp_null' a ha] at h
  | @some _ y' hb =>
    refine iff_of_true ?_ (.inr (by simp))
    obtain ⟨v, h1, h2, h3⟩ := C27_nullif_partial a b x y' ha hb ht
    exact ⟨v, h1, fun h => h2 h.2, h3⟩

/-- C28, exact: BETWEEN is right if no operand is NULL or one of the two comparisons is FALSE. -/
theorem C28_iff (v a b : Val) (x lo hi : Option Scalar) (hv : Arg v x) (ha : Arg a lo) (hb : Arg b hi) (h1 : SameTyN x lo) (h2 : SameTyN x hi) :
    (∃ r s, CmpTri .ge x lo r ∧ CmpTri .le x hi s ∧ bindBetween [v, a, b] = .ok (ofTri (kAnd r s))) ↔
      (x ≠ none ∧ lo ≠ none ∧ hi ≠ none) ∨
      (∃ x' lo', x = some x' ∧ lo = some lo' ∧ ¬ CmpHolds .ge x' lo') ∨
      (∃ x' hi', x = some x' ∧ hi = some hi' ∧ ¬ CmpHolds .le x' hi') := by
  cases hv with
  | null =>
    refine iff_of_false ?_ (by simp)
    rintro ⟨r, s, hr, hs, h⟩
    simp only [CmpTri] at hr hs
    subst hr hs
    simp [bindBetween, existsNull, Val.isNull, kAnd, ofTri] at h
  | @some _ x' hv =>
    cases ha with
    | null =>
      have hB : bindBetween [v, .null, b] = .ok (.bool false) := by simp [bindBetween, existsNull, Val.isNull]
      cases hb with
      | null =>
        refine iff_of_false ?_ (by simp)
        rintro ⟨r, s, hr, hs, h⟩
        simp only [CmpTri] at hr hs
        subst hr hs
        simp [hB, kAnd, ofTri] at h
      | @some _ hi' hb =>
        constructor
        · rintro ⟨r, s, hr, hs, h⟩
          obtain ⟨c, rfl, hc⟩ := hs
          simp only [CmpTri] at hr
          subst hr
          refine .inr (.inr ⟨x', hi', rfl, rfl, fun hle => ?_⟩)
          rw [hB, hc.2 hle] at h
          simp [kAnd, ofTri] at h
        · rintro (⟨-, h, -⟩ | ⟨_, _, _, h, _⟩ | ⟨x'', hi'', hx, hh, hn⟩)
          · exact absurd rfl h
          · cases h
          · cases hx
            cases hh
            exact ⟨none, some false, rfl, ⟨false, rfl, by simp [hn]⟩, by rw [hB]; rfl⟩
    | @some _ lo' ha =>
      cases hb with
      | null =>
        have hB : bindBetween [v, a, .null] = .ok (.bool false) := by simp [bindBetween, existsNull, Val.isNull]
        constructor
        · rintro ⟨r, s, hr, hs, h⟩
          obtain ⟨c, rfl, hc⟩ := hr
          simp only [CmpTri] at hs
          subst hs
          refine .inr (.inl ⟨x', lo', rfl, rfl, fun hge => ?_⟩)
          rw [hB, hc.2 hge] at h
          simp [kAnd, ofTri] at h
        · rintro (⟨-, -, h⟩ | ⟨x'', lo'', hx, hl, hn⟩ | ⟨_, _, _, h, _⟩)
          · exact absurd rfl h
          · cases hx
            cases hl
            exact ⟨some false, none, ⟨false, rfl, by simp [hn]⟩, rfl, by rw [hB]; rfl⟩
          · cases h
      | @some _ hi' hb =>
        refine iff_of_true ?_ (.inl ⟨by simp, by simp, by simp⟩)
        obtain ⟨r, h3, h4⟩ := cmp_scalar .gte hv ha h1
        obtain ⟨s, h5, h6⟩ := cmp_scalar .lte hv hb h2
        refine ⟨some r, some s, ⟨r, rfl, by rw [h4]; exact ge_iff h1⟩, ⟨s, rfl, by rw [h6]; exact le_iff h2⟩, ?_⟩
        simp only [bindBetween, existsNull, hv.not_null, ha.not_null, hb.not_null, h3, h5, Bool.false_eq_true, if_false, Res.bind'_ok]
        cases r <;> cases s <;> rfl

/-- Cases: `3 BETWEEN 5 AND NULL` is FALSE, as it should; `7 IN UNNEST([7, NULL])` is TRUE. -/
example : bindBetween [.int 3, .int 5, .null] = .ok (.bool false) ∧ bindInArray [.int 7, .arr [.int 7, .null]] = .ok (.bool true) ∧
    bindNullIf [.null, .null] = .ok .null := ⟨rfl, rfl, rfl⟩

end Verif.Logic
