import Verif.Model.OrderCollate
import Verif.Props.OrderBy

/-!
# C282: ORDER BY with COLLATE
-/

namespace Verif.OrderCollate

open Go Verif.Val Verif.Sql OrderBy

/-- C282: `ORDER BY x COLLATE 'und:ci'` orders texts as the collation does.  `key` is the sort key of a text in that collation. -/
def C282_full (key : List Char → List Char) : Prop := ∀ (it : Item) (s t : List Char),
  ∃ c, cmpItem ⟨it, some ['u', 'n', 'd', ':', 'c', 'i']⟩ (.str s) (.str t) = .ok c ∧
    (c < 0 ↔ if it.desc then key t < key s else key s < key t) ∧ (c = 0 ↔ key s = key t)

theorem cmp_text (it : Item) (coll : Option (List Char)) (s t : List Char) :
    ∃ c, cmpItem ⟨it, coll⟩ (.str s) (.str t) = .ok c ∧ (c < 0 ↔ if it.desc then t < s else s < t) ∧ (c = 0 ↔ s = t) := by
  obtain ⟨c, h, h1, h2, _⟩ := C32_item it (.str s) (.str t) (some (.str s)) (some (.str t)) (.some (.str s)) (.some (.str t)) trivial
  refine ⟨c, h, ?_, ?_⟩
  · rw [h1]
    simp only [Before, Lt]
  · rw [h2]
    simp

/-- **C282** for two texts, exactly: right if and only if the collation orders them as their characters do. -/
theorem C282_iff (key : List Char → List Char) (it : Item) (s t : List Char) :
    (∃ c, cmpItem ⟨it, some ['u', 'n', 'd', ':', 'c', 'i']⟩ (.str s) (.str t) = .ok c ∧
      (c < 0 ↔ if it.desc then key t < key s else key s < key t) ∧ (c = 0 ↔ key s = key t)) ↔
    ((if it.desc then t < s else s < t) ↔ if it.desc then key t < key s else key s < key t) ∧ (s = t ↔ key s = key t) := by
  obtain ⟨c, h, h1, h2⟩ := cmp_text it (some ['u', 'n', 'd', ':', 'c', 'i']) s t
  constructor
  · rintro ⟨d, e, h3, h4⟩
    rw [h] at e
    cases e
    exact ⟨h1.symm.trans h3, h2.symm.trans h4⟩
  · rintro ⟨h3, h4⟩
    exact ⟨c, h, h1.trans h3, h2.trans h4⟩

/-- A result is ordered. -/
def Ordered (it : CItem) (out : List (List Char)) : Prop :=
  out.Pairwise fun s t => ∃ c, cmpItem it (.str s) (.str t) = .ok c ∧ c ≤ 0

theorem le_iff (it : Item) (coll : Option (List Char)) (s t : List Char) :
    (∃ c, cmpItem ⟨it, coll⟩ (.str s) (.str t) = .ok c ∧ c ≤ 0) ↔ (if it.desc then t ≤ s else s ≤ t) := by
  obtain ⟨c, h, h1, h2⟩ := cmp_text it coll s t
  have e : (∃ d, cmpItem ⟨it, coll⟩ (.str s) (.str t) = .ok d ∧ d ≤ 0) ↔ c ≤ 0 := by
    constructor
    · rintro ⟨d, hd, h0⟩
      rw [h] at hd
      cases hd
      exact h0
    · intro h0
      exact ⟨c, h, h0⟩
  rw [e]
  have h3 : c ≤ 0 ↔ c < 0 ∨ c = 0 := by omega
  rw [h3, h1, h2]
  cases it.desc with
  | false => simp [List.le_iff_lt_or_eq]
  | true => simp only [if_true, List.le_iff_lt_or_eq, eq_comm]

/-- **C282** for a whole result: it is in the order of the collation if and only if the collation keeps the order of the characters on its texts. -/
theorem C282_rows_iff (key : List Char → List Char) (it : Item) (coll : Option (List Char)) (out : List (List Char)) (h : Ordered ⟨it, coll⟩ out) :
    (out.Pairwise fun s t => if it.desc then key t ≤ key s else key s ≤ key t) ↔ ∀ s ∈ out, ∀ t ∈ out, s < t → key s ≤ key t := by
  have ho : out.Pairwise fun s t => if it.desc then t ≤ s else s ≤ t := h.imp fun {s t} h => (le_iff it coll s t).1 h
  clear h
  constructor
  · intro hk
    have hb := ho.and hk
    clear ho hk
    induction out with
    | nil => intro s hs; cases hs
    | cons a l ih =>
      rw [List.pairwise_cons] at hb
      intro s hs t ht hlt
      rcases List.mem_cons.1 hs with rfl | hs'
      · rcases List.mem_cons.1 ht with rfl | ht
        · exact absurd hlt (List.lt_irrefl _)
        · have := hb.1 t ht
          cases hd : it.desc <;> simp only [hd, if_true] at this
          · exact this.2
          · exact absurd hlt (List.not_lt.2 this.1)
      · rcases List.mem_cons.1 ht with rfl | ht
        · have := hb.1 s hs'
          cases hd : it.desc <;> simp only [hd, if_true] at this
          · exact absurd hlt (List.not_lt.2 this.1)
          · exact this.2
        · exact ih hb.2 s hs' t ht hlt
  · intro hk
    refine List.Pairwise.imp_of_mem ?_ ho
    intro s t hs ht hst
    cases hd : it.desc <;> simp only [hd, if_true] at hst ⊢
    · rcases List.le_iff_lt_or_eq.1 hst with h | rfl
      · exact hk s hs t ht h
      · exact List.le_refl _
    · rcases List.le_iff_lt_or_eq.1 hst with h | rfl
      · exact hk t ht s hs h
      · exact List.le_refl _

theorem C282_full_false (key : List Char → List Char) (h : key ['a'] = key ['A']) : ¬ C282_full key := by
  intro hf
  have := (C282_iff key ⟨false, .unspecified⟩ ['a'] ['A']).1 (hf ⟨false, .unspecified⟩ ['a'] ['A'])
  exact absurd (this.2.2 h) (by decide)

/-- `B` before `a`, which no collation that ignores case does. -/
example : Ordered ⟨⟨false, .unspecified⟩, some ['u', 'n', 'd', ':', 'c', 'i']⟩ [['B'], ['a']] ∧
    ¬ ∀ s ∈ [['B'], ['a']], ∀ t ∈ [['B'], ['a']], s < t → s.map Char.toLower ≤ t.map Char.toLower := by
  refine ⟨?_, ?_⟩
  · simp only [Ordered, List.pairwise_cons, List.mem_singleton, forall_eq, List.not_mem_nil, false_imp_iff, implies_true, List.Pairwise.nil, and_self, and_true]
    exact ⟨-1, by decide +kernel, by decide⟩
  · decide +kernel

end Verif.OrderCollate
