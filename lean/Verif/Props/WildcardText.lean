import Verif.Model.WildcardText
import Verif.Props.Schema

/-!
# C279: columns that not all tables of a wildcard have
-/

namespace Verif.WildcardText

open Schema

/-- C279: whatever the columns are called, the branch for a table selects the columns of the newest table, those the table has from it and
NULL for the others. -/
def C279_full : Prop := ∀ (newest table : List (List Char)), (∀ c ∈ newest, Bare c) → (∃ c ∈ newest, c ≠ ['_', 'T', 'A', 'B', 'L', 'E', '_', 'S', 'U', 'F', 'F', 'I', 'X']) →
  readList (listText (Wildcard.branchColumns newest table)) =
    some ((newest.filter fun c => decide (c ≠ ['_', 'T', 'A', 'B', 'L', 'E', '_', 'S', 'U', 'F', 'F', 'I', 'X'])).map fun c => (c, decide (c ∈ table)))

/-- The tokens of an item. -/
def itemToks (c : List Char × Bool) : List T :=
  if c.2 then [.quoted c.1] else [.word ['N', 'U', 'L', 'L'], .word ['a', 's'], .word c.1]

theorem bare_plain {w : List Char} (h : Bare w) : '`' ∉ w ∧ Char.ofNat 0 ∉ w := by
  cases w with
  | nil => exact h.elim
  | cons x s =>
    have hx : ∀ d : Char, isIdStart d = false → d ≠ x := by rintro d hd rfl; rw [h.1] at hd; cases hd
    have hs : ∀ d : Char, isIdChar d = false → d ∉ s := by
      intro d hd hm
      rw [h.2 d hm] at hd
      cases hd
    simp only [List.mem_cons, not_or]
    exact ⟨⟨hx _ (by decide), hs _ (by decide)⟩, hx _ (by decide), hs _ (by decide)⟩

theorem toks_item {c : List Char × Bool} (h : Bare c.1) : Toks (item c) (itemToks c) := by
  intro d r hd
  have hd1 : isIdChar d = false := by rcases hd with rfl | rfl <;> decide
  have hdq : d ≠ '`' := by rcases hd with rfl | rfl <;> decide
  have hp := bare_plain h
  unfold item itemToks
  split
  · rw [lexQuote _ _ _ hp.1 hp.2 hdq]
  · have e : ['N', 'U', 'L', 'L', ' ', 'a', 's', ' '] ++ c.1 ++ d :: r = ['N', 'U', 'L', 'L'] ++ ' ' :: (['a', 's'] ++ ' ' :: (c.1 ++ d :: r)) := by simp
    rw [e, lexBare (by decide +kernel) _ _ (by decide), lexSp, lexBare (by decide +kernel) _ _ (by decide), lexSp, lexBare h _ _ hd1]
    simp [before_before]

theorem whole_item (c : List Char × Bool) : Whole (itemToks c) := by
  intro acc r
  unfold itemToks
  split <;> simp [pieces]

theorem toks_join_comma : ∀ {xs : List (List Char)} {ts : List (List T)}, AllToks xs ts → xs ≠ [] → ∀ r,
    lex .idle (join xs ++ ',' :: r) = before (joinT ts) (lex .idle (',' :: r))
  | [], _, _, h, _ => absurd rfl h
  | [x], [t], h, _, r => by simpa [join, joinT] using h.1 ',' r (Or.inl rfl)
  | x :: y :: xs, t :: u :: ts, h, _, r => by
    have h1 : join (x :: y :: xs) ++ ',' :: r = x ++ ',' :: (join (y :: xs) ++ ',' :: r) := by simp [join]
    rw [h1, h.1 ',' _ (Or.inl rfl), lexTok (t := .comma) (by decide), toks_join_comma h.2 (by simp) r, before_before, before_before]
    simp [joinT]
  | [_], [], h, _, _ => h.elim
  | [_], _ :: _ :: _, h, _, _ => h.2.elim
  | _ :: _ :: _, [], h, _, _ => h.elim
  | _ :: _ :: _, [_], h, _, _ => h.2.elim

theorem joinT_end : ∀ {ts : List (List T)}, ts ≠ [] → joinT ts ++ [.comma] = joinT (ts ++ [[]])
  | [], h => absurd rfl h
  | [t], _ => by simp [joinT]
  | t :: u :: ts, _ => by
    have ih := joinT_end (ts := u :: ts) (by simp)
    simp only [List.cons_append] at ih ⊢
    simp only [joinT, List.append_assoc, List.cons_append, ih]

theorem readItem_toks {c : List Char × Bool} :
    readItem (itemToks c) = if c.2 = false ∧ reserved (upper c.1) then none else some c := by
  obtain ⟨n, b⟩ := c
  cases b with
  | true => simp [itemToks, readItem]
  | false =>
    have h : upper ['N', 'U', 'L', 'L'] = ['N', 'U', 'L', 'L'] ∧ upper ['a', 's'] = ['A', 'S'] := by decide +kernel
    simp only [itemToks, Bool.false_eq_true, if_false, readItem, h, and_self, if_true, aliasOf, true_and]
    split <;> rfl

theorem readItems_toks : ∀ (cs : List (List Char × Bool)),
    readItems (cs.map itemToks) = if ∃ c ∈ cs, c.2 = false ∧ reserved (upper c.1) then none else some cs
  | [] => by simp [readItems]
  | c :: cs => by
    simp only [List.map_cons, readItems, readItem_toks, readItems_toks cs]
    by_cases h1 : c.2 = false ∧ reserved (upper c.1)
    · rw [if_pos h1, if_pos (show ∃ x ∈ c :: cs, x.2 = false ∧ reserved (upper x.1) from ⟨c, by simp, h1⟩)]
    · rw [if_neg h1]
      by_cases h2 : ∃ c ∈ cs, c.2 = false ∧ reserved (upper c.1)
      · rw [if_pos h2, if_pos (by obtain ⟨x, hx, h⟩ := h2; exact ⟨x, by simp [hx], h⟩)]
      · rw [if_neg h2, if_neg]
        rintro ⟨x, hx, h⟩
        rcases List.mem_cons.1 hx with rfl | hx
        · exact h1 h
        · exact h2 ⟨x, hx, h⟩

theorem readList_text {cs : List (List Char × Bool)} (h : ∀ c ∈ cs, Bare c.1) (h0 : cs ≠ []) :
    readList (listText cs) = if ∃ c ∈ cs, c.2 = false ∧ reserved (upper c.1) then none else some cs := by
  have ht : AllToks (cs.map item) (cs.map itemToks) := allToks_map fun c hc => toks_item (h c hc)
  have hne : cs.map item ≠ [] := by simpa using h0
  have hne' : cs.map itemToks ≠ [] := by simpa using h0
  have hl : lex .idle (listText cs ++ [',']) = some (joinT (cs.map itemToks ++ [[]])) := by
    unfold listText
    rw [toks_join_comma ht hne [], lexTok (t := .comma) (by decide), before_before]
    show some _ = _
    rw [← joinT_end hne']
    simp
  unfold readList
  rw [hl]
  simp only
  rw [pieces_join (fun t ht => ?_) (by simp), List.dropLast_concat, readItems_toks]
  rcases List.mem_append.1 ht with ht | ht
  · obtain ⟨c, _, rfl⟩ := List.mem_map.1 ht
    exact whole_item c
  · simp only [List.mem_singleton] at ht
    subst ht
    intro acc r
    simp

/-- **C279** exactly, for names without special characters: the branch is right unless a column the table does not have is called by a word that
SQLite reserves; then the whole query is an error. -/
theorem C279_exact (newest table : List (List Char)) (h : ∀ c ∈ newest, Bare c) (h0 : ∃ c ∈ newest, c ≠ ['_', 'T', 'A', 'B', 'L', 'E', '_', 'S', 'U', 'F', 'F', 'I', 'X']) :
    readList (listText (Wildcard.branchColumns newest table)) =
      if ∃ c ∈ newest, c ≠ ['_', 'T', 'A', 'B', 'L', 'E', '_', 'S', 'U', 'F', 'F', 'I', 'X'] ∧ c ∉ table ∧ reserved (upper c) then none
      else some ((newest.filter fun c => decide (c ≠ ['_', 'T', 'A', 'B', 'L', 'E', '_', 'S', 'U', 'F', 'F', 'I', 'X'])).map fun c => (c, decide (c ∈ table))) := by
  have e : Wildcard.branchColumns newest table = (newest.filter fun c => decide (c ≠ ['_', 'T', 'A', 'B', 'L', 'E', '_', 'S', 'U', 'F', 'F', 'I', 'X'])).map fun c => (c, decide (c ∈ table)) := rfl
  rw [readList_text, e]
  · congr 1
    apply propext
    simp only [List.mem_map, List.mem_filter, decide_eq_true_eq]
    constructor
    · rintro ⟨x, ⟨c, ⟨hc, hn⟩, rfl⟩, hb, hr⟩
      exact ⟨c, hc, hn, by simpa using hb, hr⟩
    · rintro ⟨c, hc, hn, hb, hr⟩
      exact ⟨_, ⟨c, ⟨hc, hn⟩, rfl⟩, by simpa using hb, hr⟩
  · rw [e]
    intro x hx
    obtain ⟨c, hc, rfl⟩ := List.mem_map.1 hx
    exact h c (List.mem_filter.1 hc).1
  · rw [e]
    obtain ⟨c, hc, hn⟩ := h0
    intro hnil
    have : c ∈ newest.filter fun c => decide (c ≠ ['_', 'T', 'A', 'B', 'L', 'E', '_', 'S', 'U', 'F', 'F', 'I', 'X']) := List.mem_filter.2 ⟨hc, by simpa using hn⟩
    rw [List.map_eq_nil_iff] at hnil
    rw [hnil] at this
    cases this

/-- A column `order` that an older table does not have. -/
theorem C279_full_false : ¬ C279_full := by
  intro h
  have h1 := h [['o', 'r', 'd', 'e', 'r']] [] (by decide +kernel) ⟨_, List.mem_singleton.2 rfl, by decide⟩
  rw [C279_exact _ _ (by decide +kernel) ⟨_, List.mem_singleton.2 rfl, by decide⟩, if_pos] at h1
  · cases h1
  · exact ⟨_, List.mem_singleton.2 rfl, by decide, by simp, by decide +kernel⟩

example : Bare ['o', 'r', 'd', 'e', 'r'] ∧ Bare ['t', 'r', 'u', 'e'] ∧ ¬ reserved (upper ['t', 'r', 'u', 'e']) := by decide +kernel

end Verif.WildcardText
