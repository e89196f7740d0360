import Verif.Model.Normalize

/-!
# C265–C268: normal forms of texts, case folding, collation, CONTAINS_SUBSTR
-/

namespace Verif.Normalize

open Go Verif.Val Verif.Cast Verif.Logic

/-- The name of a form in a query. -/
def Form.name : Form → List Char
  | .nfc => ['N', 'F', 'C']
  | .nfd => ['N', 'F', 'D']
  | .nfkc => ['N', 'F', 'K', 'C']
  | .nfkd => ['N', 'F', 'K', 'D']

theorem form_name (f : Form) : form f.name = some f := by cases f <;> rfl

theorem form_none {m : List Char} (h : ∀ f : Form, m ≠ f.name) : form m = none := by
  have h1 := h .nfc; have h2 := h .nfd; have h3 := h .nfkc; have h4 := h .nfkd
  simp only [Form.name] at h1 h2 h3 h4
  simp [form, h1, h2, h3, h4]

/-- Texts are equivalent under a form: canonical equivalence is equality of the
canonical decompositions, compatibility equivalence that of the compatible ones
(definitions D70 and D67 of the Unicode Standard). -/
def Equivalent (L : Lib) : Form → List Char → List Char → Prop
  | .nfc, s, t => L.norm .nfd s = L.norm .nfd t
  | .nfd, s, t => L.norm .nfd s = L.norm .nfd t
  | .nfkc, s, t => L.norm .nfkd s = L.norm .nfkd t
  | .nfkd, s, t => L.norm .nfkd s = L.norm .nfkd t

theorem bindNorm_two (f : List Char → List Char → Res Val) (s m : List Char) :
    bindNorm f [.str s, .str m] = f s m := rfl

/-- C265: NORMALIZE gives equal texts exactly for equivalent ones, normalizing twice is
normalizing once, the form is NFC without a second argument, another name is an
error, NULL gives NULL, and ASCII texts stay as they are. -/
theorem C265 (L : Lib) :
    (∀ (f : Form) s, ∃ r, bindNorm (normalize L) [.str s, .str f.name] = .ok (.str r) ∧
      bindNorm (normalize L) [.str r, .str f.name] = .ok (.str r)) ∧
    (∀ (f : Form) s t, bindNorm (normalize L) [.str s, .str f.name] = bindNorm (normalize L) [.str t, .str f.name] ↔
      Equivalent L f s t) ∧
    (∀ s, bindNorm (normalize L) [.str s] = bindNorm (normalize L) [.str s, .str ['N', 'F', 'C']]) ∧
    (∀ s m, (∀ f : Form, m ≠ f.name) → bindNorm (normalize L) [.str s, .str m] = .err) ∧
    (∀ a b, a = .null ∨ b = .null → bindNorm (normalize L) [a, b] = .ok .null) ∧
    (∀ (f : Form) s, (∀ c ∈ s, c.toNat < 128) → bindNorm (normalize L) [.str s, .str f.name] = .ok (.str s)) := by
  refine ⟨fun f s => ⟨L.norm f s, ?_, ?_⟩, fun f s t => ?_, fun s => rfl, fun s m h => ?_, ?_, fun f s h => ?_⟩
  · rw [bindNorm_two, normalize, form_name]
  · rw [bindNorm_two, normalize, form_name]; simp only [L.idem]
  · rw [bindNorm_two, bindNorm_two, normalize, normalize, form_name]
    simp only [Res.ok.injEq, Val.str.injEq]
    cases f
    · exact L.canon s t
    · exact Iff.rfl
    · exact L.compat s t
    · exact Iff.rfl
  · rw [bindNorm_two, normalize, form_none h]
  · rintro a b (rfl | rfl)
    · rfl
    · cases a <;> rfl
  · rw [bindNorm_two, normalize, form_name]; simp only [L.ascii f s h]

/-! ### NORMALIZE_AND_CASEFOLD -/

/-- The property: texts with the same case folding (Unicode's CaseFolding.txt, given
by `fold`) have the same result, and the result has no case left. -/
def C266_full (L : Lib) (fold : Char → List Char) : Prop :=
  (∀ (f : Form) s t, s.flatMap fold = t.flatMap fold →
    bindNorm (normalizeFold L) [.str s, .str f.name] = bindNorm (normalizeFold L) [.str t, .str f.name]) ∧
  (∀ (f : Form) s r, bindNorm (normalizeFold L) [.str s, .str f.name] = .ok (.str r) → ∀ c ∈ r, L.lower c = c)

theorem fold_eq (L : Lib) (f : Form) (s : List Char) :
    bindNorm (normalizeFold L) [.str s, .str f.name] = .ok (.str (L.norm f (s.map L.lower))) := by
  rw [bindNorm_two, normalizeFold, form_name]

/-- The results agree exactly when the lower-case texts are equivalent; so they agree
for all texts that differ in the case of letters with a lower case of their own. -/
theorem C266_partial (L : Lib) (f : Form) (s t : List Char) :
    (bindNorm (normalizeFold L) [.str s, .str f.name] = bindNorm (normalizeFold L) [.str t, .str f.name] ↔
      Equivalent L f (s.map L.lower) (t.map L.lower)) := by
  rw [fold_eq, fold_eq]
  simp only [Res.ok.injEq, Val.str.injEq]
  cases f
  · exact L.canon _ _
  · exact Iff.rfl
  · exact L.compat _ _
  · exact Iff.rfl

/-- The lower case of ASCII. -/
def asciiLower (c : Char) : Char := if 65 ≤ c.toNat ∧ c.toNat ≤ 90 then Char.ofNat (c.toNat + 32) else c

theorem asciiLower_lt {c : Char} (h : c.toNat < 128) : (asciiLower c).toNat < 128 := by
  unfold asciiLower
  split
  · rename_i h2
    have : (Char.ofNat (c.toNat + 32)).toNat = c.toNat + 32 := by
      exact (show ∀ n : Nat, n < 128 → (Char.ofNat n).toNat = n by decide) _ (by omega)
    omega
  · exact h

/-- For ASCII texts the result is the text in lower case, with every form. -/
theorem C266_ascii (L : Lib) (f : Form) (s : List Char) (h : ∀ c ∈ s, c.toNat < 128) :
    bindNorm (normalizeFold L) [.str s, .str f.name] = .ok (.str (s.map asciiLower)) := by
  rw [fold_eq]
  have h1 : s.map L.lower = s.map asciiLower :=
    List.map_congr_left fun c hc => L.lower_ascii c (h c hc)
  rw [h1, L.ascii]
  intro c hc
  obtain ⟨d, hd, rfl⟩ := List.mem_map.1 hc
  exact asciiLower_lt (h d hd)

/-- ß and ss, ς and Σ have the same case folding and different results, and the result
for U+1D400 with NFKC or NFKD is the capital letter A. -/
theorem C266_full_false (L : Lib) (fold : Char → List Char) (h1 : fold 'ß' = ['s', 's']) (h2 : fold 's' = ['s'])
    (h3 : fold 'Σ' = ['σ']) (h4 : fold 'ς' = ['σ']) :
    ¬ C266_full L fold ∧
    (∀ f : Form, ['ß'].flatMap fold = ['s', 's'].flatMap fold ∧
      bindNorm (normalizeFold L) [.str ['ß'], .str f.name] ≠ bindNorm (normalizeFold L) [.str ['s', 's'], .str f.name]) ∧
    (∀ f : Form, ['Σ'].flatMap fold = ['ς'].flatMap fold ∧
      bindNorm (normalizeFold L) [.str ['Σ'], .str f.name] ≠ bindNorm (normalizeFold L) [.str ['ς'], .str f.name]) ∧
    (∀ f : Form, f = .nfkc ∨ f = .nfkd → bindNorm (normalizeFold L) [.str ['𝐀'], .str f.name] = .ok (.str ['A'])) := by
  have a : ∀ f : Form, ['ß'].flatMap fold = ['s', 's'].flatMap fold ∧
      bindNorm (normalizeFold L) [.str ['ß'], .str f.name] ≠ bindNorm (normalizeFold L) [.str ['s', 's'], .str f.name] := by
    intro f
    refine ⟨by simp [h1, h2], ?_⟩
    rw [fold_eq, C266_ascii L f ['s', 's'] (by decide)]
    simp only [List.map_cons, List.map_nil, L.lower_sharp, L.norm_sharp]
    exact fun e => absurd (Val.str.inj (Res.ok.inj e)) (by decide)
  refine ⟨fun h => (a .nfc).2 (h.1 .nfc _ _ (a .nfc).1), a, fun f => ⟨by simp [h3, h4], ?_⟩, ?_⟩
  · rw [fold_eq, fold_eq]
    simp only [List.map_cons, List.map_nil, L.lower_sigma, L.lower_final, L.norm_sigma, L.norm_final]
    exact fun e => absurd (Val.str.inj (Res.ok.inj e)) (by decide)
  · rintro f (rfl | rfl) <;> rw [fold_eq] <;> simp [L.lower_bold, L.norm_bold]

/-! ### COLLATE -/

theorem index_one {c : Char} : ∀ {l r : List Char}, c ∉ l → index [c] (l ++ c :: r) = some l.length
  | [], r, _ => by simp [index, List.isPrefixOf]
  | x :: l, r, h => by
    have hx : c ≠ x := fun e => h (by simp [e])
    have := index_one (c := c) (l := l) (r := r) fun e => h (List.mem_cons_of_mem x e)
    simp [index, List.isPrefixOf, hx, this]

theorem collate_ok (v l : List Char) (h : ':' ∉ l) : collate v (l ++ [':', 'c', 'i']) = .ok (.str v) := by
  have h1 : split ['c', 'i'] [':'] = [['c', 'i']] := by decide
  rw [collate, split_eq (by simp), index_one h]
  simp [h1]

theorem collate_err (v spec : List Char) (h : ∀ l, ':' ∉ l → spec ≠ l ++ [':', 'c', 'i']) : collate v spec = .err := by
  unfold collate
  split
  · rename_i l attr hs
    split
    · rename_i ha
      subst ha
      have h1 := join_split (d := [':']) (by simp) spec
      have h2 := split_pieces (d := [':']) (by simp) spec l (by rw [hs]; simp)
      rw [hs] at h1
      have h1 : l ++ [':', 'c', 'i'] = spec := by simpa [join] using h1
      refine absurd h1.symm (h l fun hm => ?_)
      obtain ⟨a, b, rfl⟩ := List.append_of_mem hm
      exact h2 a.length ⟨b, by simp⟩
    · rfl
  · rfl

/-- The property: texts under a case-insensitive collation are equal when they differ
in case only (`ci`), and the collations `binary` and `…:cs` are known. -/
def C267_full (ci : List Char → List Char → Prop) : Prop :=
  (∀ l s t, ':' ∉ l → ci s t → ∃ r, bindCollate [.str s, .str (l ++ [':', 'c', 'i'])] = .ok r ∧
    bindCollate [.str t, .str (l ++ [':', 'c', 'i'])] = .ok r) ∧
  (∀ s l, l = ['b', 'i', 'n', 'a', 'r', 'y'] ∨ l = ['u', 'n', 'd', ':', 'c', 's'] → bindCollate [.str s, .str l] = .ok (.str s))

/-- COLLATE gives its text unchanged for a specification `tag:ci` and an error for every
other one; so equality under it is equality of the texts. -/
theorem C267_exact (s : List Char) (spec : List Char) :
    ((∃ l, ':' ∉ l ∧ spec = l ++ [':', 'c', 'i']) → bindCollate [.str s, .str spec] = .ok (.str s)) ∧
    (¬ (∃ l, ':' ∉ l ∧ spec = l ++ [':', 'c', 'i']) → bindCollate [.str s, .str spec] = .err) := by
  have e : bindCollate [.str s, .str spec] = collate s spec := rfl
  rw [e]
  exact ⟨fun ⟨l, h1, h2⟩ => h2 ▸ collate_ok s l h1, fun h => collate_err s spec fun l h1 h2 => h ⟨l, h1, h2⟩⟩

/-- Two texts are equal under a case-insensitive collation exactly when they are the
same text: the property fails for every pair that differs in case. -/
theorem C267_iff (l s t : List Char) (hl : ':' ∉ l) :
    bindCollate [.str s, .str (l ++ [':', 'c', 'i'])] = bindCollate [.str t, .str (l ++ [':', 'c', 'i'])] ↔ s = t := by
  rw [(C267_exact s _).1 ⟨l, hl, rfl⟩, (C267_exact t _).1 ⟨l, hl, rfl⟩]
  simp

theorem C267_full_false (ci : List Char → List Char → Prop) (h : ci ['a'] ['A']) : ¬ C267_full ci := by
  intro hf
  obtain ⟨r, h1, h2⟩ := hf.1 ['u', 'n', 'd'] ['a'] ['A'] (by decide) h
  have := (C267_iff ['u', 'n', 'd'] ['a'] ['A'] (by decide)).1 (h1.trans h2.symm)
  exact absurd this (by decide)

/-! ### CONTAINS_SUBSTR -/

/-- The property: TRUE or FALSE as the text contains the other one; `contains` stands for
the comparison of normalized and case-folded texts. -/
def C268_full (contains : List Char → List Char → Bool) : Prop :=
  ∀ s t, bindContainsSubstr [.str s, .str t] = .ok (.bool (contains s t))

/-- The result is NULL for all texts, an error for a search text that is NULL. -/
theorem C268_exact (s t : List Char) (v : Val) :
    bindContainsSubstr [.str s, .str t] = .ok .null ∧ bindContainsSubstr [.null, .str t] = .ok .null ∧
    bindContainsSubstr [v, .null] = .err := ⟨rfl, rfl, rfl⟩

theorem C268_full_false (contains : List Char → List Char → Bool) : ¬ C268_full contains ∧
    ∀ s t, bindContainsSubstr [.str s, .str t] ≠ .ok (.bool (contains s t)) := by
  have h : ∀ s t, bindContainsSubstr [.str s, .str t] ≠ .ok (.bool (contains s t)) := by
    intro s t
    rw [(C268_exact s t .null).1]
    simp
  exact ⟨fun h2 => h [] [] (h2 [] []), h⟩

/-! ### The assumptions can be met -/

/-- A library with the tables cut down to ASCII, sigma and the bold A. -/
def lib : Lib where
  norm f s := match f with
    | .nfc | .nfd => s
    | .nfkc | .nfkd => s.map fun c => if c = '𝐀' then 'A' else c
  lower c := if c = 'Σ' then 'σ' else if c.toNat < 128 then asciiLower c else c
  idem f s := by
    cases f <;> simp only [List.map_map] <;> refine List.map_congr_left fun c _ => ?_ <;>
      by_cases h : c = '𝐀' <;> simp [h]
  canon _ _ := Iff.rfl
  compat _ _ := Iff.rfl
  ascii f s h := by
    have : s.map (fun c => if c = '𝐀' then 'A' else c) = s := by
      conv => rhs; rw [← List.map_id s]
      refine List.map_congr_left fun c hc => ?_
      have h1 := h c hc
      have : c ≠ '𝐀' := by rintro rfl; exact absurd h1 (by decide)
      simp [this]
    cases f <;> first | rfl | exact this
  lower_ascii c h := by
    have : c ≠ 'Σ' := by rintro rfl; exact absurd h (by decide)
    simp [this, h, asciiLower]
  lower_sharp := by decide
  norm_sharp f := by cases f <;> decide
  lower_sigma := by decide
  lower_final := by decide
  norm_sigma f := by cases f <;> decide
  norm_final f := by cases f <;> decide
  lower_bold := by decide
  norm_bold := by decide

/-- 'The Red Barn'. -/
example : bindNorm (normalizeFold lib) [.str ['R', 'e', 'd', ' ', 'B'], .str Form.nfd.name] =
    .ok (.str ['r', 'e', 'd', ' ', 'b']) := C266_ascii lib .nfd _ (by decide)

end Verif.Normalize
