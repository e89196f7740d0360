import Verif.Props.Regexps

/-!
# C213: REGEXP_REPLACE
-/

namespace Verif.Regexps

open Go Verif.Val RegexpSpec

/-- **C213** REGEXP_REPLACE is as documented. -/
def C213_full : Prop := ∀ E : Engine, E.Lawful → ∀ s q t : List Char,
  Regexps.replace E (.str s) (.str q) (.str t) = RegexpSpec.replace E s q t

/-- Replacements without `$` in which every backslash is followed by a digit from 1 to `k` and then by a character
that is not a digit. -/
def plain (k : Nat) : List Char → Prop
  | [] => True
  | c :: t =>
    if c = '\\' then match t with
      | [] => False
      | d :: t => d.isDigit ∧ d ≠ '0' ∧ d.toNat - 48 ≤ k ∧ (∃ e r, t = e :: r ∧ e.isDigit = false) ∧ plain k t
    else c ≠ '$' ∧ plain k t

theorem digit_nat {d : Char} (h : d.isDigit = true) : 48 ≤ d.toNat ∧ d.toNat ≤ 57 := by
  simp only [Char.isDigit, Bool.and_eq_true, decide_eq_true_eq, ge_iff_le, UInt32.le_iff_toNat_le] at h
  exact h

theorem refNumber_digit {d : Char} (h : d.isDigit = true) : refNumber [d] = some (d.toNat - 48) := by
  simp [refNumber, h]

theorem word_digit {E : Engine} (hE : E.Lawful) {d : Char} (h : d.isDigit = true) : E.word d = true :=
  (hE.word_ascii d (by have := digit_nat h; omega)).mpr (.inl (by simp [Char.isAlphanum, h]))

theorem word_brace {E : Engine} (hE : E.Lawful) : E.word '}' = false := by
  cases h : E.word '}' with
  | false => rfl
  | true => exact absurd ((hE.word_ascii '}' (by decide)).mp h) (by decide)

theorem word_open {E : Engine} (hE : E.Lawful) : E.word '{' = false := by
  cases h : E.word '{' with
  | false => rfl
  | true => exact absurd ((hE.word_ascii '{' (by decide)).mp h) (by decide)

theorem expand_dollar (word : Char → Bool) (names : List (List Char)) (b : List UInt8) (m : Match) {t : List Char}
    (ht : ∀ r, t ≠ '$' :: r) : expand word names b m ('$' :: t) = match reference word t with
      | none => utf8 ['$'] ++ expand word names b m t
      | some (n, r) => groupBytes b (refSpan names m n) ++ expand word names b m r := by
  rw [expand.eq_def]
  simp only [if_true]
  cases hr : reference word t with
  | none =>
    split
    · rename_i r; first | exact absurd rfl (ht _) | rfl
    · rename_i h; cases h
  | some p =>
    split
    · rename_i r; first | exact absurd rfl (ht _) | cases r
    · rename_i h; cases h; rfl

/-- A proper reference is expanded. -/
theorem expand_ref {E : Engine} (hE : E.Lawful) (names : List (List Char)) (b : List UInt8) (m : Match) {d : Char}
    (hd : d.isDigit = true) (r : List Char) :
    expand E.word names b m ('$' :: '{' :: d :: '}' :: r) =
      Piece.text b m (.group (d.toNat - 48)) ++ expand E.word names b m r := by
  have e : reference E.word ('{' :: d :: '}' :: r) = some ([d], r) := by
    simp [reference, List.dropWhile_cons, word_digit hE hd, word_brace hE]
  rw [expand_dollar _ _ _ _ (by rintro r' h; cases h)]
  split
  · rename_i n; rw [e] at n; cases n
  · rename_i n; rw [e] at n; cases n
    simp [refSpan, refNumber_digit hd, Piece.text, Match.spans]

theorem expand_lit (word : Char → Bool) (names : List (List Char)) (b : List UInt8) (m : Match) {c : Char} (hc : c ≠ '$') (r : List Char) :
    expand word names b m (c :: r) = utf8 [c] ++ expand word names b m r := by
  rw [expand.eq_def]
  simp only [if_neg hc]

theorem expand_nil (word : Char → Bool) (names : List (List Char)) (b : List UInt8) (m : Match) :
    expand word names b m [] = [] := by rw [expand.eq_def]

theorem normalize_lit {c : Char} (hc : c ≠ '\\') (t : List Char) :
    normalize (c :: t) = (normalize t).bind fun r => .ok (c :: r) := by
  rw [normalize.eq_def]; simp only [if_neg hc]

theorem normalize_ref {d e : Char} (hd : d.isDigit = true) (h0 : d ≠ '0') (he : e.isDigit = false) (t : List Char) :
    normalize ('\\' :: d :: e :: t) = (normalize (e :: t)).bind fun r => .ok (['$', '{', d, '}'] ++ r) := by
  rw [normalize.eq_def]
  simp [hd, h0, List.takeWhile_cons, List.dropWhile_cons, he]

/-- What happens to a plain beginning of a replacement, whatever follows: its references are written in Go's syntax
and expanded as documented. -/
theorem plain_front {E : Engine} (hE : E.Lawful) (k : Nat) : ∀ t : List Char, plain k t →
    ∃ ps n, template t = some ps ∧ ps.any (Piece.missing k) = false ∧
      (∀ u, normalize (t ++ u) = (normalize u).bind fun r => .ok (n ++ r)) ∧
      ∀ names b m r, expand E.word names b m (n ++ r) = ps.flatMap (Piece.text b m) ++ expand E.word names b m r
  | [], _ => ⟨[], [], rfl, rfl, fun u => by simp; cases normalize u <;> rfl, fun names b m r => by simp⟩
  | [c], h => by
    simp only [plain] at h
    split at h
    · exact h.elim
    · rename_i hc
      refine ⟨[.lit c], [c], by simp [template, hc], rfl, fun u => ?_, fun names b m r => ?_⟩
      · simp [normalize_lit hc]
      · simp [expand_lit _ _ _ _ h.1, Piece.text]
  | c :: d :: t, h => by
    by_cases hc : c = '\\'
    · subst hc
      simp only [plain, if_true] at h
      obtain ⟨h1, h2, h3, ⟨e, r, rfl, h5⟩, h6⟩ := h
      obtain ⟨ps, n, i1, i2, i3, i4⟩ := plain_front hE k (e :: r) h6
      refine ⟨.group (d.toNat - 48) :: ps, ['$', '{', d, '}'] ++ n, ?_, ?_, fun u => ?_, fun names b m v => ?_⟩
      · rw [template]; simp [h1, i1]
      · simp only [List.any_cons, i2, Piece.missing, Bool.or_false, decide_eq_false_iff_not]; omega
      · have := i3 u
        simp only [List.cons_append] at this ⊢
        rw [normalize_ref h1 h2 h5, this]
        cases normalize u <;> simp [Res.bind]
      · simp only [List.cons_append, List.nil_append, List.flatMap_cons]
        rw [expand_ref hE _ _ _ h1, i4, List.append_assoc]
    · simp only [plain, if_neg hc] at h
      have h' : plain k (d :: t) := h.2
      obtain ⟨ps, n, i1, i2, i3, i4⟩ := plain_front hE k (d :: t) h'
      refine ⟨.lit c :: ps, c :: n, ?_, ?_, fun u => ?_, fun names b m v => ?_⟩
      · rw [template]; simp [hc, i1]
      · simp [i2, Piece.missing]
      · have := i3 u
        simp only [List.cons_append] at this ⊢
        rw [normalize_lit hc, this]
        cases normalize u <;> simp [Res.bind]
      · simp only [List.cons_append, List.flatMap_cons]
        rw [expand_lit _ _ _ _ h.1, i4, Piece.text, List.append_assoc]
termination_by t => t.length

theorem replace_go (b : List UInt8) (f : Match → List UInt8) (ps : List Piece) : ∀ i ms,
    (∀ m ∈ ms, f m = ps.flatMap (Piece.text b m)) → replaceMatches b f i ms = RegexpSpec.replace.go b ps i ms
  | _, [], _ => rfl
  | i, m :: ms, h => by
    rw [replaceMatches, RegexpSpec.replace.go, h m (by simp), replace_go b f ps m.all.2 ms fun m hm => h m (by simp [hm])]
    rfl

/-- **C213** for patterns that do not compile, and for plain replacements. -/
theorem C213_partial (E : Engine) (hE : E.Lawful) (s q t : List Char)
    (h : ∀ re, E.compile (utf8 q) = some re → plain (E.groups re) t) :
    Regexps.replace E (.str s) (.str q) (.str t) = RegexpSpec.replace E s q t := by
  simp only [Regexps.replace, RegexpSpec.replace, compile]
  cases hc : E.compile (utf8 q) with
  | none => rfl
  | some re =>
    obtain ⟨ps, n, h1, h2, h3, h4⟩ := plain_front hE _ t (h re hc)
    have h3 := h3 []
    have e : normalize [] = .ok [] := by rw [normalize.eq_def]
    rw [List.append_nil, e, Res.bind'_ok, List.append_nil] at h3
    simp only [Res.bind'_ok, h1, h2, h3, Bool.false_eq_true, ↓reduceIte]
    congr 2
    apply replace_go
    intro m _
    have := h4 (E.names re) (utf8 s) m []
    rwa [List.append_nil, expand_nil, List.append_nil] at this

/-! The other replacements, after any plain beginning. -/

/-- A reference at the end of the replacement is not expanded: `\1` gives the text `${1`. -/
theorem C213_end (E : Engine) (hE : E.Lawful) (s q p : List Char) (d : Char) (re : E.Re)
    (hc : E.compile (utf8 q) = some re) (hp : plain (E.groups re) p) (hd : d.isDigit = true) (h0 : d ≠ '0') :
    ∃ ps, template p = some ps ∧ Regexps.replace E (.str s) (.str q) (.str (p ++ ['\\', d])) =
      .ok (some (RegexpSpec.replace.go (utf8 s) (ps ++ [.lit '$', .lit '{', .lit d]) 0 (E.findAll re (utf8 s)))) := by
  obtain ⟨ps, n, h1, h2, h3, h4⟩ := plain_front hE _ p hp
  refine ⟨ps, h1, ?_⟩
  have h3 := h3 ['\\', d]
  have e : normalize ['\\', d] = .ok ['$', '{', d] := by
    rw [normalize.eq_def]; simp [hd, h0]; rw [normalize.eq_def]; rfl
  rw [e, Res.bind'_ok] at h3
  simp only [Regexps.replace, compile, hc, h3, Res.bind'_ok]
  congr 2
  apply replace_go
  intro m _
  rw [h4, List.flatMap_append]
  congr 1
  have hd' : d ≠ '$' := fun h => by rw [h] at hd; exact absurd hd (by decide)
  have r : reference E.word ['{', d] = none := by
    simp [reference, word_digit hE hd]
  rw [expand_dollar _ _ _ _ (by rintro r' h; cases h)]
  split
  · rw [expand_lit (c := '{') _ _ _ _ (by decide), expand_lit _ _ _ _ hd', expand_nil]
    simp [Piece.text]
  · rename_i n; rw [r] at n; cases n

/-- A backslash before a character that is no digit from 1 to 9 is kept, and so is the character: `\0` and `\\` stay as
they are, and no such replacement is refused. -/
theorem C213_backslash (E : Engine) (hE : E.Lawful) (s q p : List Char) (d : Char) (re : E.Re)
    (hc : E.compile (utf8 q) = some re) (hp : plain (E.groups re) p) (hd : d.isDigit = false ∨ d = '0') (h0 : d ≠ '$') :
    ∃ ps, template p = some ps ∧ Regexps.replace E (.str s) (.str q) (.str (p ++ ['\\', d])) =
      .ok (some (RegexpSpec.replace.go (utf8 s) (ps ++ [.lit '\\', .lit d]) 0 (E.findAll re (utf8 s)))) := by
  obtain ⟨ps, n, h1, h2, h3, h4⟩ := plain_front hE _ p hp
  refine ⟨ps, h1, ?_⟩
  have h3 := h3 ['\\', d]
  have hn : ¬ (d.isDigit ∧ d ≠ '0') := by
    rintro ⟨a, b⟩; rcases hd with h | h
    · rw [a] at h; cases h
    · exact b h
  have e : normalize ['\\', d] = .ok ['\\', d] := by
    rw [normalize.eq_def]; simp only [if_true, if_neg hn]; rw [normalize.eq_def]; rfl
  rw [e, Res.bind'_ok] at h3
  simp only [Regexps.replace, compile, hc, h3, Res.bind'_ok]
  congr 2
  apply replace_go
  intro m _
  rw [h4, List.flatMap_append]
  congr 1
  rw [expand_lit _ _ _ _ (by decide), expand_lit _ _ _ _ h0, expand_nil]
  simp [Piece.text]

/-- A backslash at the end is a panic. -/
theorem C213_panic (E : Engine) (hE : E.Lawful) (s q p : List Char) (re : E.Re)
    (hc : E.compile (utf8 q) = some re) (hp : plain (E.groups re) p) :
    Regexps.replace E (.str s) (.str q) (.str (p ++ ['\\'])) = .panic := by
  obtain ⟨ps, n, h1, h2, h3, h4⟩ := plain_front hE _ p hp
  have h3 := h3 ['\\']
  have e : normalize ['\\'] = .panic := by rw [normalize.eq_def]; rfl
  rw [e] at h3
  simp only [Regexps.replace, compile, hc, h3, Res.bind'_ok]
  rfl

theorem takeWhile_digits : ∀ {ds : List Char}, ds.all Char.isDigit = true → ∀ {e : Char} (r : List Char), e.isDigit = false →
    (ds ++ e :: r).takeWhile Char.isDigit = ds ∧ (ds ++ e :: r).dropWhile Char.isDigit = e :: r
  | [], _, e, r, he => by simp [List.takeWhile_cons, List.dropWhile_cons, he]
  | d :: ds, h, e, r, he => by
    simp only [List.all_cons, Bool.and_eq_true] at h
    have ih := takeWhile_digits h.2 r he
    simp [List.takeWhile_cons, List.dropWhile_cons, h.1, ih.1, ih.2]

theorem takeWhile_word {E : Engine} (hE : E.Lawful) : ∀ {ds : List Char}, ds.all Char.isDigit = true → ∀ (r : List Char),
    (ds ++ '}' :: r).takeWhile E.word = ds ∧ (ds ++ '}' :: r).dropWhile E.word = '}' :: r
  | [], _, r => by simp [List.takeWhile_cons, List.dropWhile_cons, word_brace hE]
  | d :: ds, h, r => by
    simp only [List.all_cons, Bool.and_eq_true] at h
    have ih := takeWhile_word hE h.2 r
    simp [List.takeWhile_cons, List.dropWhile_cons, word_digit hE h.1, ih.1, ih.2]

/-- A digit and the digits that follow it are read as one number: `\\12` is group 12 and not group 1 and a `2`.  A group that the pattern does
not have is the empty text and no error (also for one digit, `ds = []`). -/
theorem C213_digits (E : Engine) (hE : E.Lawful) (s q p : List Char) (d e : Char) (ds r : List Char) (re : E.Re)
    (hc : E.compile (utf8 q) = some re) (hp : plain (E.groups re) p) (hd : d.isDigit = true) (h0 : d ≠ '0')
    (hds : ds.all Char.isDigit = true) (hl : ds.length ≤ 8) (he : e.isDigit = false) (hr : plain (E.groups re) (e :: r)) :
    ∃ ps qs, template p = some ps ∧ template (e :: r) = some qs ∧
      Regexps.replace E (.str s) (.str q) (.str (p ++ '\\' :: d :: (ds ++ e :: r))) =
        .ok (some (RegexpSpec.replace.go (utf8 s) (ps ++ .group ((d :: ds).foldl (fun n c => 10 * n + (c.toNat - 48)) 0) :: qs) 0
          (E.findAll re (utf8 s)))) := by
  obtain ⟨ps, n, h1, h2, h3, h4⟩ := plain_front hE _ p hp
  obtain ⟨qs, k, i1, i2, i3, i4⟩ := plain_front hE _ (e :: r) hr
  refine ⟨ps, qs, h1, i1, ?_⟩
  have tw := takeWhile_digits hds r he
  have n0 : normalize [] = .ok [] := by rw [normalize.eq_def]
  have i3 := i3 []
  rw [List.append_nil, n0, Res.bind'_ok, List.append_nil] at i3
  have e1 : normalize ('\\' :: d :: (ds ++ e :: r)) = .ok (['$', '{', d] ++ ds ++ ['}'] ++ k) := by
    rw [normalize.eq_def]
    simp only [if_true, hd, true_and, ne_eq, h0, not_false_eq_true, tw.1, tw.2, i3, Res.bind'_ok]
    simp
  have h3 := h3 ('\\' :: d :: (ds ++ e :: r))
  rw [e1, Res.bind'_ok] at h3
  simp only [Regexps.replace, compile, hc, h3, Res.bind'_ok]
  congr 2
  apply replace_go
  intro m _
  rw [h4, List.flatMap_append, List.flatMap_cons]
  congr 1
  have hall : (d :: ds).all Char.isDigit = true := by simp only [List.all_cons, hd, hds, Bool.and_self]
  have tw2 := takeWhile_word hE hall k
  have e2 : reference E.word ('{' :: ((d :: ds) ++ '}' :: k)) = some (d :: ds, k) := by
    simp only [reference, tw2.1, tw2.2]
    simp
  have e3 : ['$', '{', d] ++ ds ++ ['}'] ++ k = '$' :: ('{' :: ((d :: ds) ++ '}' :: k)) := by simp
  have e4 : refNumber (d :: ds) = some ((d :: ds).foldl (fun n c => 10 * n + (c.toNat - 48)) 0) := by
    unfold refNumber
    rw [if_pos]
    refine ⟨hall, by simp; omega, fun h => absurd (by simpa using h) h0⟩
  have hk : expand E.word (E.names re) (utf8 s) m k = qs.flatMap (Piece.text (utf8 s) m) := by
    have := i4 (E.names re) (utf8 s) m []
    rwa [List.append_nil, expand_nil, List.append_nil] at this
  rw [e3, expand_dollar _ _ _ _ (by rintro r' h; cases h)]
  split
  · rename_i n; rw [e2] at n; cases n
  · rename_i n; rw [e2] at n; cases n
    rw [hk]
    simp only [refSpan, e4, Piece.text, Match.spans]

/-- A NULL argument makes the result NULL, whatever the others are. -/
theorem C213_null (E : Engine) (v p t : Val) (h : v.isNull ∨ p.isNull ∨ t.isNull) :
    Regexps.replace E v p t = .ok none := by
  unfold Regexps.replace
  split
  · simp [Val.isNull] at h
  · rw [if_pos h]

example : (Val.null).isNull = true := rfl

/-- REGEXP_REPLACE('ab', '(a)', '\\1') is '${1b'. -/
theorem C213_full_false : ¬ C213_full := fun h => by
  obtain ⟨ps, h1, h2⟩ := C213_end litEngine litEngine_lawful ['a', 'b'] ['(', 'a', ')'] [] '1' (1, [97]) (by rfl) trivial rfl (by decide)
  cases h1
  have := h litEngine litEngine_lawful ['a', 'b'] ['(', 'a', ')'] ['\\', '1']
  rw [show (['\\', '1'] : List Char) = [] ++ ['\\', '1'] from rfl, h2] at this
  revert this
  decide +kernel

/-- REGEXP_REPLACE('ab', 'a', '$0$0') is 'aab': the syntax of Go is expanded. -/
theorem C213_dollar_false : Regexps.replace litEngine (.str ['a', 'b']) (.str ['a']) (.str "${0}$0".toList) = .ok (some (utf8 ['a', 'a', 'b'])) ∧
    RegexpSpec.replace litEngine ['a', 'b'] ['a'] "${0}$0".toList = .ok (some (utf8 "${0}$0b".toList)) := by
  constructor <;> cbv

/-- REGEXP_REPLACE('abc', '(b)', '<\\1>') is 'a<b>c'. -/
example : plain 1 "<\\1>".toList ∧
    Regexps.replace litEngine (.str "abc".toList) (.str "(b)".toList) (.str "<\\1>".toList) = .ok (some (utf8 "a<b>c".toList)) := by
  refine ⟨?_, by cbv⟩
  simp [plain]

/-- REGEXP_REPLACE('abc', '(b)', '\\12>') is 'a>c' and not 'ab2>c': the pattern has no group 12. -/
example : Regexps.replace litEngine (.str "abc".toList) (.str "(b)".toList) (.str "\\12>".toList) = .ok (some (utf8 "a>c".toList)) ∧
    RegexpSpec.replace litEngine "abc".toList "(b)".toList "\\12>".toList = .ok (some (utf8 "ab2>c".toList)) := by
  constructor <;> cbv

end Verif.Regexps
