import Verif.Model.Regexps
import Verif.Spec.Regexps

/-!
# C209–C213: the REGEXP functions
-/

namespace Verif.Regexps

open Go Verif.Val

/-! ### An engine for witnesses: literal texts, possibly in parentheses -/

/-- The occurrences of `p` that do not overlap. -/
def finds (p : List UInt8) : Nat → Nat → List UInt8 → List (Nat × Nat)
  | 0, _, _ => []
  | _ + 1, off, [] => if p = [] then [(off, off)] else []
  | n + 1, off, x :: b =>
    if p.isPrefixOf (x :: b) then
      (off, off + p.length) :: finds p n (off + max 1 p.length) ((x :: b).drop (max 1 p.length))
    else finds p n (off + 1) b

/-- Patterns `((…text…))` of letters, digits, `=` and non-ASCII bytes; each pair of parentheses is a group. -/
def litEngine : Engine where
  Re := Nat × List UInt8
  compile p :=
    let k := (p.takeWhile (· == 40)).length
    let q := p.drop k
    let w := q.take (q.length - k)
    if q.drop (q.length - k) = List.replicate k 41 ∧
        w.all (fun b => b == 61 || b ≥ 128 || (Char.ofNat b.toNat).isAlphanum) then some (k, w) else none
  groups re := re.1
  names re := List.replicate re.1 []
  findAll re b := (finds re.2 (b.length + 1) 0 b).map fun s => ⟨s, List.replicate re.1 (some s)⟩
  word c := c.isAlphanum || c == '_'

theorem finds_bounds (p : List UInt8) : ∀ n off b s, s ∈ finds p n off b → off ≤ s.1 ∧ s.1 ≤ s.2 ∧ s.2 ≤ off + b.length
  | 0, _, _, _, h => by simp [finds] at h
  | n + 1, off, [], s, h => by
    simp only [finds] at h
    split at h
    · simp at h; subst h; simp
    · simp at h
  | n + 1, off, x :: b, s, h => by
    simp only [finds] at h
    split at h
    · rename_i hp
      have hl := (List.isPrefixOf_iff_prefix.mp hp).length_le
      rcases List.mem_cons.mp h with h | h
      · subst h; simp at hl ⊢; omega
      · have := finds_bounds p n _ _ s h
        simp only [List.length_drop, List.length_cons] at this ⊢
        simp only [List.length_cons] at hl
        omega
    · have := finds_bounds p n _ _ s h
      simp only [List.length_cons]
      omega

theorem finds_order (p : List UInt8) : ∀ n off b, (finds p n off b).Pairwise fun s t => s.2 ≤ t.1
  | 0, _, _ => by simp [finds]
  | n + 1, off, [] => by simp only [finds]; split <;> simp
  | n + 1, off, x :: b => by
    simp only [finds]
    split
    · refine List.pairwise_cons.mpr ⟨fun t ht => ?_, finds_order p n _ _⟩
      have := finds_bounds p n _ _ t ht
      simp only; omega
    · exact finds_order p n _ _

theorem litEngine_lawful : litEngine.Lawful where
  whole re b m hm := by
    obtain ⟨s, hs, rfl⟩ := List.mem_map.mp hm
    have := finds_bounds _ _ _ _ s hs
    simp only; omega
  parts re b m g hm hg := by
    obtain ⟨s, hs, rfl⟩ := List.mem_map.mp hm
    have := finds_bounds _ _ _ _ s hs
    have hg := (List.mem_replicate.mp hg).2
    simp only [Option.some.injEq] at hg
    subst hg; omega
  order re b := by
    refine List.pairwise_map.mpr ?_
    exact (finds_order _ _ _ _).imp fun h => h
  count re b m hm := by
    obtain ⟨s, hs, rfl⟩ := List.mem_map.mp hm
    exact List.length_replicate
  word_ascii c _ := by simp [litEngine]

/-- Bytes of an ASCII literal. -/
def ascii (s : List Char) : List UInt8 := s.map fun c => UInt8.ofNat c.toNat

/-! ### REGEXP_CONTAINS -/

/-- **C209** REGEXP_CONTAINS is TRUE exactly if the pattern matches somewhere, for STRING and for BYTES. -/
def C209_full : Prop := ∀ E : Engine, E.Lawful →
  (∀ s q : List Char, contains E (.str s) (.str q) = RegexpSpec.contains E (utf8 s) (utf8 q)) ∧
  (∀ b q : List UInt8, contains E (.bytes b) (.bytes q) = RegexpSpec.contains E b q)

theorem isEmpty_ne {α} (l : List α) [Decidable (l ≠ [])] : (!l.isEmpty) = decide (l ≠ []) := by
  cases l <;> simp

/-- **C209** for STRING; and for BYTES the base64 texts are compared. -/
theorem C209_partial (E : Engine) :
    (∀ s q : List Char, contains E (.str s) (.str q) = RegexpSpec.contains E (utf8 s) (utf8 q)) ∧
    (∀ b q : List UInt8, contains E (.bytes b) (.bytes q) =
      RegexpSpec.contains E (utf8 (Base64.encode b)) (utf8 (Base64.encode q))) ∧
    (∀ v, contains E .null v = .ok none ∧ contains E v .null = .ok none) := by
  refine ⟨fun s q => ?_, fun b q => ?_, fun v => ⟨?_, ?_⟩⟩
  · simp only [contains, Val.isNull, asString, compile, RegexpSpec.contains, Res.bind'_ok]
    cases E.compile (utf8 q) with
    | none => rfl
    | some re => simp [isEmpty_ne]
  · simp only [contains, Val.isNull, asString, compile, RegexpSpec.contains, Res.bind'_ok]
    cases E.compile (utf8 (Base64.encode q)) with
    | none => rfl
    | some re => simp [isEmpty_ne]
  · simp [contains, Val.isNull]
  · simp [contains, Val.isNull]

/-- REGEXP_CONTAINS(b'ab', b'a') is FALSE. -/
theorem C209_full_false : ¬ C209_full := fun h => by
  have := (h litEngine litEngine_lawful).2 [97, 98] [97]
  revert this
  decide +kernel

example : contains litEngine (.str "xaby".toList) (.str "ab".toList) = .ok (some true) := by decide +kernel

/-! ### REGEXP_EXTRACT -/

/-- **C210** REGEXP_EXTRACT is as documented, for STRING and for BYTES. -/
def C210_full : Prop := ∀ E : Engine, E.Lawful → ∀ position occurrence : Int,
  (∀ s q : List Char, extract E (.str s) (.str q) position occurrence =
    RegexpSpec.extract E utf8 s (utf8 q) position occurrence) ∧
  (∀ b q : List UInt8, extract E (.bytes b) (.bytes q) position occurrence =
    RegexpSpec.extract E id b q position occurrence)

theorem utf8_drop_ascii : ∀ (n : Nat) (s : List Char), (∀ c ∈ s.take n, c.toNat < 128) → n ≤ s.length →
    (utf8 s).drop n = utf8 (s.drop n)
  | 0, _, _, _ => rfl
  | n + 1, [], _, h => by simp at h
  | n + 1, c :: s, h, hl => by
    have hc : c.toNat < 128 := h c (by simp)
    have e : String.utf8EncodeChar c = [UInt8.ofNat c.toNat] := by
      simp only [String.utf8EncodeChar]; rw [if_pos (by have : c.val.toNat < 128 := hc; omega)]; rfl
    rw [utf8_cons, e]
    simp only [List.cons_append, List.nil_append, List.drop_succ_cons]
    exact utf8_drop_ascii n s (fun d hd => h d (by simp [hd])) (by simpa using hl)

theorem getLast_spans {m : Match} (h : m.groups.length ≤ 1) : m.last = m.groups.headD (some m.all) := by
  rcases m with ⟨a, gs⟩
  match gs, h with
  | [], _ => rfl
  | [g], _ => rfl

theorem take_get {α} (l : List α) (n : Nat) (h : 0 < n) : (l.take n)[n - 1]? = l[n - 1]? := by
  rw [List.getElem?_take, if_pos (by omega)]

theorem extractAt_eq {E : Engine} (hE : E.Lawful) {re : E.Re} (hg : E.groups re ≤ 1) (b : List UInt8) (pos occ : Nat)
    (ho : 0 < occ) : extractAt E re b pos occ =
      ((E.findAll re (b.drop pos))[occ - 1]?).map (RegexpSpec.captured (b.drop pos)) := by
  unfold extractAt
  rw [take_get _ _ ho]
  cases h : (E.findAll re (b.drop pos))[occ - 1]? with
  | none => rfl
  | some m =>
    have hm : m ∈ E.findAll re (b.drop pos) := List.mem_of_getElem? h
    have hc := hE.count _ _ _ hm
    simp only [Option.map_some]
    rw [getLast_spans (by omega)]
    rfl

/-- **C210** for STRING, if the characters before the position are ASCII: right exactly unless the pattern has more
than one group and the other arguments are in order. -/
theorem C210_partial (E : Engine) (hE : E.Lawful) (s q : List Char) (position occurrence : Int)
    (h : ∀ c ∈ s.take (position - 1).toNat, c.toNat < 128) :
    extract E (.str s) (.str q) position occurrence = RegexpSpec.extract E utf8 s (utf8 q) position occurrence ↔
      ¬ ∃ re, E.compile (utf8 q) = some re ∧ 1 < E.groups re ∧ 0 < position ∧ 0 < occurrence := by
  simp only [extract, Val.isNull, asString, compile, RegexpSpec.extract, Res.bind'_ok]
  cases hc : E.compile (utf8 q) with
  | none => simp [Res.bind]
  | some re =>
    by_cases hp : position ≤ 0
    · simp [hp, show ¬ (0 < position) by omega]
    · by_cases ho : occurrence ≤ 0
      · simp [hp, ho, show ¬ (0 < occurrence) by omega]
      · by_cases hg : 1 < E.groups re
        · simp [hp, ho, hg, show 0 < position by omega, show 0 < occurrence by omega]
        · have hne : ¬ ∃ re', some re = some re' ∧ 1 < E.groups re' ∧ 0 < position ∧ 0 < occurrence := by
            rintro ⟨re', e, h1, _⟩
            cases e; exact hg h1
          simp only [hne, not_false_eq_true, iff_true]
          simp only [hp, ho, hg, or_self, Bool.false_eq_true, ↓reduceIte, Res.bind'_ok]
          by_cases hl : (s.length : Int) < position
          · rw [if_pos hl, if_pos (by omega)]
          · rw [if_neg hl, if_neg (by omega), extractAt_eq hE (by omega) _ _ _ (by omega),
              utf8_drop_ascii _ s h (by omega), show occurrence.toNat - 1 = (occurrence - 1).toNat by omega]

/-- What REGEXP_EXTRACT does with BYTES: the pattern is the base64 text of the argument. -/
theorem C210_bytes (E : Engine) (hE : E.Lawful) (b q : List UInt8) (position occurrence : Int)
    (hg : ∀ re, E.compile (utf8 (Base64.encode q)) = some re → E.groups re ≤ 1) :
    extract E (.bytes b) (.bytes q) position occurrence =
      RegexpSpec.extract E id b (utf8 (Base64.encode q)) position occurrence := by
  simp only [extract, Val.isNull, asString, compile, RegexpSpec.extract, Res.bind'_ok]
  cases hc : E.compile (utf8 (Base64.encode q)) with
  | none => simp [Res.bind]
  | some re =>
    have hg := hg re hc
    by_cases hp : position ≤ 0
    · simp [hp]
    · by_cases ho : occurrence ≤ 0
      · simp [hp, ho]
      · simp only [hp, ho, show ¬ 1 < E.groups re by omega, or_self, Bool.false_eq_true, ↓reduceIte, Res.bind'_ok]
        by_cases hl : (b.length : Int) < position
        · rw [if_pos hl, if_pos (by omega)]
        · rw [if_neg hl, if_neg (by omega), extractAt_eq hE hg _ _ _ (by omega),
            show occurrence.toNat - 1 = (occurrence - 1).toNat by omega]
          rfl

/-- REGEXP_EXTRACT('éab', 'a', 3) finds the a of position 2: the position is counted in bytes. -/
theorem C210_position_false :
    extract litEngine (.str ['é', 'a', 'b']) (.str ['a']) 3 1 = .ok (some [97]) ∧
    RegexpSpec.extract litEngine utf8 ['é', 'a', 'b'] (utf8 ['a']) 3 1 = .ok none := by decide +kernel

/-- REGEXP_EXTRACT(b'ab', b'a') is NULL. -/
theorem C210_bytes_false : extract litEngine (.bytes [97, 98]) (.bytes [97]) 1 1 = .ok none ∧
    RegexpSpec.extract litEngine id [97, 98] [97] 1 1 = .ok (some [97]) := by decide +kernel

theorem C210_full_false : ¬ C210_full := fun h => by
  have := (h litEngine litEngine_lawful 3 1).1 ['é', 'a', 'b'] ['a']
  rw [C210_position_false.1, C210_position_false.2] at this
  cases this

example : extract litEngine (.str "xabyab".toList) (.str "(ab)".toList) 3 1 = .ok (some [97, 98]) := by decide +kernel

/-! ### REGEXP_EXTRACT_ALL -/

/-- **C211** REGEXP_EXTRACT_ALL returns what every match captures, for STRING and for BYTES. -/
def C211_full : Prop := ∀ E : Engine, E.Lawful →
  (∀ s q : List Char, extractAll E (.str s) (.str q) = RegexpSpec.extractAll E (utf8 s) (utf8 q)) ∧
  (∀ b q : List UInt8, extractAll E (.bytes b) (.bytes q) = RegexpSpec.extractAll E b q)

theorem map_captured {E : Engine} (hE : E.Lawful) {re : E.Re} (hg : E.groups re ≤ 1) (b : List UInt8) :
    ((E.findAll re b).map fun m => groupBytes b m.last) =
      (E.findAll re b).map (RegexpSpec.captured b) := by
  apply List.map_congr_left
  intro m hm
  rw [getLast_spans (by rw [hE.count _ _ _ hm]; exact hg)]
  rfl

/-- **C211** for STRING: right exactly if the pattern has at most one group; and what is done with BYTES. -/
theorem C211_partial (E : Engine) (hE : E.Lawful) :
    (∀ s q : List Char, extractAll E (.str s) (.str q) = RegexpSpec.extractAll E (utf8 s) (utf8 q) ↔
      ∀ re, E.compile (utf8 q) = some re → E.groups re ≤ 1) ∧
    (∀ b q : List UInt8, (∀ re, E.compile (utf8 (Base64.encode q)) = some re → E.groups re ≤ 1) →
      extractAll E (.bytes b) (.bytes q) = RegexpSpec.extractAll E b (utf8 (Base64.encode q))) := by
  refine ⟨fun s q => ?_, fun b q hg => ?_⟩
  · simp only [extractAll, Val.isNull, asString, asBytes, compile, RegexpSpec.extractAll, Res.bind'_ok]
    cases hc : E.compile (utf8 q) with
    | none => simp [Res.bind]
    | some re =>
      by_cases hg : 1 < E.groups re
      · simp only [hg, if_true]
        constructor
        · intro h; simp at h
        · intro h; have := h re rfl; omega
      · simp only [hg, Bool.false_eq_true, or_self, ↓reduceIte, Res.bind'_ok]
        rw [map_captured hE (by omega)]
        simp only [true_iff]
        intro re' e; cases e; omega
  · simp only [extractAll, Val.isNull, asString, asBytes, compile, RegexpSpec.extractAll, Res.bind'_ok]
    cases hc : E.compile (utf8 (Base64.encode q)) with
    | none => simp [Res.bind]
    | some re =>
      have hg := hg re hc
      simp only [show ¬ 1 < E.groups re by omega, Bool.false_eq_true, or_self, ↓reduceIte, Res.bind'_ok]
      rw [map_captured hE hg]

/-- REGEXP_EXTRACT_ALL('ab', '((a))') is ['a'] instead of an error. -/
theorem C211_full_false : ¬ C211_full := fun h => by
  have := (h litEngine litEngine_lawful).1 ['a', 'b'] "((a))".toList
  revert this
  decide +kernel

example : extractAll litEngine (.str "abcab".toList) (.str "(ab)".toList) = .ok (some [[97, 98], [97, 98]]) := by decide +kernel

/-! ### REGEXP_INSTR -/

/-- **C212** REGEXP_INSTR is as documented, for STRING and for BYTES and patterns without groups. -/
def C212_full : Prop := ∀ E : Engine, E.Lawful → ∀ position occurrence which : Int,
  (∀ (s q : List Char) re, E.compile (utf8 q) = some re → E.groups re = 0 →
    RegexpSpec.IsInstr E utf8 s (utf8 q) re position occurrence which (instr E (.str s) (.str q) position occurrence which)) ∧
  (∀ (b q : List UInt8) re, E.compile q = some re → E.groups re = 0 →
    RegexpSpec.IsInstr E id b q re position occurrence which (instr E (.bytes b) (.bytes q) position occurrence which))

theorem instrAt_eq {E : Engine} {re : E.Re} (b : List UInt8) (pos occ : Nat)
    (which : Int) (hw : which = 0 ∨ which = 1) (ho : 0 < occ) : instrAt E re b pos occ which =
      match (E.findAll re (b.drop pos))[occ - 1]? with
      | none => .ok 0
      | some m => .ok (pos + ((if which = 0 then m.all.1 else m.all.2 : Nat) : Int) + 1) := by
  unfold instrAt
  rw [take_get _ _ ho]
  cases h : (E.findAll re (b.drop pos))[occ - 1]? with
  | none => rfl
  | some m =>
    have e : ∃ l, m.offsets = (m.all.1 : Int) :: (m.all.2 : Int) :: l := by
      simp [Match.offsets, Match.spans]
    obtain ⟨l, e⟩ := e
    simp only [e]
    rcases hw with rfl | rfl
    · simp only [List.length_cons]
      rw [if_neg (by omega), if_neg (by omega)]
      rfl
    · simp only [List.length_cons]
      rw [if_neg (by omega), if_neg (by omega)]
      rfl

theorem utf8_len_ge (s : List Char) : s.length ≤ (utf8 s).length := by
  induction s with
  | nil => simp
  | cons c s ih =>
    have : 1 ≤ (String.utf8EncodeChar c).length := by
      simp only [String.utf8EncodeChar]; split <;> (try split) <;> (try split) <;> simp
    rw [utf8_cons, List.length_append, List.length_cons]; omega

theorem utf8_len_ascii (s : List Char) : (utf8 s).length = s.length ↔ ∀ c ∈ s, c.toNat < 128 := by
  induction s with
  | nil => simp
  | cons c s ih =>
    have hs := utf8_len_ge s
    rw [utf8_cons]
    simp only [List.length_append, List.length_cons, List.mem_cons, forall_eq_or_imp]
    by_cases hc : c.toNat < 128
    · have e : (String.utf8EncodeChar c).length = 1 := by
        simp only [String.utf8EncodeChar]; rw [if_pos (by have : c.val.toNat < 128 := hc; omega)]; rfl
      rw [e]
      constructor
      · intro h; exact ⟨hc, ih.mp (by omega)⟩
      · intro h; have := ih.mpr h.2; omega
    · have e : 2 ≤ (String.utf8EncodeChar c).length := by
        simp only [String.utf8EncodeChar]
        rw [if_neg (by have : ¬ c.val.toNat < 128 := hc; omega)]
        split <;> (try split) <;> simp
      constructor
      · intro h; omega
      · intro h; exact absurd h.1 hc

/-- **C212** for BYTES, and an output position of 0 or 1: right for all other arguments, if the pattern is not empty. -/
theorem C212_bytes_partial (E : Engine) (b q : List UInt8) (re : E.Re) (hc : E.compile q = some re) (hq : q ≠ [])
    (position occurrence which : Int) (hw : which = 0 ∨ which = 1) :
    RegexpSpec.IsInstr E id b q re position occurrence which (instr E (.bytes b) (.bytes q) position occurrence which) := by
  have hw' : ¬ (which ≠ 0 ∧ which ≠ 1) := by omega
  simp only [RegexpSpec.IsInstr, instr, Val.isNull, compile, hc, hw', hq, or_false, false_or, Bool.false_eq_true, or_self, ↓reduceIte]
  by_cases hp : position ≤ 0
  · simp [hp]
  · by_cases ho : occurrence ≤ 0
    · simp [hp, ho]
    · simp only [hp, ho, or_self, ↓reduceIte, Res.bind'_ok]
      by_cases hl : (b.length : Int) < position
      · rw [if_pos hl, if_pos (by omega)]
      · rw [if_neg hl, if_neg (by omega), instrAt_eq _ _ _ _ hw (by omega),
          show occurrence.toNat - 1 = (occurrence - 1).toNat by omega]
        simp only [id_eq]
        cases (E.findAll re (b.drop (position - 1).toNat))[(occurrence - 1).toNat]? with
        | none => rfl
        | some m =>
          simp only [Res.bind'_ok]
          intro n hn hn'
          rw [← hn, List.length_take, Nat.min_eq_left hn']
          congr 2
          omega

/-- **C212** for STRING, if the arguments are in order, the pattern is not empty and the characters before the
position are ASCII: without a match the result is 0; with one it is right exactly if the characters from the position
up to the one asked for are ASCII too. -/
theorem C212_partial (E : Engine) (s q : List Char) (re : E.Re) (hc : E.compile (utf8 q) = some re)
    (position occurrence which : Int) (hp : 0 < position) (ho : 0 < occurrence) (hw : which = 0 ∨ which = 1)
    (hl : position ≤ s.length) (h : ∀ c ∈ s.take (position - 1).toNat, c.toNat < 128) :
    match (E.findAll re (utf8 (s.drop (position - 1).toNat)))[(occurrence - 1).toNat]? with
    | none => instr E (.str s) (.str q) position occurrence which = .ok (some 0)
    | some m => ∀ n, (utf8 ((s.drop (position - 1).toNat).take n)).length = (if which = 0 then m.all.1 else m.all.2) →
      n ≤ (s.drop (position - 1).toNat).length →
      (instr E (.str s) (.str q) position occurrence which = .ok (some (position + n)) ↔
        ∀ c ∈ (s.drop (position - 1).toNat).take n, c.toNat < 128) := by
  simp only [instr, Val.isNull, compile, hc, Bool.false_eq_true, or_self, ↓reduceIte, Res.bind'_ok]
  rw [if_neg (by omega), if_neg (by omega), if_neg (by omega), instrAt_eq _ _ _ _ hw (by omega),
    utf8_drop_ascii _ s h (by omega), show occurrence.toNat - 1 = (occurrence - 1).toNat by omega]
  cases (E.findAll re (utf8 (s.drop (position - 1).toNat)))[(occurrence - 1).toNat]? with
  | none => rfl
  | some m =>
    simp only [Res.bind'_ok]
    intro n hn hn'
    rw [← hn, ← utf8_len_ascii, List.length_take, Nat.min_eq_left hn']
    simp only [Res.ok.injEq, Option.some.injEq]
    constructor
    · intro e; omega
    · intro e; omega

/-- **C212** arguments that are not positive are errors. -/
theorem C212_refused (E : Engine) (s q : List Char) (position occurrence which : Int) (h : position ≤ 0 ∨ occurrence ≤ 0) :
    instr E (.str s) (.str q) position occurrence which = .err := by
  simp only [instr, Val.isNull, Bool.false_eq_true, or_self, ↓reduceIte]
  by_cases hp : position ≤ 0
  · rw [if_pos hp]
  · rw [if_neg hp, if_pos (by omega)]

/-- A position behind the end of a STRING is 0, whatever is searched. -/
theorem C212_behind (E : Engine) (s q : List Char) (re : E.Re) (hc : E.compile (utf8 q) = some re)
    (position occurrence which : Int) (hp : 0 < position) (ho : 0 < occurrence) (hl : (s.length : Int) < position) :
    instr E (.str s) (.str q) position occurrence which = .ok (some 0) := by
  simp only [instr, Val.isNull, compile, hc, Bool.false_eq_true, or_self, ↓reduceIte, Res.bind'_ok]
  rw [if_neg (by omega), if_neg (by omega), if_pos (by omega)]

/-- An output position above 1 should be refused; for a pattern without groups it is 0, whether there is a match or
not, for every text. -/
theorem C212_output_false (E : Engine) (hE : E.Lawful) (s q : List Char) (re : E.Re) (hc : E.compile (utf8 q) = some re)
    (h0 : E.groups re = 0) (position occurrence which : Int) (hp : 0 < position) (ho : 0 < occurrence) (hw : 1 < which) :
    instr E (.str s) (.str q) position occurrence which = .ok (some 0) := by
  by_cases hl : (s.length : Int) < position
  · exact C212_behind E s q re hc _ _ _ hp ho hl
  · simp only [instr, Val.isNull, compile, hc, Bool.false_eq_true, or_self, ↓reduceIte, Res.bind'_ok]
    rw [if_neg (by omega), if_neg (by omega), if_neg (by omega)]
    unfold instrAt
    cases h : ((E.findAll re ((utf8 s).drop (position - 1).toNat)).take occurrence.toNat)[occurrence.toNat - 1]? with
    | none => rfl
    | some m =>
      have hm : m ∈ E.findAll re ((utf8 s).drop (position - 1).toNat) :=
        List.mem_of_mem_take (List.mem_of_getElem? h)
      have hg : m.groups = [] := by
        have := hE.count re _ m hm
        rw [h0] at this
        exact List.length_eq_zero_iff.mp this
      have e : (m.offsets.length : Int) = 2 := by simp [Match.offsets, Match.spans, hg]
      simp only
      rw [if_pos (by omega)]
      rfl

/-- A negative output position is a panic whenever there is a match, for every engine. -/
theorem C212_which_false (E : Engine) (s q : List Char) (re : E.Re) (hc : E.compile (utf8 q) = some re)
    (m : Match) (hm : (E.findAll re (utf8 s))[0]? = some m) (hs : s ≠ []) (which : Int) (hw : which < 0) :
    instr E (.str s) (.str q) 1 1 which = .panic := by
  have hl : 0 < s.length := List.length_pos_iff.mpr hs
  simp only [instr, Val.isNull, compile, hc, Bool.false_eq_true, or_self, ↓reduceIte, Res.bind'_ok]
  rw [if_neg (by omega), if_neg (by omega), if_neg (by omega)]
  have e : instrAt E re (utf8 s) ((1 : Int) - 1).toNat (1 : Int).toNat which = .panic := by
    show instrAt E re (utf8 s) 0 1 which = .panic
    unfold instrAt
    rw [take_get _ _ (by omega)]
    show (match (E.findAll re (utf8 s))[0]? with | none => _ | some m => _) = _
    rw [hm]
    simp only
    rw [if_neg (by omega), if_pos hw]
  rw [e]; rfl

/-- REGEXP_INSTR('éa', 'a') is 3. -/
theorem C212_full_false : ¬ C212_full := fun h => by
  have := (h litEngine litEngine_lawful 1 1 0).1 ['é', 'a'] ['a'] (0, [97]) (by rfl) rfl
  simp only [RegexpSpec.IsInstr] at this
  rw [if_neg (by decide), if_neg (by decide +kernel)] at this
  have e : (litEngine.findAll (0, [97]) (utf8 (['é', 'a'].drop ((1 : Int) - 1).toNat)))[((1 : Int) - 1).toNat]? =
      some ⟨(2, 3), []⟩ := by decide +kernel
  rw [e] at this
  have := this 1 (by decide +kernel) (by decide)
  revert this
  decide +kernel

example : instr litEngine (.str "xaby".toList) (.str "ab".toList) 1 1 1 = .ok (some 4) := by decide +kernel

end Verif.Regexps
