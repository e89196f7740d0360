import Verif.Model.Words
import Verif.Lemmas.Codec

/-!
# C214–C220: INITCAP, SOUNDEX, UPPER and LOWER, STARTS_WITH and ENDS_WITH, ASCII, lengths, SAFE_CONVERT_BYTES_TO_STRING
-/

namespace Verif.Words

open Go Verif.Val

/-! ### INITCAP -/

/-- `r` is `s` with the first character of every word in upper case and the others in lower case; words are separated
by the characters in `delim`, which stay as they are. -/
def IsInitcap (up low : Char → Char) (delim : Char → Prop) (s r : List Char) : Prop :=
  r.length = s.length ∧ ∀ i c, s[i]? = some c → ∀ d, r[i]? = some d →
    (delim c → d = c) ∧
    (¬ delim c → (i = 0 ∨ ∃ p, s[i - 1]? = some p ∧ delim p) → d = up c) ∧
    (¬ delim c → i ≠ 0 → (∀ p, s[i - 1]? = some p → ¬ delim p) → d = low c)

/-- The separators of INITCAP without a second argument: white space and the documented characters. -/
def documented (c : Char) : Prop := c.isWhitespace ∨ c ∈ "[](){}/|\\<>!?@\"^#$&~_,.:;*%+-".toList

/-- **C214** INITCAP capitalises the words, with the given or the documented separators. -/
def C214_full : Prop := ∀ up low : Char → Char, (∀ c, documented c → up c = c) → ∀ s : List Char,
  (∀ delims, IsInitcap up low (· ∈ delims) s (initcap up low s (some delims))) ∧
  IsInitcap up low documented s (initcap up low s none)

/-- What the loop writes: `start` says whether a word starts here. -/
def caps (up low : Char → Char) (delims : List Char) : Bool → List Char → List Char
  | _, [] => []
  | start, c :: cs => (if c ∈ delims then c else if start then up c else low c) :: caps up low delims (c ∈ delims) cs

theorem initcapLoop_eq (up low : Char → Char) (delims : List Char) : ∀ (n : Nat) (s : List Char), s.length ≤ n → ∀ first,
  (∀ c cs, s = c :: cs → initcapLoop up low delims first s =
      (if first then up c else if c ∈ delims then c else low c) :: caps up low delims (c ∈ delims) cs)
  | 0, [], _, _, c, cs, h => by cases h
  | n + 1, s, hn, first, c, cs, h => by
    subst h
    rw [initcapLoop.eq_def]
    simp only
    match cs with
    | [] => simp [caps]
    | d :: cs =>
      simp only
      by_cases hd : d ∈ delims
      · rw [if_pos hd, initcapLoop_eq up low delims n (d :: cs) (by simpa using hn) false d cs rfl]
        simp [caps, hd]
      · rw [if_neg hd]
        by_cases hc : c ∈ delims
        · rw [if_pos hc]
          match cs with
          | [] => simp [initcapLoop, caps, hd, hc]
          | e :: cs =>
            rw [initcapLoop_eq up low delims n (e :: cs) (by simp at hn ⊢; omega) false e cs rfl]
            simp [caps, hd, hc]
        · rw [if_neg hc, initcapLoop_eq up low delims n (d :: cs) (by simpa using hn) false d cs rfl]
          simp [caps, hd, hc]

theorem caps_spec (up low : Char → Char) (delims : List Char) : ∀ (s : List Char) (start : Bool),
    (caps up low delims start s).length = s.length ∧ ∀ i c, s[i]? = some c → (caps up low delims start s)[i]? =
      some (if c ∈ delims then c else if (i = 0 ∧ start) ∨ (i ≠ 0 ∧ ∃ p, s[i - 1]? = some p ∧ p ∈ delims) then up c else low c)
  | [], start => ⟨rfl, fun i c h => by simp at h⟩
  | x :: s, start => by
    obtain ⟨h1, h2⟩ := caps_spec up low delims s (x ∈ delims)
    refine ⟨by simp [caps, h1], fun i c h => ?_⟩
    cases i with
    | zero =>
      simp only [List.getElem?_cons_zero, Option.some.injEq] at h
      subst h
      simp [caps]
    | succ i =>
      simp only [List.getElem?_cons_succ] at h
      simp only [caps, List.getElem?_cons_succ, h2 i c h]
      congr 2
      cases i with
      | zero => simp
      | succ i => simp

/-- **C214** with given separators: INITCAP is right exactly unless the text starts with a separator that is a lower
case letter. -/
theorem C214_partial (up low : Char → Char) (s delims : List Char) :
    IsInitcap up low (· ∈ delims) s (initcap up low s (some delims)) ↔
      ∀ c, s.head? = some c → c ∈ delims → up c = c := by
  cases s with
  | nil => simp [IsInitcap, initcap, initcapLoop]
  | cons c cs =>
    have e : initcap up low (c :: cs) (some delims) = up c :: caps up low delims (c ∈ delims) cs := by
      simp only [initcap, Option.getD_some]
      rw [initcapLoop_eq up low delims (cs.length + 1) (c :: cs) (by simp) true c cs rfl]
      rfl
    rw [e]
    obtain ⟨h1, h2⟩ := caps_spec up low delims cs (c ∈ delims)
    constructor
    · rintro ⟨_, h⟩ c' hc' hd
      cases hc'
      exact (h 0 c rfl (up c) rfl).1 hd
    · intro h
      refine ⟨by simp [h1], fun i x hx d hd => ?_⟩
      cases i with
      | zero =>
        simp only [List.getElem?_cons_zero, Option.some.injEq] at hx hd
        subst hx; subst hd
        exact ⟨fun hm => h c rfl hm, fun _ _ => rfl, fun _ h0 => absurd rfl h0⟩
      | succ i =>
        simp only [List.getElem?_cons_succ] at hx hd
        rw [h2 i x hx] at hd
        simp only [Option.some.injEq] at hd
        subst hd
        have hp : ((i = 0 ∧ decide (c ∈ delims) = true) ∨ (i ≠ 0 ∧ ∃ p, cs[i - 1]? = some p ∧ p ∈ delims)) ↔
            ∃ p, (c :: cs)[i + 1 - 1]? = some p ∧ p ∈ delims := by
          cases i with
          | zero => simp
          | succ i => simp
        refine ⟨fun hm => if_pos hm, fun hm hor => ?_, fun hm _ hall => ?_⟩
        · rw [if_neg hm, if_pos]
          rcases hor with h0 | h0
          · omega
          · exact hp.mpr h0
        · rw [if_neg hm, if_neg]
          intro hh
          obtain ⟨p, hp1, hp2⟩ := hp.mp hh
          exact hall p hp1 hp2

/-- **C214** with the documented separators: right for every text without white space other than spaces. -/
theorem C214_default_partial (up low : Char → Char) (hup : ∀ c, documented c → up c = c) (s : List Char)
    (hs : ∀ c ∈ s, c.isWhitespace → c = ' ') : IsInitcap up low documented s (initcap up low s none) := by
  have hd : ∀ c ∈ s, (documented c ↔ c ∈ defaultDelims) := by
    intro c hc
    constructor
    · rintro (h | h)
      · rw [hs c hc h]; decide
      · revert h
        have : ∀ x ∈ "[](){}/|\\<>!?@\"^#$&~_,.:;*%+-".toList, x ∈ defaultDelims := by decide +kernel
        exact this c
    · intro h
      have : ∀ x ∈ defaultDelims, x.isWhitespace ∨ x ∈ "[](){}/|\\<>!?@\"^#$&~_,.:;*%+-".toList := by decide +kernel
      exact this c h
  have h := (C214_partial up low s defaultDelims).mpr fun c hc hm =>
    hup c ((hd c (List.mem_of_mem_head? hc)).mpr hm)
  obtain ⟨h1, h2⟩ := h
  refine ⟨h1, fun i c hc d hd' => ?_⟩
  obtain ⟨a1, a2, a3⟩ := h2 i c hc d hd'
  have hm := hd c (List.mem_of_getElem? hc)
  refine ⟨fun h => a1 (hm.mp h), fun h h' => a2 (fun x => h (hm.mpr x)) ?_, fun h h' h'' => a3 (fun x => h (hm.mpr x)) h' ?_⟩
  · rcases h' with h' | ⟨p, hp, hp'⟩
    · exact .inl h'
    · exact .inr ⟨p, hp, (hd p (List.mem_of_getElem? hp)).mp hp'⟩
  · exact fun p hp hp' => h'' p hp ((hd p (List.mem_of_getElem? hp)).mpr hp')

/-- INITCAP of 'a', a tabulator and 'b' leaves the b. -/
theorem C214_full_false : ¬ C214_full := fun h => by
  have hup : ∀ c, documented c → c.toUpper = c := by
    rintro c (h | h)
    · simp only [Char.isWhitespace, Bool.or_eq_true, decide_eq_true_eq] at h
      rcases h with ((h | h) | h) | h <;> (subst h; rfl)
    · revert h
      have : ∀ x ∈ "[](){}/|\\<>!?@\"^#$&~_,.:;*%+-".toList, x.toUpper = x := by decide +kernel
      exact this c
  have := ((h Char.toUpper Char.toLower hup ['a', '\t', 'b']).2.2 2 'b' rfl 'b' (by decide +kernel)).2.1
    (by unfold documented; decide +kernel) (.inr ⟨'\t', rfl, .inl (by decide)⟩)
  revert this
  decide

example : initcap Char.toUpper Char.toLower "hello WORLD-x".toList none = "Hello World-X".toList := by decide +kernel

/-! ### SOUNDEX -/

/-- The digit of a letter in the Soundex code, `0` for vowels. -/
def digit (c : Char) : Char :=
  if c ∈ "BFPV".toList then '1' else if c ∈ "CGJKQSXZ".toList then '2' else if c ∈ "DT".toList then '3'
  else if c = 'L' then '4' else if c ∈ "MN".toList then '5' else if c = 'R' then '6' else '0'

/-- Equal neighbours are written once; `p` is the neighbour before. -/
def once (p : Char) : List Char → List Char
  | [] => []
  | d :: ds => if d = p then once p ds else d :: once d ds

/-- The American Soundex code: the first letter in upper case and three digits; H and W do not count, neighbours with
equal digits are coded once, vowels separate and are not coded. -/
def american (s : List Char) : List Char :=
  match (s.filter Char.isAlpha).map Char.toUpper with
  | [] => []
  | c :: cs => c :: (((once (digit c) ((cs.filter fun x => x ≠ 'H' ∧ x ≠ 'W').map digit)).filter (· ≠ '0')) ++ ['0', '0', '0']).take 3

/-- **C215** SOUNDEX is the American Soundex code of the letters. -/
def C215_full : Prop := ∀ s, soundex s = american s

/-- No two equal digits are separated by vowels only.  `p` is the digit before, `v` says whether vowels were seen
since. -/
def unseparated (p : Char) (v : Bool) : List Char → Bool
  | [] => true
  | d :: ds => if d = '0' then unseparated p true ds else !(v && d == p) && unseparated d false ds

theorem code_eq (c : Char) : code c = digit c.toUpper := by
  have e1 : "BFPV".toList = ['B', 'F', 'P', 'V'] := rfl
  have e2 : "CGJKQSXZ".toList = ['C', 'G', 'J', 'K', 'Q', 'S', 'X', 'Z'] := rfl
  have e3 : "DT".toList = ['D', 'T'] := rfl
  have e4 : "MN".toList = ['M', 'N'] := rfl
  simp only [code, soundexMap, digit, e1, e2, e3, e4, List.mem_singleton]

theorem soundexLoop_eq : ∀ (s : List Char) (n : Nat) (p q : Char), (q = p ∨ q = '0') →
    unseparated p (q ≠ p) ((((s.filter Char.isAlpha).map Char.toUpper).filter fun x => x ≠ 'H' ∧ x ≠ 'W').map digit) = true →
    soundexLoop p n s = (((once q ((((s.filter Char.isAlpha).map Char.toUpper).filter fun x => x ≠ 'H' ∧ x ≠ 'W').map digit)).filter (· ≠ '0'))
      ++ List.replicate n '0').take n
  | s, 0, _, _, _, _ => by rw [soundexLoop]; simp
  | [], n + 1, _, _, _, _ => by simp [soundexLoop, once]
  | c :: s, n + 1, p, q, hq, h => by
    rw [soundexLoop]
    by_cases hl : c.isAlpha
    · simp only [isLetter, hl, Bool.true_eq_false, ↓reduceIte]
      simp only [List.filter_cons, hl, if_true, List.map_cons] at h ⊢
      by_cases hw : c.toUpper = 'H' ∨ c.toUpper = 'W'
      · have hz : code c = '0' := by rw [code_eq]; rcases hw with e | e <;> rw [e] <;> decide +kernel
        have hf : decide (c.toUpper ≠ 'H' ∧ c.toUpper ≠ 'W') = false := by
          rcases hw with e | e <;> simp [e]
        rw [if_pos (.inr hz)]
        simp only [hf, Bool.false_eq_true, if_false] at h ⊢
        exact soundexLoop_eq s (n + 1) p q hq h
      · have hf : decide (c.toUpper ≠ 'H' ∧ c.toUpper ≠ 'W') = true := by
          simp only [decide_eq_true_eq]; exact ⟨fun e => hw (.inl e), fun e => hw (.inr e)⟩
        simp only [hf, if_true, List.map_cons, ← code_eq] at h ⊢
        by_cases hz : code c = '0'
        · rw [if_pos (.inr hz)]
          simp only [unseparated, hz, if_true] at h
          by_cases hqz : q = '0'
          · have hq' : once q (code c :: List.map digit (((s.filter Char.isAlpha).map Char.toUpper).filter fun x => x ≠ 'H' ∧ x ≠ 'W')) =
                once q (List.map digit (((s.filter Char.isAlpha).map Char.toUpper).filter fun x => x ≠ 'H' ∧ x ≠ 'W')) := by
              rw [once, if_pos (by rw [hz, hqz])]
            rw [hq']
            apply soundexLoop_eq s (n + 1) p q hq
            by_cases hpq : q = p
            · have : ∀ v l, unseparated '0' v l = unseparated '0' true l := by
                intro v l
                cases l with
                | nil => rfl
                | cons d ds =>
                  simp only [unseparated]
                  by_cases hd : d = '0'
                  · simp [hd]
                  · simp [hd, beq_eq_false_iff_ne.mpr hd]
              rw [show p = '0' from hpq ▸ hqz] at h ⊢
              rw [this]; exact h
            · simpa [hpq] using h
          · have hqp : q = p := hq.resolve_right hqz
            have hq' : once q (code c :: List.map digit (((s.filter Char.isAlpha).map Char.toUpper).filter fun x => x ≠ 'H' ∧ x ≠ 'W')) =
                '0' :: once '0' (List.map digit (((s.filter Char.isAlpha).map Char.toUpper).filter fun x => x ≠ 'H' ∧ x ≠ 'W')) := by
              rw [once, if_neg (by rw [hz]; exact fun e => hqz e.symm), hz]
            rw [hq', List.filter_cons_of_neg (by simp)]
            apply soundexLoop_eq s (n + 1) p '0' (.inr rfl)
            have : ('0' : Char) ≠ p := by rw [← hqp]; exact fun e => hqz e.symm
            simpa [this] using h
        · simp only [unseparated, if_neg hz, Bool.and_eq_true, Bool.not_eq_true', Bool.and_eq_false_iff] at h
          by_cases hp : code c = p
          · rw [if_pos (.inl hp)]
            have hqp : q = p := by
              rcases h.1 with h1 | h1
              · simpa using h1
              · rw [hp] at h1; simp at h1
            rw [once, if_pos (by rw [hp, hqp])]
            apply soundexLoop_eq s (n + 1) p q hq
            rw [hqp]
            rw [hp] at h
            simpa using h.2
          · rw [if_neg (fun e => e.elim hp hz)]
            have hq' : code c ≠ q := by
              rcases hq with e | e
              · rw [e]; exact hp
              · rw [e]; exact hz
            rw [once, if_neg hq', List.filter_cons_of_pos (by simpa using hz), List.cons_append, List.take_succ_cons]
            congr 1
            rw [soundexLoop_eq s n (code c) (code c) (.inl rfl) (by simpa using h.2)]
            rw [List.take_append, List.take_append, List.take_replicate, List.take_replicate]
            congr 2
            omega
    · have hl : c.isAlpha = false := by simpa using hl
      rw [if_pos (show isLetter c = false from hl)]
      simp only [List.filter_cons, hl, Bool.false_eq_true, if_false] at h ⊢
      exact soundexLoop_eq s (n + 1) p q hq h


/-- The digits of a text after its first letter, H and W left out. -/
def digitsAfter (cs : List Char) : List Char := (cs.filter fun x => x ≠ 'H' ∧ x ≠ 'W').map digit

theorem soundex_eq : ∀ s : List Char, (∀ c cs, s.filter Char.isAlpha = c :: cs →
      unseparated (digit c.toUpper) false (digitsAfter (cs.map Char.toUpper)) = true) →
    soundex s = match s.filter Char.isAlpha with
      | [] => []
      | c :: _ => c :: (american s).tail
  | [], _ => rfl
  | c :: s, h => by
    rw [soundex]
    by_cases hl : c.isAlpha
    · simp only [isLetter, hl, Bool.true_eq_false, ↓reduceIte, List.filter_cons_of_pos]
      simp only [hl, List.filter_cons_of_pos] at h
      congr 1
      rw [code_eq]
      have := soundexLoop_eq s 3 (digit c.toUpper) (digit c.toUpper) (.inl rfl) (by simpa [digitsAfter] using h c _ rfl)
      rw [this]
      simp [american, hl]
    · have hl : c.isAlpha = false := by simpa using hl
      rw [if_pos (show isLetter c = false from hl)]
      have hf : (c :: s).filter Char.isAlpha = s.filter Char.isAlpha := List.filter_cons_of_neg (by simp [hl])
      rw [hf] at h ⊢
      rw [soundex_eq s h]
      simp only [american, hf]

/-- **C215** if no two letters with equal digits are separated by vowels only: right exactly if the first letter is a
capital. -/
theorem C215_partial (s : List Char) (h : ∀ c cs, s.filter Char.isAlpha = c :: cs →
      unseparated (digit c.toUpper) false (digitsAfter (cs.map Char.toUpper)) = true) :
    soundex s = american s ↔ ∀ c cs, s.filter Char.isAlpha = c :: cs → c.toUpper = c := by
  rw [soundex_eq s h]
  cases hs : s.filter Char.isAlpha with
  | nil => simp [american, hs]
  | cons c cs =>
    simp only [american, hs, List.map_cons, List.tail_cons, List.cons.injEq, and_true]
    constructor
    · rintro e _ _ ⟨rfl, rfl⟩; exact e.symm
    · intro e; exact (e c cs ⟨rfl, rfl⟩).symm

theorem soundexLoop_shape : ∀ (s : List Char) (p : Char) (n : Nat), (soundexLoop p n s).length = n ∧
    ∀ d ∈ soundexLoop p n s, d.isDigit
  | s, _, 0 => by simp [soundexLoop]
  | [], _, n + 1 => by
    refine ⟨by simp [soundexLoop], fun d hd => ?_⟩
    rw [soundexLoop] at hd
    rw [(List.mem_replicate.mp hd).2]; decide
  | c :: s, p, n + 1 => by
    rw [soundexLoop]
    split
    · exact soundexLoop_shape s p (n + 1)
    · split
      · exact soundexLoop_shape s p (n + 1)
      · obtain ⟨h1, h2⟩ := soundexLoop_shape s (code c) n
        refine ⟨by simp [h1], fun d hd => ?_⟩
        rcases List.mem_cons.mp hd with rfl | hd
        · unfold code soundexMap
          split; · decide
          split; · decide
          split; · decide
          split; · decide
          split; · decide
          split <;> decide
        · exact h2 d hd

/-- **C215** SOUNDEX is the empty text without letters, else the first letter and three digits. -/
theorem C215_shape (s : List Char) : match s.filter Char.isAlpha with
    | [] => soundex s = []
    | c :: _ => ∃ ds, soundex s = c :: ds ∧ ds.length = 3 ∧ ∀ d ∈ ds, d.isDigit := by
  induction s with
  | nil => rfl
  | cons c s ih =>
    by_cases hl : c.isAlpha
    · rw [List.filter_cons_of_pos hl]
      simp only
      refine ⟨soundexLoop (code c) 3 s, ?_, soundexLoop_shape s _ 3⟩
      rw [soundex, if_neg (by simp [isLetter, hl])]
    · have hl : c.isAlpha = false := by simpa using hl
      rw [List.filter_cons_of_neg (by simp [hl]), soundex, if_pos (by simp [isLetter, hl])]
      exact ih

/-- SOUNDEX('ashcraft') starts with a small letter; SOUNDEX('Tymczak') is T520, not T522. -/
theorem C215_full_false : ¬ C215_full := fun h => by
  have := h "Tymczak".toList
  revert this
  decide +kernel

theorem C215_case_false : soundex "ashcraft".toList = "a261".toList ∧ american "ashcraft".toList = "A261".toList := by
  decide +kernel

example : soundex "Ashcraft".toList = "A261".toList ∧ american "Ashcraft".toList = "A261".toList ∧
    american "Tymczak".toList = "T522".toList ∧ american "Robert".toList = "R163".toList := by decide +kernel

end Verif.Words
