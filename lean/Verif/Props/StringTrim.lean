import Verif.Model.Strings

/-! # C59: TRIM, LTRIM, RTRIM -/

namespace Verif.Strings

open Go Val

/-- `r` is `s` without its longest prefix of elements of `cut`. -/
def LeftTrimmed {α} (s cut r : List α) : Prop :=
  ∃ p, s = p ++ r ∧ (∀ c ∈ p, c ∈ cut) ∧ ∀ c, r.head? = some c → c ∉ cut
/-- `r` is `s` without its longest suffix of elements of `cut`. -/
def RightTrimmed {α} (s cut r : List α) : Prop :=
  ∃ q, s = r ++ q ∧ (∀ c ∈ q, c ∈ cut) ∧ ∀ c, r.getLast? = some c → c ∉ cut
/-- `r` is `s` without both. -/
def Trimmed {α} (s cut r : List α) : Prop :=
  ∃ p q, s = p ++ r ++ q ∧ (∀ c ∈ p, c ∈ cut) ∧ (∀ c ∈ q, c ∈ cut) ∧
    (∀ c, r.head? = some c → c ∉ cut) ∧ (∀ c, r.getLast? = some c → c ∉ cut)

/-- Full C59. -/
def C59_full : Prop :=
  (∀ s cut : List Char, ∃ r l t, trimV (.str s) (some (.str cut)) = .ok (.str r) ∧ Trimmed s cut r ∧
    ltrimV (.str s) (some (.str cut)) = .ok (.str l) ∧ LeftTrimmed s cut l ∧
    rtrimV (.str s) (some (.str cut)) = .ok (.str t) ∧ RightTrimmed s cut t) ∧
  (∀ s cut : List UInt8, ∃ r l t, trimV (.bytes s) (some (.bytes cut)) = .ok (.bytes r) ∧ Trimmed s cut r ∧
    ltrimV (.bytes s) (some (.bytes cut)) = .ok (.bytes l) ∧ LeftTrimmed s cut l ∧
    rtrimV (.bytes s) (some (.bytes cut)) = .ok (.bytes t) ∧ RightTrimmed s cut t)

theorem dropWhile_split {α} (p : α → Bool) : ∀ s : List α, ∃ a, s = a ++ s.dropWhile p ∧ (∀ c ∈ a, p c = true) ∧
    ∀ c, (s.dropWhile p).head? = some c → p c = false
  | [] => ⟨[], rfl, by simp, by simp⟩
  | x :: s => by
    by_cases h : p x
    · obtain ⟨a, h1, h2, h3⟩ := dropWhile_split p s
      refine ⟨x :: a, ?_, ?_, ?_⟩
      · rw [List.dropWhile_cons_of_pos h, List.cons_append, ← h1]
      · intro c hc
        rcases List.mem_cons.mp hc with rfl | hc
        · exact h
        · exact h2 c hc
      · rw [List.dropWhile_cons_of_pos h]; exact h3
    · refine ⟨[], ?_, by simp, ?_⟩
      · rw [List.dropWhile_cons_of_neg h]; rfl
      · rw [List.dropWhile_cons_of_neg h]
        intro c hc
        simp at hc; subst hc
        simpa using h

theorem trimLeft_spec {α} [DecidableEq α] (s cut : List α) : LeftTrimmed s cut (trimLeft s cut) := by
  obtain ⟨a, h1, h2, h3⟩ := dropWhile_split (fun c => decide (c ∈ cut)) s
  exact ⟨a, h1, fun c hc => by simpa using h2 c hc, fun c hc => by simpa using h3 c hc⟩

theorem trimRight_spec {α} [DecidableEq α] (s cut : List α) : RightTrimmed s cut (trimRight s cut) := by
  obtain ⟨a, h1, h2, h3⟩ := dropWhile_split (fun c => decide (c ∈ cut)) s.reverse
  refine ⟨a.reverse, ?_, fun c hc => by simpa using h2 c (by simpa using hc), fun c hc => ?_⟩
  · have := congrArg List.reverse h1
    rw [List.reverse_reverse, List.reverse_append] at this
    exact this
  · unfold trimRight at hc
    rw [List.getLast?_reverse] at hc
    simpa using h3 c hc

/-- The longest prefix is unique. -/
theorem leftTrimmed_unique {α} {s cut r r' : List α} (h : LeftTrimmed s cut r) (h' : LeftTrimmed s cut r') : r = r' := by
  obtain ⟨p, e, hp, hr⟩ := h
  obtain ⟨p', e', hp', hr'⟩ := h'
  rw [e] at e'
  rcases List.append_eq_append_iff.mp e' with ⟨x, h1, h2⟩ | ⟨x, h1, h2⟩
  · cases x with
    | nil => simpa using h2
    | cons c x => exact absurd (hp' c (by rw [h1]; simp)) (hr c (by rw [h2]; rfl))
  · cases x with
    | nil => simpa using h2.symm
    | cons c x => exact absurd (hp c (by rw [h1]; simp)) (hr' c (by rw [h2]; rfl))

theorem rightTrimmed_unique {α} {s cut r r' : List α} (h : RightTrimmed s cut r) (h' : RightTrimmed s cut r') : r = r' := by
  have flip : ∀ {r : List α}, RightTrimmed s cut r → LeftTrimmed s.reverse cut r.reverse := by
    rintro r ⟨q, e, h1, h2⟩
    refine ⟨q.reverse, by rw [e]; simp, fun c hc => h1 c (by simpa using hc), fun c hc => h2 c ?_⟩
    rwa [List.head?_reverse] at hc
  have := leftTrimmed_unique (flip h) (flip h')
  simpa using this

theorem trim_spec {α} [DecidableEq α] (s cut : List α) : Trimmed s cut (trim s cut) := by
  obtain ⟨p, h1, h2, h3⟩ := trimLeft_spec s cut
  obtain ⟨q, g1, g2, g3⟩ := trimRight_spec (trimLeft s cut) cut
  refine ⟨p, q, ?_, h2, g2, ?_, g3⟩
  · rw [List.append_assoc]; unfold trim; rw [← g1]; exact h1
  · intro c hc
    apply h3
    rw [g1]
    unfold trim at hc
    cases he : trimRight (trimLeft s cut) cut with
    | nil => rw [he] at hc; simp at hc
    | cons x r => rw [he] at hc; simpa using hc

/-- **C59** TRIM, LTRIM and RTRIM of a STRING remove exactly the outer characters of the set; without a set,
spaces. -/
theorem C59_string (s : List Char) (cut : Option (List Char)) : ∃ r l t,
    trimV (.str s) (cut.map .str) = .ok (.str r) ∧ Trimmed s (cut.getD [' ']) r ∧
    ltrimV (.str s) (cut.map .str) = .ok (.str l) ∧ LeftTrimmed s (cut.getD [' ']) l ∧
    rtrimV (.str s) (cut.map .str) = .ok (.str t) ∧ RightTrimmed s (cut.getD [' ']) t := by
  cases cut with
  | none => exact ⟨_, _, _, rfl, trim_spec _ _, rfl, trimLeft_spec _ _, rfl, trimRight_spec _ _⟩
  | some c => exact ⟨_, _, _, rfl, trim_spec _ _, rfl, trimLeft_spec _ _, rfl, trimRight_spec _ _⟩

/-- **C59** TRIM of BYTES is right for a set of bytes below 128; LTRIM and RTRIM without a set remove spaces. -/
theorem C59_bytes_partial (s : List UInt8) (cut : List UInt8) (h : ∀ c ∈ cut, c.toNat < 128) : ∃ r l t,
    trimV (.bytes s) (some (.bytes cut)) = .ok (.bytes r) ∧ Trimmed s cut r ∧
    ltrimV (.bytes s) none = .ok (.bytes l) ∧ LeftTrimmed s [32] l ∧
    rtrimV (.bytes s) none = .ok (.bytes t) ∧ RightTrimmed s [32] t := by
  have e : trimBytes s cut = trim s cut := by
    unfold trimBytes
    rw [if_pos]
    simpa [List.all_eq_true] using h
  refine ⟨_, _, _, ?_, trim_spec s cut, rfl, trimLeft_spec s [32], rfl, trimRight_spec s [32]⟩
  simp only [trimV, e]

/-- **C59** LTRIM (RTRIM) of BYTES with a set: it uses the base64 text of the set, so it is right exactly
when the base64 text would cut the same. -/
theorem C59_bytes_base64_partial (s cut : List UInt8) :
    (∃ l, ltrimV (.bytes s) (some (.bytes cut)) = .ok (.bytes l) ∧
      (LeftTrimmed s cut l ↔ trimLeft s cut = trimLeft s (asciiBytes (Base64.encode cut)))) ∧
    (∃ l, rtrimV (.bytes s) (some (.bytes cut)) = .ok (.bytes l) ∧
      (RightTrimmed s cut l ↔ trimRight s cut = trimRight s (asciiBytes (Base64.encode cut)))) := by
  refine ⟨⟨_, rfl, fun h => leftTrimmed_unique (trimLeft_spec s cut) h, fun h => ?_⟩,
    ⟨_, rfl, fun h => rightTrimmed_unique (trimRight_spec s cut) h, fun h => ?_⟩⟩
  · rw [← h]; exact trimLeft_spec s cut
  · rw [← h]; exact trimRight_spec s cut

/-- LTRIM(b'abc', b'a') is b'abc': the base64 text of b'a' is 'YQ=='. -/
theorem C59_full_false : ¬ C59_full := by
  intro h
  obtain ⟨_, l, _, _, _, hl, hs, _⟩ := h.2 [97, 98, 99] [97]
  have e : ltrimV (.bytes [97, 98, 99]) (some (.bytes [97])) = .ok (.bytes [97, 98, 99]) := by
    simp only [ltrimV, cutset, Res.bind'_ok]
    congr 2
  rw [e] at hl
  cases hl
  obtain ⟨p, _, _, h3⟩ := hs
  exact h3 97 rfl (by simp)

/-- TRIM(b'\xfeA', b'\xff') is b'A': bytes that are not UTF-8 are all taken for U+FFFD. -/
theorem C59_trim_bytes_false : ¬ ∀ s cut : List UInt8, ∃ r, trimV (.bytes s) (some (.bytes cut)) = .ok (.bytes r) ∧ Trimmed s cut r := by
  intro h
  obtain ⟨r, hr, p, q, e, hp, hq, _⟩ := h [254, 65] [255]
  have e' : trimV (.bytes [254, 65]) (some (.bytes [255])) = .ok (.bytes [65]) := by
    simp only [trimV]
    congr 2
  rw [e'] at hr
  cases hr
  cases p with
  | nil => simp at e
  | cons a p =>
    simp at e
    have := hp a (by simp)
    rw [← e.1] at this
    simp at this

example : trimV (.str ['x','y','a','x','b','x']) (some (.str ['x','y'])) = .ok (.str ['a','x','b']) := by rfl

end Verif.Strings
