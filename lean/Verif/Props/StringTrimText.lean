import Verif.Props.StringTrim
import Verif.Lemmas.Codec

/-! # C59: TRIM of BYTES that are texts -/

namespace Verif.Strings

open Go Val

theorem enc_low {c : Char} (h : c.toNat < 128) : String.utf8EncodeChar c = [UInt8.ofNat c.toNat] := by
  have h' : c.val.toNat ≤ 127 := by have : c.toNat = c.val.toNat := rfl; omega
  simp only [String.utf8EncodeChar, h', if_true]
  rfl

/-- The bytes of a character outside ASCII: the first can start a rune, the others cannot. -/
theorem enc_high {c : Char} (h : ¬ c.toNat < 128) : ∃ a rest, String.utf8EncodeChar c = a :: rest ∧ 192 ≤ a.toNat ∧ rest ≠ [] ∧
    rest.length ≤ 3 ∧ ∀ x ∈ rest, 128 ≤ x.toNat ∧ x.toNat < 192 := by
  have h' : ¬ c.val.toNat ≤ 127 := by have : c.toNat = c.val.toNat := rfl; omega
  have hv : c.val.toNat < 55296 ∨ 57343 < c.val.toNat ∧ c.val.toNat < 1114112 := c.valid
  simp only [String.utf8EncodeChar, h', if_false]
  generalize c.val.toNat = n at *
  split
  · refine ⟨_, _, rfl, by rw [UInt8.toNat_ofNat']; omega, by simp, by simp, ?_⟩
    simp only [List.mem_singleton, forall_eq]
    rw [UInt8.toNat_ofNat']; omega
  · split
    · refine ⟨_, _, rfl, by rw [UInt8.toNat_ofNat']; omega, by simp, by simp, ?_⟩
      intro x hx
      simp only [List.mem_cons, List.not_mem_nil, or_false] at hx
      rcases hx with rfl | rfl <;> rw [UInt8.toNat_ofNat'] <;> omega
    · refine ⟨_, _, rfl, by rw [UInt8.toNat_ofNat']; omega, by simp, by simp, ?_⟩
      intro x hx
      simp only [List.mem_cons, List.not_mem_nil, or_false] at hx
      rcases hx with rfl | rfl | rfl <;> rw [UInt8.toNat_ofNat'] <;> omega

/-- utf8.DecodeLastRune after a character. -/
theorem decodeLast_encode (p : List UInt8) (c : Char) :
    decodeLast (p ++ String.utf8EncodeChar c) = (c.toNat, (String.utf8EncodeChar c).length) := by
  by_cases hc : c.toNat < 128
  · rw [enc_low hc]
    have h : (UInt8.ofNat c.toNat).toNat = c.toNat := by rw [UInt8.toNat_ofNat']; omega
    simp [decodeLast, h, hc]
  · obtain ⟨a, rest, he, ha, hne, hlen, hr⟩ := enc_high hc
    have hd := Codec.decodeRune_encode c []
    rw [List.append_nil, he] at hd
    rw [he]
    have hlast : ∃ z, (p ++ a :: rest).getLast? = some z ∧ ¬ z.toNat < 128 := by
      rw [List.getLast?_append, List.getLast?_cons]
      cases hg : rest.getLast? with
      | none => rw [List.getLast?_eq_none_iff] at hg; exact absurd hg hne
      | some z =>
        have := hr z (List.mem_of_getLast? hg)
        exact ⟨z, by simp, by omega⟩
    obtain ⟨z, hz, hz'⟩ := hlast
    have hget : ∀ i, i ≤ rest.length → (p ++ a :: rest).getD ((p ++ a :: rest).length - (i + 1)) 0 = (a :: rest).getD (rest.length - i) 0 := by
      intro i hi
      simp only [List.getD_eq_getElem?_getD]
      rw [List.getElem?_append_right (by simp; omega)]
      congr 2
      simp; omega
    have hn : ∀ n, n = rest.length + 1 →
        decodeRune ((p ++ a :: rest).drop ((p ++ a :: rest).length - n)) = (c.toNat, rest.length + 1) := by
      intro n hn
      subst hn
      have : (p ++ a :: rest).length - (rest.length + 1) = p.length := by simp
      rw [this, List.drop_left, hd]
      simp
    have hcont : ∀ (i : Nat) (x : UInt8), rest[i]? = some x → 128 ≤ x.toNat ∧ x.toNat < 192 := fun i x h => hr x (List.mem_of_getElem? h)
    simp only [decodeLast, hz, Option.getD_some, hz', if_false]
    match rest, hne, hlen, hget, hn, hcont with
    | [b], _, _, hget, hn, _ =>
      have g1 := hget 1 (by simp)
      simp only [List.length_singleton, Nat.sub_self, List.getD_cons_zero] at g1
      have e : (decide (2 ≤ (p ++ [a, b]).length) && decide (¬ (128 ≤ ((p ++ [a, b]).getD ((p ++ [a, b]).length - 2) 0).toNat ∧
          ((p ++ [a, b]).getD ((p ++ [a, b]).length - 2) 0).toNat < 192))) = true := by
        rw [g1]; simp; omega
      simp only [e, if_true, hn 2 rfl, List.length_cons, List.length_nil]
    | [b, d], _, _, hget, hn, hcont =>
      have g1 := hget 1 (by simp)
      have g2 := hget 2 (by simp)
      simp only [List.length_cons, List.length_nil, Nat.reduceAdd, Nat.sub_self, Nat.reduceSub, List.getD_cons_zero, List.getD_cons_succ] at g1 g2
      have hb := hcont 0 b rfl
      have e2 : (decide (2 ≤ (p ++ [a, b, d]).length) && decide (¬ (128 ≤ ((p ++ [a, b, d]).getD ((p ++ [a, b, d]).length - 2) 0).toNat ∧
          ((p ++ [a, b, d]).getD ((p ++ [a, b, d]).length - 2) 0).toNat < 192))) = false := by
        simp only [List.length_append, List.length_cons, List.length_nil] at g1 ⊢
        rw [g1]; simp [hb]
      have e3 : (decide (3 ≤ (p ++ [a, b, d]).length) && decide (¬ (128 ≤ ((p ++ [a, b, d]).getD ((p ++ [a, b, d]).length - 3) 0).toNat ∧
          ((p ++ [a, b, d]).getD ((p ++ [a, b, d]).length - 3) 0).toNat < 192))) = true := by
        simp only [List.length_append, List.length_cons, List.length_nil] at g2 ⊢
        rw [g2]; simp; omega
      simp only [e2, e3, Bool.false_eq_true, if_false, if_true, hn 3 rfl, List.length_cons, List.length_nil]
    | [b, d, e], _, _, hget, hn, hcont =>
      have g1 := hget 1 (by simp)
      have g2 := hget 2 (by simp)
      have g3 := hget 3 (by simp)
      simp only [List.length_cons, List.length_nil, Nat.reduceAdd, Nat.sub_self, Nat.reduceSub, List.getD_cons_zero, List.getD_cons_succ] at g1 g2 g3
      have hb := hcont 0 b rfl
      have hd' := hcont 1 d rfl
      have e2 : (decide (2 ≤ (p ++ [a, b, d, e]).length) && decide (¬ (128 ≤ ((p ++ [a, b, d, e]).getD ((p ++ [a, b, d, e]).length - 2) 0).toNat ∧
          ((p ++ [a, b, d, e]).getD ((p ++ [a, b, d, e]).length - 2) 0).toNat < 192))) = false := by
        simp only [List.length_append, List.length_cons, List.length_nil] at g1 ⊢
        rw [g1]; simp [hd']
      have e3 : (decide (3 ≤ (p ++ [a, b, d, e]).length) && decide (¬ (128 ≤ ((p ++ [a, b, d, e]).getD ((p ++ [a, b, d, e]).length - 3) 0).toNat ∧
          ((p ++ [a, b, d, e]).getD ((p ++ [a, b, d, e]).length - 3) 0).toNat < 192))) = false := by
        simp only [List.length_append, List.length_cons, List.length_nil] at g2 ⊢
        rw [g2]; simp [hb]
      have e4 : (decide (4 ≤ (p ++ [a, b, d, e]).length) && decide (¬ (128 ≤ ((p ++ [a, b, d, e]).getD ((p ++ [a, b, d, e]).length - 4) 0).toNat ∧
          ((p ++ [a, b, d, e]).getD ((p ++ [a, b, d, e]).length - 4) 0).toNat < 192))) = true := by
        simp only [List.length_append, List.length_cons, List.length_nil] at g3 ⊢
        rw [g3]; simp; omega
      simp only [e2, e3, e4, Bool.false_eq_true, if_false, if_true, hn 4 rfl, List.length_cons, List.length_nil]

theorem toNat_mem (c : Char) (cut : List Char) : c.toNat ∈ cut.map Char.toNat ↔ c ∈ cut := by
  rw [List.mem_map]
  constructor
  · rintro ⟨d, hd, he⟩
    have : d = c := Char.toNat_inj.mp he
    exact this ▸ hd
  · exact fun h => ⟨c, h, rfl⟩

theorem trimLeftRunes_text (cut : List Char) : ∀ (s : List Char) (n : Nat), s.length ≤ n →
    trimLeftRunes (cut.map Char.toNat) n (utf8 s) = utf8 (trimLeft s cut)
  | [], n, _ => by cases n <;> rfl
  | c :: s, 0, h => by simp at h
  | c :: s, n + 1, h => by
    have hd : decodeRune (utf8 (c :: s)) = (c.toNat, (String.utf8EncodeChar c).length) := Codec.decodeRune_encode c (utf8 s)
    have hdrop : (utf8 (c :: s)).drop (String.utf8EncodeChar c).length = utf8 s := by rw [utf8_cons, List.drop_left]
    have hne : ∃ x xs, utf8 (c :: s) = x :: xs := by
      have := Codec.encodeChar_pos c
      rw [utf8_cons]
      cases he : String.utf8EncodeChar c with
      | nil => rw [he] at this; simp at this
      | cons x xs => exact ⟨x, xs ++ utf8 s, rfl⟩
    obtain ⟨x, xs, hx⟩ := hne
    have step : trimLeftRunes (cut.map Char.toNat) (n + 1) (utf8 (c :: s)) =
        if (decodeRune (utf8 (c :: s))).1 ∈ cut.map Char.toNat then
          trimLeftRunes (cut.map Char.toNat) n ((utf8 (c :: s)).drop (decodeRune (utf8 (c :: s))).2) else utf8 (c :: s) := by
      rw [hx]; rfl
    rw [step, hd]
    simp only [toNat_mem]
    by_cases hc : c ∈ cut
    · rw [if_pos hc, hdrop, trimLeftRunes_text cut s n (by simp at h; omega)]
      simp [trimLeft, hc]
    · rw [if_neg hc]
      simp [trimLeft, hc]

theorem trimRight_concat {α} [DecidableEq α] (s : List α) (c : α) (cut : List α) :
    trimRight (s ++ [c]) cut = if c ∈ cut then trimRight s cut else s ++ [c] := by
  simp only [trimRight, List.reverse_append, List.reverse_singleton, List.singleton_append, List.dropWhile_cons]
  by_cases hc : c ∈ cut <;> simp [hc]

theorem trimRightRunes_text (cut : List Char) : ∀ (n : Nat) (s : List Char), s.length ≤ n →
    trimRightRunes (cut.map Char.toNat) n (utf8 s) = utf8 (trimRight s cut) := by
  intro n
  induction n with
  | zero =>
    intro s h
    have : s = [] := List.eq_nil_of_length_eq_zero (by omega)
    subst this; rfl
  | succ n ih =>
    intro s h
    rcases List.eq_nil_or_concat s with rfl | ⟨s', c, rfl⟩
    · rfl
    · rw [List.concat_eq_append] at h ⊢
      have he : utf8 (s' ++ [c]) = utf8 s' ++ String.utf8EncodeChar c := by rw [utf8_append, utf8_cons]; simp
      have hd := decodeLast_encode (utf8 s') c
      have hne : ∃ x xs, utf8 s' ++ String.utf8EncodeChar c = x :: xs := by
        have := Codec.encodeChar_pos c
        cases hh : utf8 s' ++ String.utf8EncodeChar c with
        | nil => rw [List.append_eq_nil_iff] at hh; rw [hh.2] at this; simp at this
        | cons x xs => exact ⟨x, xs, rfl⟩
      obtain ⟨x, xs, hx⟩ := hne
      have step : ∀ b, b = x :: xs → trimRightRunes (cut.map Char.toNat) (n + 1) b =
          if (decodeLast b).1 ∈ cut.map Char.toNat then
            trimRightRunes (cut.map Char.toNat) n (b.take (b.length - (decodeLast b).2)) else b := by
        rintro b rfl; rfl
      rw [he, step _ hx, hd]
      simp only [toNat_mem]
      rw [trimRight_concat]
      by_cases hc : c ∈ cut
      · rw [if_pos hc, if_pos hc]
        have : (utf8 s' ++ String.utf8EncodeChar c).length - (String.utf8EncodeChar c).length = (utf8 s').length := by simp
        rw [this, List.take_left, ih s' (by simp at h; omega)]
      · rw [if_neg hc, if_neg hc, he]

/-- The bytes of an ASCII set. -/
theorem low_mem {cut : List Char} (h : ∀ x ∈ utf8 cut, x.toNat < 128) : ∀ c ∈ cut, c.toNat < 128 := by
  intro c hc
  apply Classical.byContradiction
  intro hn
  obtain ⟨a, rest, he, ha, _⟩ := enc_high hn
  have : a ∈ utf8 cut := by
    unfold utf8
    rw [List.mem_flatMap]
    exact ⟨c, hc, by rw [he]; simp⟩
  have := h a this
  omega

theorem byte_mem {cut : List Char} (h : ∀ c ∈ cut, c.toNat < 128) (c : Char) (hc : c.toNat < 128) :
    UInt8.ofNat c.toNat ∈ utf8 cut ↔ c ∈ cut := by
  unfold utf8
  rw [List.mem_flatMap]
  constructor
  · rintro ⟨d, hd, he⟩
    have hd' := h d hd
    rw [enc_low hd', List.mem_singleton] at he
    have e := congrArg UInt8.toNat he
    rw [UInt8.toNat_ofNat', UInt8.toNat_ofNat', Nat.mod_eq_of_lt (by omega), Nat.mod_eq_of_lt (by omega)] at e
    exact (Char.toNat_inj.mp e) ▸ hd
  · intro h'
    exact ⟨c, h', by rw [enc_low hc]; simp⟩

theorem trimLeft_low {cut : List Char} (h : ∀ x ∈ utf8 cut, x.toNat < 128) : ∀ s : List Char,
    trimLeft (utf8 s) (utf8 cut) = utf8 (trimLeft s cut)
  | [] => rfl
  | c :: s => by
    have hl := low_mem h
    by_cases hc : c.toNat < 128
    · have hm := byte_mem hl c hc
      have ih := trimLeft_low h s
      unfold trimLeft at ih ⊢
      rw [utf8_cons, enc_low hc, List.singleton_append, List.dropWhile_cons, List.dropWhile_cons]
      by_cases hcc : c ∈ cut
      · simp only [hm, hcc, decide_true, if_true]; exact ih
      · simp only [hm, hcc, decide_false, Bool.false_eq_true, if_false]
        rw [utf8_cons, enc_low hc]; rfl
    · obtain ⟨a, rest, he, ha, _⟩ := enc_high hc
      have hna : a ∉ utf8 cut := fun hm => by have := h a hm; omega
      have hnc : c ∉ cut := fun hm => hc (hl c hm)
      simp [trimLeft, he, hna, hnc]

theorem trimRight_low {cut : List Char} (h : ∀ x ∈ utf8 cut, x.toNat < 128) : ∀ (n : Nat) (s : List Char), s.length ≤ n →
    trimRight (utf8 s) (utf8 cut) = utf8 (trimRight s cut) := by
  intro n
  induction n with
  | zero =>
    intro s hs
    have : s = [] := List.eq_nil_of_length_eq_zero (by omega)
    subst this; rfl
  | succ n ih =>
    intro s hs
    rcases List.eq_nil_or_concat s with rfl | ⟨s', c, rfl⟩
    · rfl
    · rw [List.concat_eq_append] at hs ⊢
      have hl := low_mem h
      have he : utf8 (s' ++ [c]) = utf8 s' ++ String.utf8EncodeChar c := by rw [utf8_append, utf8_cons]; simp
      rw [he, trimRight_concat]
      by_cases hc : c.toNat < 128
      · rw [enc_low hc, trimRight_concat]
        simp only [byte_mem hl c hc]
        by_cases hcc : c ∈ cut
        · rw [if_pos hcc, if_pos hcc, ih s' (by simp at hs; omega)]
        · rw [if_neg hcc, if_neg hcc, he, enc_low hc]
      · obtain ⟨a, rest, hee, ha, hne, _, hr⟩ := enc_high hc
        have hnc : c ∉ cut := fun hm => hc (hl c hm)
        rw [if_neg hnc, he, hee]
        rcases List.eq_nil_or_concat rest with rfl | ⟨r', z, rfl⟩
        · exact absurd rfl hne
        · have hz := hr z (by simp)
          have hnz : z ∉ utf8 cut := fun hm => by have := h z hm; omega
          have : utf8 s' ++ a :: r'.concat z = (utf8 s' ++ a :: r') ++ [z] := by simp
          rw [this, trimRight_concat, if_neg hnz]

theorem length_le_utf8 (s : List Char) : s.length ≤ (utf8 s).length := by
  induction s with
  | nil => simp
  | cons c s ih =>
    have := Codec.encodeChar_pos c
    rw [utf8_cons, List.length_append, List.length_cons]
    omega

/-- **C59** TRIM of BYTES, when the value and the set are both the bytes of a text (ASCII or not): the result is the text without the
leading and trailing characters of the set, never part of a character. -/
theorem C59_text_partial (s cut : List Char) : ∃ r, trimV (.bytes (utf8 s)) (some (.bytes (utf8 cut))) = .ok (.bytes (utf8 r)) ∧
    Trimmed s cut r := by
  refine ⟨trim s cut, ?_, trim_spec s cut⟩
  simp only [trimV]
  congr 2
  unfold trimBytes
  by_cases h : ∀ x ∈ utf8 cut, x.toNat < 128
  · rw [if_pos (by simpa [List.all_eq_true] using h)]
    unfold trim
    rw [trimLeft_low h, trimRight_low h _ _ (Nat.le_refl _)]
  · rw [if_neg (by simpa [List.all_eq_true] using h)]
    have hr : runes (utf8 cut).length (utf8 cut) = cut.map Char.toNat := Codec.runes_utf8 cut _ (length_le_utf8 cut)
    simp only [hr]
    rw [trimLeftRunes_text cut s _ (length_le_utf8 s), trimRightRunes_text cut _ _ (length_le_utf8 _)]
    rfl

/-- TRIM(b'éaé€', b'€é') is b'a': the hypotheses cover characters of two and three bytes. -/
example : trimV (.bytes (utf8 ['é', 'a', 'é', '€'])) (some (.bytes (utf8 ['€', 'é']))) = .ok (.bytes [97]) := by rfl

theorem decodeRune_bad : ∀ L : List UInt8, L.length < 5 → (decodeRune (L ++ [255])).2 = (L ++ [255]).length → decodeRune (L ++ [255]) = (65533, 1)
  | [], _, _ => by rfl
  | [a], _, h => by
    simp only [decodeRune] at h ⊢
    simp at h ⊢
    grind
  | [a, b], _, h => by
    simp only [decodeRune] at h ⊢
    simp at h ⊢
    grind
  | [a, b, c], _, h => by
    simp only [decodeRune] at h ⊢
    simp at h ⊢
    grind
  | [a, b, c, d], _, h => by
    simp only [decodeRune] at h ⊢
    simp at h ⊢
    grind
  | a :: b :: c :: d :: e :: f, h, _ => by simp at h; omega

theorem decodeLast_bad (p : List UInt8) : decodeLast (p ++ [255]) = (65533, 1) := by
  unfold decodeLast
  extract_lets last starts n r
  have hl : last = 255 := by simp [last]
  rw [if_neg (by omega)]
  split
  · rename_i h
    have hn : 1 ≤ n ∧ n ≤ 5 ∧ n ≤ p.length + 1 := by
      simp only [n, starts]
      grind
    have e : (p ++ [255]).drop ((p ++ [255]).length - n) = p.drop (p.length + 1 - n) ++ [255] := by
      rw [List.drop_append_of_le_length (by simp; omega)]; simp
    simp only [r, e] at h ⊢
    have hlen : (p.drop (p.length + 1 - n)).length + 1 = n := by rw [List.length_drop]; omega
    exact decodeRune_bad _ (by omega) (by rw [h, List.length_append]; exact hlen.symm)
  · rfl

/-- Bytes that belong to no character are taken for U+FFFD, one at a time: TRIM of that character's bytes removes them all. -/
theorem C59_bad_bytes (s : List Char) (k : Nat) (h1 : s.head? ≠ some '�') (h2 : s.getLast? ≠ some '�') (h : s ≠ []) :
    trimV (.bytes (utf8 s ++ List.replicate k 255)) (some (.bytes (utf8 ['�']))) = .ok (.bytes (utf8 s)) := by
  have hr : runes (utf8 ['�']).length (utf8 ['�']) = [65533] := by decide +kernel
  have hg : ∀ k n, k ≤ n → trimRightRunes [65533] n (utf8 s ++ List.replicate k 255) = trimRightRunes [65533] (n - k) (utf8 s) := by
    intro k
    induction k with
    | zero => intro n _; simp
    | succ k ih =>
      intro n hn
      obtain ⟨n, rfl⟩ : ∃ m, n = m + 1 := ⟨n - 1, by omega⟩
      rw [List.replicate_succ', ← List.append_assoc]
      have e : trimRightRunes [65533] (n + 1) (utf8 s ++ List.replicate k 255 ++ [255]) = trimRightRunes [65533] n (utf8 s ++ List.replicate k 255) := by
        cases hb : utf8 s ++ List.replicate k 255 ++ [255] with
        | nil => simp at hb
        | cons b bs =>
          rw [trimRightRunes, ← hb, decodeLast_bad]
          · rw [if_pos (by simp), List.length_append, List.length_singleton, Nat.add_sub_cancel, List.take_left]
          · simp
      rw [e, ih n (by omega), show n + 1 - (k + 1) = n - k by omega]
  simp only [trimV]
  congr 2
  unfold trimBytes
  rw [if_neg (by decide +kernel), hr]
  have hleft : ∀ n, trimLeftRunes [65533] n (utf8 s ++ List.replicate k 255) = utf8 s ++ List.replicate k 255 := by
    intro n
    cases s with
    | nil => exact absurd rfl h
    | cons c s =>
      have hd : decodeRune (utf8 (c :: s) ++ List.replicate k 255) = (c.toNat, (String.utf8EncodeChar c).length) := by
        rw [utf8_cons, List.append_assoc]
        exact Codec.decodeRune_encode c _
      have hc : c.toNat ∉ [65533] := by
        intro hm
        refine h1 ?_
        rw [List.head?_cons, Option.some.injEq]
        exact Char.toNat_inj.mp (by simpa using hm)
      generalize utf8 (c :: s) ++ List.replicate k 255 = b at hd ⊢
      cases n with
      | zero => rfl
      | succ n =>
        cases b with
        | nil => rfl
        | cons x xs => rw [trimLeftRunes, hd, if_neg hc]; simp
  simp only [hleft]
  rw [hg k _ (by simp)]
  have ht := trimRightRunes_text ['�'] ((utf8 s ++ List.replicate k 255).length - k) s (by have := length_le_utf8 s; simp; omega)
  rw [show (['�'] : List Char).map Char.toNat = [65533] from rfl] at ht
  rw [ht]
  congr 1
  rcases List.eq_nil_or_concat s with rfl | ⟨s', c, rfl⟩
  · rfl
  · rw [List.concat_eq_append] at h2 ⊢
    rw [trimRight_concat, if_neg]
    simpa using h2
/-- TRIM(b'a\xff\xff', b'\xef\xbf\xbd') is b'a'. -/
example : trimV (.bytes [97, 255, 255]) (some (.bytes [239, 191, 189])) = .ok (.bytes [97]) :=
  C59_bad_bytes ['a'] 2 (by decide) (by decide) (by decide)

end Verif.Strings
