import Verif.Model.Codec

/-!
# Reading back what was written
-/

namespace Verif.Codec

open Go Verif.Val

theorem encodeChar_pos (c : Char) : 1 ≤ (String.utf8EncodeChar c).length := by
  simp only [String.utf8EncodeChar]
  split
  · simp
  · split
    · simp
    · split <;> simp

theorem utf8_length (s : List Char) : s.length ≤ (utf8 s).length := by
  induction s with
  | nil => simp
  | cons c s ih => have := encodeChar_pos c; simp only [utf8_cons, List.length_append, List.length_cons]; omega

private theorem dec2 {a b : UInt8} (rest : List UInt8) (ha : 194 ≤ a.toNat ∧ a.toNat < 224) (hb : 128 ≤ b.toNat ∧ b.toNat < 192) :
    Strings.decodeRune (a :: b :: rest) = ((a.toNat - 192) * 64 + (b.toNat - 128), 2) := by
  have h0 : ¬ a.toNat < 128 := by omega
  simp only [Strings.decodeRune, List.getD_cons_zero, List.getD_cons_succ, h0, if_false, ha.1, ha.2, hb, and_self, decide_true, if_true]

private theorem dec3 {a b c : UInt8} (rest : List UInt8) (ha : 224 ≤ a.toNat ∧ a.toNat < 240) (hb : 128 ≤ b.toNat ∧ b.toNat < 192)
    (hc : 128 ≤ c.toNat ∧ c.toNat < 192) (h1 : ¬ (a.toNat = 224 ∧ b.toNat < 160)) (h2 : ¬ (a.toNat = 237 ∧ 160 ≤ b.toNat)) :
    Strings.decodeRune (a :: b :: c :: rest) = ((a.toNat - 224) * 4096 + (b.toNat - 128) * 64 + (c.toNat - 128), 3) := by
  have h0 : ¬ a.toNat < 128 := by omega
  have h3 : ¬ a.toNat < 224 := by omega
  simp only [Strings.decodeRune, List.getD_cons_zero, List.getD_cons_succ, h0, h1, h2, h3, if_false, ha.1, ha.2, hb, hc, and_self,
    decide_true, if_true, false_and, and_false, not_false_eq_true]

private theorem dec4 {a b c d : UInt8} (rest : List UInt8) (ha : 240 ≤ a.toNat ∧ a.toNat < 245) (hb : 128 ≤ b.toNat ∧ b.toNat < 192)
    (hc : 128 ≤ c.toNat ∧ c.toNat < 192) (hd : 128 ≤ d.toNat ∧ d.toNat < 192)
    (h1 : ¬ (a.toNat = 240 ∧ b.toNat < 144)) (h2 : ¬ (a.toNat = 244 ∧ 144 ≤ b.toNat)) :
    Strings.decodeRune (a :: b :: c :: d :: rest) =
      ((a.toNat - 240) * 262144 + (b.toNat - 128) * 4096 + (c.toNat - 128) * 64 + (d.toNat - 128), 4) := by
  have h0 : ¬ a.toNat < 128 := by omega
  have h3 : ¬ a.toNat < 224 := by omega
  have h4 : ¬ a.toNat < 240 := by omega
  simp only [Strings.decodeRune, List.getD_cons_zero, List.getD_cons_succ, h0, h1, h2, h3, h4, if_false, ha.1, ha.2, hb, hc, hd, and_self,
    decide_true, if_true, false_and, and_false, not_false_eq_true]

/-- Decoding a character that has just been encoded. -/
theorem decodeRune_encode (c : Char) (rest : List UInt8) :
    Strings.decodeRune (String.utf8EncodeChar c ++ rest) = (c.toNat, (String.utf8EncodeChar c).length) := by
  have hv : c.val.toNat < 55296 ∨ 57343 < c.val.toNat ∧ c.val.toNat < 1114112 := c.valid
  show _ = (c.val.toNat, _)
  simp only [String.utf8EncodeChar]
  generalize c.val.toNat = n at *
  split
  · have h : (UInt8.ofNat n).toNat = n := by rw [UInt8.toNat_ofNat']; omega
    have h0 : n < 128 := by omega
    simp only [List.cons_append, List.nil_append, Strings.decodeRune, List.getD_cons_zero, h, h0, if_true, List.length_cons, List.length_nil]
  · split
    · simp only [List.cons_append, List.nil_append, List.length_cons, List.length_nil]
      rw [dec2 _ (by rw [UInt8.toNat_ofNat']; omega) (by rw [UInt8.toNat_ofNat']; omega)]
      rw [UInt8.toNat_ofNat', UInt8.toNat_ofNat']
      refine Prod.ext ?_ rfl
      show _ = n
      omega
    · split
      · simp only [List.cons_append, List.nil_append, List.length_cons, List.length_nil]
        rw [dec3 _ (by rw [UInt8.toNat_ofNat']; omega) (by rw [UInt8.toNat_ofNat']; omega) (by rw [UInt8.toNat_ofNat']; omega)
          (by rw [UInt8.toNat_ofNat', UInt8.toNat_ofNat']; omega) (by rw [UInt8.toNat_ofNat', UInt8.toNat_ofNat']; omega)]
        rw [UInt8.toNat_ofNat', UInt8.toNat_ofNat', UInt8.toNat_ofNat']
        refine Prod.ext ?_ rfl
        show _ = n
        omega
      · simp only [List.cons_append, List.nil_append, List.length_cons, List.length_nil]
        rw [dec4 _ (by rw [UInt8.toNat_ofNat']; omega) (by rw [UInt8.toNat_ofNat']; omega) (by rw [UInt8.toNat_ofNat']; omega)
          (by rw [UInt8.toNat_ofNat']; omega)
          (by rw [UInt8.toNat_ofNat', UInt8.toNat_ofNat']; omega) (by rw [UInt8.toNat_ofNat', UInt8.toNat_ofNat']; omega)]
        rw [UInt8.toNat_ofNat', UInt8.toNat_ofNat', UInt8.toNat_ofNat', UInt8.toNat_ofNat']
        refine Prod.ext ?_ rfl
        show _ = n
        omega

theorem runes_utf8 (s : List Char) : ∀ n, s.length ≤ n → Strings.runes n (utf8 s) = s.map Char.toNat := by
  induction s with
  | nil => intro n _; cases n <;> rfl
  | cons c s ih =>
    intro n hn
    cases n with
    | zero => simp at hn
    | succ n =>
      have h1 := encodeChar_pos c
      have hne : utf8 (c :: s) ≠ [] := by
        intro h
        have := utf8_length (c :: s)
        rw [h] at this
        simp at this
      have hr : ∀ b : List UInt8, b ≠ [] → Strings.runes (n + 1) b = (Strings.decodeRune b).1 :: Strings.runes n (b.drop (Strings.decodeRune b).2) := by
        intro b hb
        cases b with
        | nil => exact absurd rfl hb
        | cons x b => rfl
      rw [hr _ hne, utf8_cons, decodeRune_encode]
      simp only [List.drop_left, List.map_cons]
      rw [ih n (by simpa using hn)]

theorem chars_utf8 (s : List Char) : chars (utf8 s) = s := by
  unfold chars
  rw [runes_utf8 s _ (utf8_length s), List.map_map]
  have : (Char.ofNat ∘ Char.toNat) = id := by funext c; simp
  rw [this, List.map_id]

theorem headerOf_name (h : Header) : headerOf h.name = some h := by cases h <;> decide

/-- The wrapping can be undone. -/
theorem decode_wrap (num : Json.Scalar → Stored) (n : Nat) (h : Header) (body : List Char) :
    decodeWith num (n + 1) (.text (wrapText h body)) = decodeBody (fun x => decodeWith num n (num x)) h body := by
  simp only [decodeWith, wrapText, Base64.decode_encode, chars_utf8, Json.parseLayout_layout, headerOf_name]

theorem decInt_no_slash (i : Int) : ∀ c ∈ decInt i, (decide (c ≠ '/')) = true := by
  intro c hc
  rcases decInt_chars i c hc with h | h
  · subst h; decide
  · have : c ≠ '/' := by intro hc; subst hc; revert h; decide
    simpa using this

theorem takeWhile_all {α} {p : α → Bool} {l : List α} (h : ∀ x ∈ l, p x = true) : l.takeWhile p = l := by
  induction l with
  | nil => rfl
  | cons a l ih => rw [List.takeWhile_cons, if_pos (h a (by simp)), ih fun x hx => h x (by simp [hx])]

theorem dropWhile_all {α} {p : α → Bool} {l : List α} (h : ∀ x ∈ l, p x = true) : l.dropWhile p = [] := by
  induction l with
  | nil => rfl
  | cons a l ih => rw [List.dropWhile_cons, if_pos (h a (by simp)), ih fun x hx => h x (by simp [hx])]

theorem takeWhile_stop {α} {p : α → Bool} {l m : List α} {a : α} (h : ∀ x ∈ l, p x = true) (ha : p a = false) :
    (l ++ a :: m).takeWhile p = l ∧ (l ++ a :: m).dropWhile p = a :: m := by
  induction l with
  | nil => simp [ha]
  | cons b l ih =>
    have := ih fun x hx => h x (by simp [hx])
    simp [h b (by simp), this.1, this.2]

/-- Rat.SetString reads what MarshalText wrote. -/
theorem ratOfText_text (r : Rat) : ratOfText (ratText r) = some r := by
  unfold ratText
  split
  · rename_i hd
    unfold ratOfText
    rw [takeWhile_all (decInt_no_slash _), dropWhile_all (decInt_no_slash _)]
    simp only [parseSigned_decInt, Option.map]
    congr 1
    rw [← Rat.mkRat_self r, hd]
    simp [Rat.mkRat_one]
  · have h := takeWhile_stop (p := fun c => decide (c ≠ '/')) (m := decNat r.den) (decInt_no_slash r.num) (by decide : decide (('/' : Char) ≠ '/') = false)
    unfold ratOfText
    rw [h.1, h.2]
    simp only [parseSigned_decInt, parseNat_decNat, if_neg r.den_nz, Rat.mkRat_self]

/-! ### Every level makes the text longer -/

theorem base64_length (b : List UInt8) : b.length ≤ (Base64.encode b).length := by
  induction b using Base64.encode.induct with
  | case1 a b c rest ih => simp only [Base64.encode, List.length_cons]; omega
  | case2 => simp [Base64.encode]
  | case3 => simp [Base64.encode]
  | case4 => simp

theorem wrap_length (h : Header) (body : List Char) : body.length < (wrapText h body).length := by
  have h1 := base64_length (utf8 (Json.layout h.name body))
  have h2 := utf8_length (Json.layout h.name body)
  have h3 := Json.flatMap_esc_length body
  have h4 : (body.flatMap Json.esc).length < (Json.layout h.name body).length := by
    unfold Json.layout
    simp only [List.length_append, List.length_cons]
    omega
  unfold wrapText
  omega

theorem join_item {xs : List Json.Scalar} {x : Json.Scalar} (h : x ∈ xs) :
    (Json.scalar x).length ≤ (join [','] (xs.map Json.scalar)).length := by
  induction xs with
  | nil => simp at h
  | cons y ys ih =>
    cases ys with
    | nil => simp at h; subst h; simp [join]
    | cons z zs =>
      simp only [List.map_cons, join, List.length_append] at ih ⊢
      rcases List.mem_cons.1 h with rfl | h
      · omega
      · have := ih h
        omega

theorem text_item {s : List Char} {xs : List Json.Scalar} (h : Json.Scalar.str s ∈ xs) : s.length < (Json.list xs).length := by
  have h1 := join_item h
  have h2 := Json.flatMap_esc_length s
  have h3 : s.length ≤ (Json.scalar (.str s)).length := by
    simp only [Json.scalar, Json.quote, List.length_cons, List.length_append]
    omega
  unfold Json.list
  simp only [List.length_append, List.length_cons]
  omega

end Verif.Codec
