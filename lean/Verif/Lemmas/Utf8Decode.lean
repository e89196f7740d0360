import Verif.Lemmas.Codec

/-!
# What utf8.DecodeRune makes of bytes that are no character
-/

namespace Verif.Words

open Go Verif.Val

private theorem valid_of {n : Nat} (h : n < 55296 ∨ 57343 < n ∧ n < 1114112) : ∃ c : Char, c.val.toNat = n := by
  exact ⟨Char.ofNatAux n h, rfl⟩

private theorem u8 {x : UInt8} {n : Nat} (h : n % 256 = x.toNat) : UInt8.ofNat n = x := by
  apply UInt8.toNat_inj.mp
  rw [UInt8.toNat_ofNat']
  exact h

/-- Bytes start with the encoding of a character, or the first of them is decoded alone, as U+FFFD. -/
theorem decodeRune_cases (x : UInt8) (b : List UInt8) :
    (∃ c rest, x :: b = String.utf8EncodeChar c ++ rest) ∨ Strings.decodeRune (x :: b) = (65533, 1) := by
  have hx := x.toNat_lt
  unfold Strings.decodeRune
  simp only [List.getD_cons_zero, List.getD_cons_succ, decide_eq_true_eq]
  split
  · rename_i h
    left
    obtain ⟨c, hc⟩ := valid_of (n := x.toNat) (by omega)
    refine ⟨c, b, ?_⟩
    simp only [String.utf8EncodeChar, hc]
    rw [if_pos (by omega), u8 (x := x) (by omega)]
    rfl
  · split
    · rename_i h0 h
      left
      obtain ⟨h1, h2, h3, h4⟩ := h
      cases b with
      | nil => simp at h3
      | cons y b =>
      simp only [List.getD_cons_zero] at h3 h4
      obtain ⟨c, hc⟩ := valid_of (n := (x.toNat - 192) * 64 + (y.toNat - 128)) (by omega)
      refine ⟨c, b, ?_⟩
      simp only [String.utf8EncodeChar, hc]
      rw [if_neg (by omega), if_pos (by omega), u8 (x := x) (by omega), u8 (x := y) (by omega)]
      rfl
    · split
      · rename_i h0 h0' h
        left
        obtain ⟨h1, h2, ⟨h3, h4⟩, ⟨h5, h6⟩, h7, h8⟩ := h
        match b, h3, h4, h5, h6, h7, h8 with
        | [], h3, _, _, _, _, _ => simp at h3
        | [_], _, _, h5, _, _, _ => simp at h5
        | y :: z :: b, h3, h4, h5, h6, h7, h8 =>
        simp only [List.getD_cons_zero, List.getD_cons_succ] at h3 h4 h5 h6 h7 h8
        obtain ⟨c, hc⟩ := valid_of (n := (x.toNat - 224) * 4096 + (y.toNat - 128) * 64 + (z.toNat - 128)) (by omega)
        refine ⟨c, b, ?_⟩
        simp only [String.utf8EncodeChar, hc]
        rw [if_neg (by omega), if_neg (by omega), if_pos (by omega), u8 (x := x) (by omega), u8 (x := y) (by omega), u8 (x := z) (by omega)]
        rfl
      · split
        · rename_i h0 h0' h0'' h
          left
          obtain ⟨h1, h2, ⟨h3, h4⟩, ⟨h5, h6⟩, ⟨h9, h10⟩, h7, h8⟩ := h
          match b, h3, h4, h5, h6, h7, h8, h9, h10 with
          | [], h3, _, _, _, _, _, _, _ => simp at h3
          | [_], _, _, h5, _, _, _, _, _ => simp at h5
          | [_, _], _, _, _, _, _, _, h9, _ => simp at h9
          | y :: z :: w :: b, h3, h4, h5, h6, h7, h8, h9, h10 =>
          simp only [List.getD_cons_zero, List.getD_cons_succ] at h3 h4 h5 h6 h7 h8 h9 h10
          obtain ⟨c, hc⟩ := valid_of
            (n := (x.toNat - 240) * 262144 + (y.toNat - 128) * 4096 + (z.toNat - 128) * 64 + (w.toNat - 128)) (by omega)
          refine ⟨c, b, ?_⟩
          simp only [String.utf8EncodeChar, hc]
          rw [if_neg (by omega), if_neg (by omega), if_neg (by omega), u8 (x := x) (by omega), u8 (x := y) (by omega),
            u8 (x := z) (by omega), u8 (x := w) (by omega)]
          rfl
        · right; rfl

end Verif.Words
