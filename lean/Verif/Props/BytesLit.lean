import Verif.Model.BytesLit

/-! # C263: BYTES literals -/

namespace Verif.BytesLit

open Go

/-- How ZetaSQL writes a byte of a literal between quotation marks `q`: the quotation mark and the backslash after a backslash, line breaks and
tabulators as \n, \r, \t, other printable ASCII as itself, the rest as two hex digits. -/
def byteText (q : Char) (b : UInt8) : List Char :=
  if b.toNat = 10 then ['\\', 'n']
  else if b.toNat = 13 then ['\\', 'r']
  else if b.toNat = 9 then ['\\', 't']
  else if b.toNat = 92 then ['\\', '\\']
  else if b.toNat = q.toNat then ['\\', q]
  else if 32 ≤ b.toNat ∧ b.toNat < 127 then [Char.ofNat b.toNat]
  else ['\\', 'x', hexDigit (b.toNat / 16), hexDigit (b.toNat % 16)]

/-- What follows the first quotation mark in the literal of `bs`. -/
def literal (q : Char) (bs : List UInt8) : List Char := bs.flatMap (byteText q) ++ [q]

/-- Full C263: a literal has the value of its bytes, whichever quotation marks it is written with. -/
def C263_full : Prop := ∀ (q : Char) (bs : List UInt8), q = '"' ∨ q = '\'' → bytesValue q (literal q bs) = bs

theorem ascii_char : ∀ n : Nat, n < 128 → (Char.ofNat n).toNat = n ∧ String.utf8EncodeChar (Char.ofNat n) = [UInt8.ofNat n] := by decide

theorem byteText_unquote (q : Char) (hq : q = '"' ∨ q = '\'') (b : UInt8) (s : List Char) :
    unquoteChar q (byteText q b ++ s) = some ([b], s) := by
  have hb := b.toNat_lt
  have hbs : ∀ k : Nat, b.toNat = k → b = UInt8.ofNat k := by intro k h; rw [← h]; simp
  have hqb : '\\' ≠ q := by rcases hq with rfl | rfl <;> decide
  unfold byteText
  split
  · rename_i h; simp [unquoteChar, unquoteEsc, hqb, hbs _ h]
  split
  · rename_i h; simp [unquoteChar, unquoteEsc, hqb, hbs _ h]
  split
  · rename_i h; simp [unquoteChar, unquoteEsc, hqb, hbs _ h]
  split
  · rename_i h; simp [unquoteChar, unquoteEsc, hqb, hbs _ h]
  split
  · rename_i h
    rcases hq with rfl | rfl
    · simp [unquoteChar, unquoteEsc, hbs _ h]; decide
    · simp [unquoteChar, unquoteEsc, hbs _ h]; decide
  split
  · rename_i h1 h2 h3 h4 h5 h6
    obtain ⟨e1, e2⟩ := ascii_char b.toNat (by omega)
    have n1 : Char.ofNat b.toNat ≠ q := by intro h; rw [← h] at h5; exact h5 e1.symm
    have n2 : Char.ofNat b.toNat ≠ '\n' := by intro h; rw [h] at e1; exact h1 e1.symm
    have n3 : Char.ofNat b.toNat ≠ '\\' := by intro h; rw [h] at e1; exact h4 e1.symm
    simp only [List.singleton_append, unquoteChar, n1, n2, n3, or_self, if_false, e2, UInt8.ofNat_toNat]
  · have e : hexNum [hexDigit (b.toNat / 16), hexDigit (b.toNat % 16)] 0 = some b.toNat := by
      simp only [hexNum, hexVal_digit _ (show b.toNat / 16 < 16 by omega), hexVal_digit _ (show b.toNat % 16 < 16 by omega)]
      congr 1; omega
    simp [unquoteChar, unquoteEsc, hqb, e]

theorem loop_literal (bs : List UInt8) : ∀ n, (literal '"' bs).length < n → unquoteLoop '"' n (literal '"' bs) = some bs := by
  induction bs with
  | nil => intro n hn; cases n with
    | zero => simp at hn
    | succ n => simp [literal, unquoteLoop]
  | cons b bs ih =>
    intro n hn
    cases n with
    | zero => simp at hn
    | succ n =>
      have e : literal '"' (b :: bs) = byteText '"' b ++ literal '"' bs := by simp [literal]
      have hu := byteText_unquote '"' (.inl rfl) b (literal '"' bs)
      have hne : byteText '"' b ++ literal '"' bs ≠ ['"'] := by
        intro h
        rw [h] at hu
        simp [unquoteChar] at hu
      have hlen : 0 < (byteText '"' b).length := by
        unfold byteText; repeat' split
        all_goals simp
      rw [e] at hn ⊢
      rw [unquoteLoop, if_neg hne, hu]
      simp only
      rw [ih n (by simp at hn; omega)]
      rfl

/-- **C263** between double quotation marks, for all bytes. -/
theorem C263_partial (bs : List UInt8) : bytesValue '"' (literal '"' bs) = bs := by
  unfold bytesValue unquoteText
  rw [if_pos rfl, loop_literal bs _ (by omega)]

/-- Between single quotation marks: exactly for one byte at most.  The value of every longer literal is its own text, from the letter b to the closing
quotation mark. -/
theorem C263_single (bs : List UInt8) :
    bytesValue '\'' (literal '\'' bs) = if bs.length ≤ 1 then bs else utf8 ('b' :: '\'' :: literal '\'' bs) := by
  unfold bytesValue unquoteText
  rw [if_neg (by decide)]
  cases bs with
  | nil => simp [literal]
  | cons b bs =>
    have e : literal '\'' (b :: bs) = byteText '\'' b ++ literal '\'' bs := by simp [literal]
    have hu := byteText_unquote '\'' (.inr rfl) b (literal '\'' bs)
    have hne : byteText '\'' b ++ literal '\'' bs ≠ ['\''] := by
      intro h
      rw [h] at hu
      simp [unquoteChar] at hu
    rw [e, if_neg hne, hu]
    cases bs with
    | nil => simp [literal]
    | cons c cs =>
      have : literal '\'' (c :: cs) ≠ ['\''] := by
        have hu := byteText_unquote '\'' (.inr rfl) c (literal '\'' cs)
        intro h
        have e : literal '\'' (c :: cs) = byteText '\'' c ++ literal '\'' cs := by simp [literal]
        rw [← e, h] at hu
        simp [unquoteChar] at hu
      simp [this]

/-- So it is right exactly for one byte at most. -/
theorem C263_iff (bs : List UInt8) : bytesValue '\'' (literal '\'' bs) = bs ↔ bs.length ≤ 1 := by
  rw [C263_single]
  by_cases h : bs.length ≤ 1
  · simp [h]
  · simp only [h, if_false, iff_false]
    intro he
    have := congrArg List.length he
    have h1 : ∀ s : List Char, s.length ≤ (utf8 s).length := by
      intro s
      induction s with
      | nil => simp
      | cons c s ih =>
        have := Char.utf8Size_pos c
        simp; omega
    have h2 := h1 ('b' :: '\'' :: literal '\'' bs)
    have h3 : ∀ bs : List UInt8, bs.length ≤ (literal '\'' bs).length := by
      intro bs
      induction bs with
      | nil => simp [literal]
      | cons b bs ih =>
        have hlen : 0 < (byteText '\'' b).length := by
          unfold byteText; repeat' split
          all_goals simp
        simp [literal] at ih ⊢; omega
    have h4 := h3 bs
    simp only [List.length_cons] at h2
    omega

theorem C263_full_false : ¬ C263_full := by
  intro h
  have := (C263_iff [34, 120]).1 (h '\'' [34, 120] (.inr rfl))
  simp at this

example : literal '"' [97, 34, 0, 255] = ['a', '\\', '"', '\\', 'x', '0', '0', '\\', 'x', 'f', 'f', '"'] := by decide

end Verif.BytesLit
