import Verif.Model.Strings

/-! # C61: text encodings round-trip -/

namespace Verif.Strings

open Go Val

/-- Full C61. -/
def C61_full : Prop :=
  (∀ b, fromHex (toHex b) = .ok b) ∧ (∀ b, fromBase64 (toBase64 b) = .ok b) ∧ (∀ b, fromBase32 (toBase32 b) = .ok b) ∧
  (∀ s : List Char, ((toCodePoints (.str s)).bind codePointsToString) = .ok (.str s)) ∧
  (∀ b : List UInt8, ((toCodePoints (.bytes b)).bind codePointsToBytes) = .ok (.bytes b))

/-- **C61** hexadecimal -/
theorem C61_hex (b : List UInt8) : fromHex (toHex b) = .ok b := by
  unfold fromHex toHex
  rw [if_neg (by rw [hex_length]; omega), unhex_hex]

/-- **C61** base64 -/
theorem C61_base64 (b : List UInt8) : fromBase64 (toBase64 b) = .ok b := by
  unfold fromBase64 toBase64; rw [Base64.decode_encode]

/-- **C61** base32 -/
theorem C61_base32 (b : List UInt8) : fromBase32 (toBase32 b) = .ok b := by
  unfold fromBase32 toBase32; rw [Base32.decode_encode]

theorem bytesLoop_points : ∀ b : List UInt8, bytesLoop (b.map fun x => .int x.toNat) = .ok b
  | [] => rfl
  | x :: b => by
    simp only [List.map_cons, bytesLoop, Val.toInt64, Res.bind'_ok, bytesLoop_points b]
    congr 2
    have h : x.toNat < 256 := x.toNat_lt
    rw [show ((x.toNat : Int) % 256).toNat = x.toNat by omega]
    exact UInt8.ofNat_toNat

/-- **C61** code points of BYTES -/
theorem C61_code_points_bytes (b : List UInt8) :
    (toCodePoints (.bytes b)).bind codePointsToBytes = .ok (.bytes b) := by
  simp only [toCodePoints, Res.bind'_ok, codePointsToBytes, bytesLoop_points]

theorem runeChar_toNat (c : Char) : runeChar c.toNat = c := by
  have h : c.toNat.isValidChar := c.valid
  have lt : c.toNat < 1114112 := by
    rcases h with h | h <;> omega
  unfold runeChar
  have e : ((c.toNat : Int) + 2147483648) % 4294967296 - 2147483648 = c.toNat := by omega
  simp only [e]
  rw [dif_pos ⟨by omega, h⟩]
  apply Char.ext
  apply UInt32.toNat_inj.mp
  simp [Char.ofNatAux]

theorem pointsLoop_points : ∀ s : List Char,
    pointsLoop (s.map fun c => .int c.toNat) = .ok (some (s.filter fun c => decide (c.toNat ≠ 0)))
  | [] => rfl
  | c :: s => by
    simp only [List.map_cons, pointsLoop, Val.toInt64, Res.bind'_ok, pointsLoop_points s, Option.map_some, runeChar_toNat,
      List.filter_cons]
    by_cases h : c.toNat = 0
    · simp [h]
    · have h' : ¬ ((c.toNat : Int) = 0) := by omega
      simp [h]

/-- **C61** code points of a STRING: exactly the NUL characters are lost. -/
theorem C61_code_points_partial (s : List Char) :
    (toCodePoints (.str s)).bind codePointsToString = .ok (.str (s.filter fun c => decide (c.toNat ≠ 0))) ∧
    ((toCodePoints (.str s)).bind codePointsToString = .ok (.str s) ↔ ∀ c ∈ s, c.toNat ≠ 0) := by
  have e : (toCodePoints (.str s)).bind codePointsToString = .ok (.str (s.filter fun c => decide (c.toNat ≠ 0))) := by
    simp only [toCodePoints, Res.bind'_ok, codePointsToString, pointsLoop_points]
  refine ⟨e, ?_⟩
  rw [e]
  simp only [Res.ok.injEq, Val.str.injEq, List.filter_eq_self, decide_eq_true_eq]

/-- A NUL character does not survive. -/
theorem C61_full_false : ¬ C61_full := by
  intro h
  exact (C61_code_points_partial ['a', Char.ofNat 0]).2.mp (h.2.2.2.1 _) (Char.ofNat 0) (by simp) rfl

example : (toCodePoints (.str ['a','é'])).bind codePointsToString = .ok (.str ['a','é']) :=
  (C61_code_points_partial _).2.mpr (by decide)

/-- **C61** CODE_POINTS_TO_STRING of an array with a NULL in it is NULL. -/
theorem C61_code_points_null (xs : List Int) (rest : List Val) :
    codePointsToString (.arr (xs.map .int ++ .null :: rest)) = .ok .null := by
  have h : ∀ xs : List Int, pointsLoop (xs.map .int ++ .null :: rest) = .ok none := by
    intro xs
    induction xs with
    | nil => rfl
    | cons x xs ih => simp only [List.map_cons, List.cons_append, pointsLoop, Val.toInt64, Res.bind'_ok, ih, Option.map_none]
  simp only [codePointsToString, h, Res.bind'_ok]

/-- **C61** CHR and UNICODE: UNICODE of a non-empty string then CHR is its first character, unless that is NUL. -/
theorem C61_chr_unicode (c : Char) (s : List Char) (h : c.toNat ≠ 0) : chr (unicode (c :: s)) = [c] := by
  unfold chr unicode
  simp only
  rw [if_neg (by omega), runeChar_toNat]

end Verif.Strings
