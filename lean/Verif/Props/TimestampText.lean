import Verif.Model.TimestampText

/-!
# Timestamp results (C21, C22)
-/

namespace Verif.TimestampText
open Verif.Go Verif.NamePath

theorem splitDot_nodot (s : List Char) (h : '.' ∉ s) : splitDot s = [s] := by
  induction s with
  | nil => rfl
  | cons c cs ih =>
    simp only [List.mem_cons, not_or] at h
    have hc : c ≠ '.' := fun e => h.1 e.symm
    simp [splitDot, hc, ih h.2]

theorem splitDot_one (a b : List Char) (ha : '.' ∉ a) (hb : '.' ∉ b) : splitDot (a ++ '.' :: b) = [a, b] := by
  induction a with
  | nil => simp [splitDot, splitDot_nodot b hb]
  | cons c cs ih =>
    simp only [List.mem_cons, not_or] at ha
    have hc : c ≠ '.' := fun e => ha.1 e.symm
    simp [splitDot, hc, ih ha.2]

/-- **C21**.  For every timestamp (microseconds since 1970 in an int64, negative included), reading back the text of the
result gives the same instant. -/
theorem C21_roundtrip (micros : Int) (h : InI64 micros) : timeFromTimestampValue (render micros) = .ok (micros * 1000) := by
  have hq : InI64 (micros.tdiv 1000000) := by
    simp only [InI64] at *
    have := Int.mul_tdiv_add_tmod micros 1000000
    have := Int.tmod_lt_of_pos micros (b := 1000000) (by omega)
    have h2 := Int.lt_tmod_of_pos micros (b := 1000000) (by omega)
    omega
  have hr : micros - micros.tdiv 1000000 * 1000000 = micros.tmod 1000000 := by
    have := Int.mul_tdiv_add_tmod micros 1000000
    omega
  have h1 := Int.tmod_lt_of_pos micros (b := 1000000) (by omega)
  have h2 := Int.lt_tmod_of_pos micros (b := 1000000) (by omega)
  have hm : InI64 (micros.tmod 1000000) := by simp only [InI64]; omega
  have hw : InI64 (micros.tmod 1000000 * 1000) := by simp only [InI64]; omega
  simp only [timeFromTimestampValue, render, hr]
  rw [splitDot_one _ _ (decInt_no_dot _) (decInt_no_dot _)]
  simp only [parseInt64_decInt hq, parseInt64_decInt hm, wrap64_eq hw, unix, Res.ok.injEq]
  have := Int.mul_tdiv_add_tmod micros 1000000
  omega

example : InI64 (-1) ∧ render (-1) = "0.-1".toList := by decide

/-- Distinct timestamps have distinct texts. -/
theorem C21_injective (a b : Int) (ha : InI64 a) (hb : InI64 b) (h : render a = render b) : a = b := by
  have h1 := C21_roundtrip a ha
  rw [h, C21_roundtrip b hb] at h1
  simp at h1; omega

/-- The instant (ns) that a decimal number of seconds `i.f` denotes, `f` having at most six digits. -/
def denotes (neg : Bool) (i : Nat) (f : Nat) (fdigits : Nat) : Int :=
  let v : Int := i * 1000000000 + f * 10 ^ (9 - fdigits)
  if neg then -v else v

/-- The text `[-]i.f` for digit strings `i`, `f`. -/
def text (neg : Bool) (i f : List Char) : List Char := (if neg then ['-'] else []) ++ i ++ '.' :: f

/-- C22 at full strength. -/
def C22_full : Prop := ∀ (neg : Bool) (i f : List Char) (iv fv : Nat), parseNat i = some iv → parseNat f = some fv → f.length ≤ 6 →
  iv < 2 ^ 62 → timeFromTimestampValue (text neg i f) = .ok (denotes neg iv fv f.length)

/-- The code violates C22: "0.1" is read as one microsecond. -/
theorem C22_full_false : ¬ C22_full := by
  intro h
  have := h false ['0'] ['1'] 0 1 (by decide) (by decide) (by decide) (by decide)
  revert this; decide

/-- Also with six digits, if the number is negative: "-1.500000" is read as -0.5 s. -/
theorem C22_negative : timeFromTimestampValue "-1.500000".toList = .ok (-500000000) ∧ denotes true 1 500000 6 = -1500000000 := by
  decide

theorem digitsVal_digits (s : List Char) (a n : Nat) (h : digitsVal a s = some n) : ∀ c ∈ s, 48 ≤ c.toNat ∧ c.toNat ≤ 57 := by
  induction s generalizing a with
  | nil => simp
  | cons c cs ih =>
    simp only [digitsVal] at h
    split at h
    · rename_i d hd
      intro x hx
      rw [List.mem_cons] at hx
      rcases hx with rfl | hx
      · simp only [digitVal] at hd; split at hd
        · assumption
        · cases hd
      · exact ih _ h x hx
    · cases h

theorem parseNat_digits {s : List Char} {n : Nat} (h : parseNat s = some n) : ∀ c ∈ s, 48 ≤ c.toNat ∧ c.toNat ≤ 57 := by
  simp only [parseNat] at h
  split at h
  · cases h
  · exact digitsVal_digits s 0 n h

theorem parseNat_no_dot {s : List Char} {n : Nat} (h : parseNat s = some n) : '.' ∉ s := by
  intro hm; have := parseNat_digits h _ hm; simp at this

theorem parseSigned_of_parseNat {s : List Char} {n : Nat} (h : parseNat s = some n) : parseSigned s = some (n : Int) := by
  cases s with
  | nil => simp [parseNat] at h
  | cons c cs =>
    have := parseNat_digits h c (by simp)
    rw [parseSigned, if_neg, if_neg, h]
    · rfl
    · rintro rfl; simp at this
    · rintro rfl; simp at this

theorem digitsVal_lt (s : List Char) (a n : Nat) (h : digitsVal a s = some n) : n < (a + 1) * 10 ^ s.length := by
  induction s generalizing a with
  | nil => simp [digitsVal] at h; simp; omega
  | cons c cs ih =>
    simp only [digitsVal] at h
    split at h
    · rename_i d hd
      have hd9 : d ≤ 9 := by
        simp only [digitVal] at hd; split at hd
        · simp at hd; omega
        · cases hd
      have := ih _ h
      have h2 : (a * 10 + d + 1) * 10 ^ cs.length ≤ (a + 1) * 10 * 10 ^ cs.length := Nat.mul_le_mul_right _ (by omega)
      simp only [List.length_cons, Nat.pow_succ]
      calc n < _ := this
        _ ≤ _ := h2
        _ = _ := by rw [Nat.mul_assoc, Nat.mul_comm 10]
    · cases h

/-- C22, the part that holds: a number with exactly six fraction digits and no minus sign, and an integer with either sign, are
read as that number of seconds; more than one point is an error. -/
theorem C22_decimal_partial :
    (∀ (i f : List Char) (iv fv : Nat), parseNat i = some iv → parseNat f = some fv → f.length = 6 → iv < 2 ^ 63 →
      timeFromTimestampValue (text false i f) = .ok (denotes false iv fv 6)) ∧
    (∀ (i : List Char) (iv : Nat) (neg : Bool), parseNat i = some iv → iv < 2 ^ 63 →
      timeFromTimestampValue ((if neg then ['-'] else []) ++ i) = .ok (denotes neg iv 0 0)) ∧
    (∀ a b c : List Char, timeFromTimestampValue (a ++ '.' :: (b ++ '.' :: c)) = .err) := by
  refine ⟨?_, ?_, ?_⟩
  · intro i f iv fv hi hf hl hlt
    have hfv : fv < 1000000 := by
      have hf' := hf
      simp only [parseNat] at hf'
      split at hf'
      · cases hf'
      · have := digitsVal_lt f 0 fv hf'; rw [hl] at this; simpa using this
    have h1 : parseInt64 i = some (iv : Int) := by
      rw [parseInt64, parseSigned_of_parseNat hi]; simp [InI64]; omega
    have h2 : parseInt64 f = some (fv : Int) := by
      rw [parseInt64, parseSigned_of_parseNat hf]; simp [InI64]; omega
    simp only [text, timeFromTimestampValue, Bool.false_eq_true, if_false, List.nil_append]
    rw [splitDot_one _ _ (parseNat_no_dot hi) (parseNat_no_dot hf)]
    simp only [h1, h2]
    rw [wrap64_eq (by simp only [InI64]; omega)]
    simp [unix, denotes]
  · intro i iv neg hi hlt
    cases neg
    · have h1 : parseInt64 i = some (iv : Int) := by
        rw [parseInt64, parseSigned_of_parseNat hi]; simp [InI64]; omega
      simp only [timeFromTimestampValue, Bool.false_eq_true, if_false, List.nil_append]
      rw [splitDot_nodot _ (parseNat_no_dot hi)]
      simp [h1, unix, denotes]
    · have h1 : parseInt64 ('-' :: i) = some (-(iv : Int)) := by
        rw [parseInt64, parseSigned, if_pos rfl, hi]; simp [InI64]; omega
      have hd : '.' ∉ '-' :: i := by
        rw [List.mem_cons]; rintro (h | h)
        · exact absurd h (by decide)
        · exact parseNat_no_dot hi h
      simp only [timeFromTimestampValue, if_true, List.cons_append, List.nil_append]
      rw [splitDot_nodot _ hd]
      simp [h1, unix, denotes]
      omega
  · intro a b c
    have hlen : ∀ s t : List Char, (splitDot (s ++ '.' :: t)).length ≥ (splitDot t).length + 1 := by
      intro s t
      induction s with
      | nil => simp [splitDot]
      | cons x xs ih =>
        simp only [List.cons_append, splitDot]
        split
        · simp; omega
        · split
          · rename_i h; rw [h] at ih; simp at ih
          · rename_i h; rw [h] at ih; simpa using ih
    have h1 := hlen a (b ++ '.' :: c)
    have h2 := hlen b c
    have h3 : 1 ≤ (splitDot c).length := by
      cases c with
      | nil => simp [splitDot]
      | cons x xs =>
        simp only [splitDot]; split
        · simp
        · split <;> simp
    simp only [timeFromTimestampValue]
    split
    · rename_i h; rw [h] at h1; simp only [List.length_cons, List.length_nil] at h1; omega
    · rename_i h; rw [h] at h1; simp only [List.length_cons, List.length_nil] at h1; omega
    · rfl

example : parseNat "1670000000".toList = some 1670000000 ∧ parseNat "000001".toList = some 1 ∧ "000001".toList.length = 6 := by decide

end Verif.TimestampText
