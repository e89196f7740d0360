import Verif.Props.TimestampText

/-! # C22: exactly which texts are read as the number they spell -/

namespace Verif.TimestampText
open Verif.Go Verif.NamePath

/-- What is read: the digits after the point are microseconds, whatever their number, and are added even to a negative number. -/
theorem C22_exact (neg : Bool) (i f : List Char) (iv fv : Nat) (hi : parseNat i = some iv) (hf : parseNat f = some fv) (hl : f.length ≤ 6)
    (hlt : iv < 2 ^ 62) : timeFromTimestampValue (text neg i f) = .ok ((if neg then -(iv : Int) else iv) * 1000000000 + fv * 1000) := by
  have hfv : fv < 1000000 := by
    have hf' := hf
    simp only [parseNat] at hf'
    split at hf'
    · cases hf'
    · have h := digitsVal_lt f 0 fv hf'
      have : 10 ^ f.length ≤ 10 ^ 6 := Nat.pow_le_pow_right (by decide) hl
      simp at h
      omega
  have h2 : parseInt64 f = some (fv : Int) := by
    rw [parseInt64, parseSigned_of_parseNat hf]; simp [InI64]; omega
  cases neg
  · have h1 : parseInt64 i = some (iv : Int) := by
      rw [parseInt64, parseSigned_of_parseNat hi]; simp [InI64]; omega
    simp only [text, timeFromTimestampValue, Bool.false_eq_true, if_false, List.nil_append]
    rw [splitDot_one _ _ (parseNat_no_dot hi) (parseNat_no_dot hf)]
    simp only [h1, h2]
    rw [wrap64_eq (by simp only [InI64]; omega)]
    simp [unix]
  · have h1 : parseInt64 ('-' :: i) = some (-(iv : Int)) := by
      rw [parseInt64, parseSigned, if_pos rfl, hi]; simp [InI64]; omega
    have hd : '.' ∉ '-' :: i := by
      rw [List.mem_cons]; rintro (h | h)
      · exact absurd h (by decide)
      · exact parseNat_no_dot hi h
    have e : text true i f = ('-' :: i) ++ '.' :: f := by simp [text]
    rw [e]
    simp only [timeFromTimestampValue]
    rw [splitDot_one _ _ hd (parseNat_no_dot hf)]
    simp only [h1, h2]
    rw [wrap64_eq (by simp only [InI64]; omega)]
    simp [unix]

/-- C22, exact: a decimal number is read as it is spelled exactly if its fraction is 0, or has six digits and the number is not
negative. -/
theorem C22_iff (neg : Bool) (i f : List Char) (iv fv : Nat) (hi : parseNat i = some iv) (hf : parseNat f = some fv) (hl : f.length ≤ 6)
    (hlt : iv < 2 ^ 62) :
    timeFromTimestampValue (text neg i f) = .ok (denotes neg iv fv f.length) ↔ fv = 0 ∨ (f.length = 6 ∧ neg = false) := by
  rw [C22_exact neg i f iv fv hi hf hl hlt]
  simp only [Res.ok.injEq, denotes]
  generalize f.length = l at *
  have hcases : l = 0 ∨ l = 1 ∨ l = 2 ∨ l = 3 ∨ l = 4 ∨ l = 5 ∨ l = 6 := by omega
  cases neg <;> rcases hcases with rfl | rfl | rfl | rfl | rfl | rfl | rfl <;> simp <;> omega

/-- Cases: 12.000000 and 12.345678 are read as they are, 12.5 and -12.345678 are not. -/
example : timeFromTimestampValue "12.345678".toList = .ok 12345678000 ∧ timeFromTimestampValue "12.5".toList = .ok 12000005000 ∧
    timeFromTimestampValue "-12.345678".toList = .ok (-11654322000) := by decide

end Verif.TimestampText
