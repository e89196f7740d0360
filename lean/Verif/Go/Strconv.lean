import Verif.Go.Basic

/-!
# `strconv` and `fmt` on decimal integers

Part of the trusted model of Go's standard library.
-/

namespace Verif.Go

/-- The digit character of `d < 10`. -/
def digitChar (d : Nat) : Char := Char.ofNat (48 + d)

/-- The value of a digit character. -/
def digitVal (c : Char) : Option Nat := if 48 ≤ c.toNat ∧ c.toNat ≤ 57 then some (c.toNat - 48) else none

/-- `strconv.FormatUint(n, 10)`: shortest decimal text, no leading zeros. -/
def decNatAux : Nat → Nat → List Char
  | 0, _ => []
  | fuel + 1, n => if n < 10 then [digitChar n] else decNatAux fuel (n / 10) ++ [digitChar (n % 10)]

@[inherit_doc decNatAux] def decNat (n : Nat) : List Char := decNatAux (n + 1) n

theorem decNatAux_fuel (f g n : Nat) (hf : n < f) (hg : n < g) : decNatAux f n = decNatAux g n := by
  induction f generalizing g n with
  | zero => omega
  | succ f ih =>
    cases g with
    | zero => omega
    | succ g =>
      simp only [decNatAux]
      split
      · rfl
      · rw [ih g (n / 10) (by omega) (by omega)]

theorem decNat_eq (n : Nat) : decNat n = if n < 10 then [digitChar n] else decNat (n / 10) ++ [digitChar (n % 10)] := by
  rw [decNat, decNatAux]
  split
  · rfl
  · rw [decNatAux_fuel n (n / 10 + 1) (n / 10) (by omega) (by omega)]; rfl

/-- `fmt.Sprintf("%d", i)`. -/
def decInt (i : Int) : List Char := if i < 0 then '-' :: decNat i.natAbs else decNat i.natAbs

/-- Value of a string of digits; `none` if another character occurs. -/
def digitsVal (acc : Nat) : List Char → Option Nat
  | [] => some acc
  | c :: cs => match digitVal c with
    | some d => digitsVal (acc * 10 + d) cs
    | none => none

/-- A non-empty string of digits. -/
def parseNat (s : List Char) : Option Nat := if s = [] then none else digitsVal 0 s

/-- `strconv.ParseInt(s, 10, 64)` with an unbounded result: optional sign, digits. -/
def parseSigned : List Char → Option Int
  | [] => none
  | c :: s =>
    if c = '-' then (parseNat s).map fun (n : Nat) => -(n : Int)
    else if c = '+' then (parseNat s).map fun (n : Nat) => (n : Int)
    else (parseNat (c :: s)).map fun (n : Nat) => (n : Int)

/-- `strconv.ParseInt(s, 10, 64)`: also an error when out of range. -/
def parseInt64 (s : List Char) : Option Int :=
  match parseSigned s with
  | some i => if InI64 i then some i else none
  | none => none

theorem digitChar_toNat {d : Nat} (h : d < 10) : (digitChar d).toNat = 48 + d := by
  have : d = 0 ∨ d = 1 ∨ d = 2 ∨ d = 3 ∨ d = 4 ∨ d = 5 ∨ d = 6 ∨ d = 7 ∨ d = 8 ∨ d = 9 := by omega
  rcases this with h | h | h | h | h | h | h | h | h | h <;> subst h <;> rfl

theorem digitVal_digitChar {d : Nat} (h : d < 10) : digitVal (digitChar d) = some d := by
  simp only [digitVal, digitChar_toNat h]
  rw [if_pos (by omega)]; congr 1; omega

theorem digitsVal_append (a : Nat) (s t : List Char) : digitsVal a (s ++ t) = (digitsVal a s).bind fun b => digitsVal b t := by
  induction s generalizing a with
  | nil => rfl
  | cons c cs ih =>
    simp only [List.cons_append, digitsVal]
    split
    · exact ih _
    · rfl

theorem decNat_ne_nil (n : Nat) : decNat n ≠ [] := by
  rw [decNat_eq]; split <;> simp

theorem digitsVal_decNat (n : Nat) : digitsVal 0 (decNat n) = some n := by
  induction n using Nat.strongRecOn with
  | _ n ih =>
    rw [decNat_eq]
    split
    · rename_i h; simp [digitsVal, digitVal_digitChar h]
    · rename_i h
      rw [digitsVal_append, ih (n / 10) (by omega)]
      simp [digitsVal, digitVal_digitChar (Nat.mod_lt n (by omega : 0 < 10))]
      omega

theorem parseNat_decNat (n : Nat) : parseNat (decNat n) = some n := by
  simp [parseNat, decNat_ne_nil, digitsVal_decNat]

/-- Every character of a decimal text is a digit. -/
theorem decNat_digits (n : Nat) : ∀ c ∈ decNat n, 48 ≤ c.toNat ∧ c.toNat ≤ 57 := by
  induction n using Nat.strongRecOn with
  | _ n ih =>
    rw [decNat_eq]
    split
    · rename_i h; intro c hc; simp at hc; subst hc; rw [digitChar_toNat h]; omega
    · rename_i h
      intro c hc
      rw [List.mem_append] at hc
      rcases hc with hc | hc
      · exact ih _ (by omega) c hc
      · simp at hc; subst hc; rw [digitChar_toNat (by omega)]; omega

theorem decNat_head (n : Nat) : ∃ c cs, decNat n = c :: cs ∧ c ≠ '-' ∧ c ≠ '+' := by
  cases h : decNat n with
  | nil => exact absurd h (decNat_ne_nil n)
  | cons c cs =>
    have := decNat_digits n c (by simp [h])
    refine ⟨c, cs, rfl, ?_, ?_⟩ <;> rintro rfl <;> simp at this

theorem parseSigned_decNat (n : Nat) : parseSigned (decNat n) = some (n : Int) := by
  obtain ⟨c, cs, h, h1, h2⟩ := decNat_head n
  rw [h, parseSigned, if_neg h1, if_neg h2, ← h, parseNat_decNat]; rfl

theorem parseSigned_decInt (i : Int) : parseSigned (decInt i) = some i := by
  unfold decInt
  split
  · rename_i h
    rw [parseSigned, if_pos rfl, parseNat_decNat]
    show some (-(i.natAbs : Int)) = some i
    congr 1; omega
  · rw [parseSigned_decNat]; congr 1; omega

/-- Printing and parsing an `int64` round-trips. -/
theorem parseInt64_decInt {i : Int} (h : InI64 i) : parseInt64 (decInt i) = some i := by
  simp [parseInt64, parseSigned_decInt, h]

theorem decInt_chars (i : Int) : ∀ c ∈ decInt i, c = '-' ∨ (48 ≤ c.toNat ∧ c.toNat ≤ 57) := by
  unfold decInt
  split
  · intro c hc
    rw [List.mem_cons] at hc
    rcases hc with rfl | hc
    · exact Or.inl rfl
    · exact Or.inr (decNat_digits _ c hc)
  · intro c hc; exact Or.inr (decNat_digits _ c hc)

theorem decInt_no_dot (i : Int) : '.' ∉ decInt i := by
  intro h
  rcases decInt_chars i _ h with h | h
  · exact absurd h (by decide)
  · simp at h

theorem decInt_injective {i j : Int} (h : decInt i = decInt j) : i = j := by
  have := parseSigned_decInt i
  rw [h, parseSigned_decInt] at this
  exact (Option.some.inj this).symm

theorem decInt_no_brace (i : Int) : '{' ∉ decInt i := by
  intro h
  rcases decInt_chars i _ h with h | h
  · revert h; decide
  · revert h; decide

end Verif.Go
