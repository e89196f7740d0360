/-!
# Go strings as sequences of characters

Go strings are byte strings; the strings of this driver are valid UTF-8 and are
represented as `List Char`.  Go's `<` on strings compares bytes.  `utf8` gives
the bytes, and `utf8_lt_iff` shows that comparing the bytes is the same as
comparing the characters by code point.
-/

namespace Verif.Go

/-- The UTF-8 bytes of a Go string. -/
def utf8 (s : List Char) : List UInt8 := s.flatMap String.utf8EncodeChar

@[simp] theorem utf8_nil : utf8 [] = [] := rfl
@[simp] theorem utf8_cons (c : Char) (s : List Char) : utf8 (c :: s) = String.utf8EncodeChar c ++ utf8 s := rfl
theorem utf8_append (s t : List Char) : utf8 (s ++ t) = utf8 s ++ utf8 t := by simp [utf8]

theorem char_toNat_lt (c : Char) : c.val.toNat < 1114112 := by
  have := c.valid
  rcases this with h | h
  · have : c.val.toNat < 55296 := h
    omega
  · have : c.val.toNat < 1114112 := h.2
    omega

private theorem cons_lt {a b : Nat} {l m : List UInt8} (h : a % 256 < b % 256 ∨ a % 256 = b % 256 ∧ l < m) :
    UInt8.ofNat a :: l < UInt8.ofNat b :: m := by
  rw [List.cons_lt_cons_iff]
  rcases h with h | ⟨h, h'⟩
  · left; rw [UInt8.lt_iff_toNat_lt]; simpa [UInt8.toNat_ofNat'] using h
  · right; refine ⟨?_, h'⟩
    apply UInt8.toNat_inj.mp; simpa [UInt8.toNat_ofNat'] using h

/-- A smaller character has the smaller encoding, whatever follows. -/
theorem utf8EncodeChar_lt {c d : Char} (h : c.val.toNat < d.val.toNat) (x y : List UInt8) :
    String.utf8EncodeChar c ++ x < String.utf8EncodeChar d ++ y := by
  have hc := char_toNat_lt c
  have hd := char_toNat_lt d
  simp only [String.utf8EncodeChar]
  generalize c.val.toNat = m at *
  generalize d.val.toNat = n at *
  split
  · split
    · apply cons_lt; omega
    · split
      · apply cons_lt; omega
      · split <;> (apply cons_lt; omega)
  · split
    · split
      · omega
      · split
        · simp only [List.cons_append, List.nil_append]
          by_cases h1 : m / 64 = n / 64
          · apply cons_lt; right; refine ⟨by omega, ?_⟩
            apply cons_lt; omega
          · apply cons_lt; omega
        · split <;> (apply cons_lt; omega)
    · split
      · split
        · omega
        · split
          · omega
          · split
            · simp only [List.cons_append, List.nil_append]
              by_cases h1 : m / 4096 = n / 4096
              · apply cons_lt; right; refine ⟨by omega, ?_⟩
                by_cases h2 : m / 64 = n / 64
                · apply cons_lt; right; refine ⟨by omega, ?_⟩
                  apply cons_lt; omega
                · apply cons_lt; omega
              · apply cons_lt; omega
            · apply cons_lt; omega
      · split
        · omega
        · split
          · omega
          · split
            · omega
            · simp only [List.cons_append, List.nil_append]
              by_cases h0 : m / 262144 = n / 262144
              · apply cons_lt; right; refine ⟨by omega, ?_⟩
                by_cases h1 : m / 4096 = n / 4096
                · apply cons_lt; right; refine ⟨by omega, ?_⟩
                  by_cases h2 : m / 64 = n / 64
                  · apply cons_lt; right; refine ⟨by omega, ?_⟩
                    apply cons_lt; omega
                  · apply cons_lt; omega
                · apply cons_lt; omega
              · apply cons_lt; omega

private theorem append_lt_append {α} [LT α] [DecidableLT α] [Std.Irrefl (α := α) (· < ·)] [Std.Asymm (α := α) (· < ·)] (p a b : List α) : p ++ a < p ++ b ↔ a < b := by
  induction p with
  | nil => rfl
  | cons c p ih =>
    rw [List.cons_append, List.cons_append, List.cons_lt_cons_iff]
    constructor
    · rintro (h | ⟨_, h⟩)
      · exact absurd h (Std.Irrefl.irrefl _)
      · exact ih.mp h
    · intro h; exact Or.inr ⟨rfl, ih.mpr h⟩

theorem utf8_lt_of_lt {s t : List Char} (h : s < t) : utf8 s < utf8 t := by
  induction s generalizing t with
  | nil =>
    cases t with
    | nil => exact absurd h (List.lt_irrefl _)
    | cons d t =>
      rw [utf8_cons]
      cases hd : String.utf8EncodeChar d with
      | nil => exact absurd hd String.utf8EncodeChar_ne_nil
      | cons a l => exact List.nil_lt_cons _ _
  | cons c s ih =>
    cases t with
    | nil => exact absurd h (List.not_lt_nil _)
    | cons d t =>
      rw [List.cons_lt_cons_iff] at h
      rw [utf8_cons, utf8_cons]
      rcases h with h | ⟨rfl, h⟩
      · exact utf8EncodeChar_lt h _ _
      · exact (append_lt_append _ _ _).mpr (ih h)

/-- Go's bytewise `<` on strings is the lexicographic order by code point. -/
theorem utf8_lt_iff (s t : List Char) : utf8 s < utf8 t ↔ s < t := by
  refine ⟨fun h => ?_, utf8_lt_of_lt⟩
  rcases List.le_total s t with h1 | h1
  · rcases List.le_iff_lt_or_eq.mp h1 with h2 | h2
    · exact h2
    · subst h2; exact absurd h (List.lt_irrefl _)
  · rcases List.le_iff_lt_or_eq.mp h1 with h2 | h2
    · exact absurd (utf8_lt_of_lt h2) (List.lt_asymm h)
    · subst h2; exact absurd h (List.lt_irrefl _)

theorem utf8_injective {s t : List Char} (h : utf8 s = utf8 t) : s = t := by
  rcases List.le_total s t with h1 | h1 <;> rcases List.le_iff_lt_or_eq.mp h1 with h2 | h2
  · exact absurd (h ▸ utf8_lt_of_lt h2) (List.lt_irrefl _)
  · exact h2
  · exact absurd (h ▸ utf8_lt_of_lt h2) (List.lt_irrefl _)
  · exact h2.symm

end Verif.Go
