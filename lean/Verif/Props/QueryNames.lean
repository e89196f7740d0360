import Verif.Model.Query
import Verif.Model.Schema

/-!
# C142: names of columns in the text of a query
-/

namespace Verif.Query

open Go Verif.Schema

theorem upper_append (a b : List Char) : upper (a ++ b) = upper a ++ upper b := by simp [upper]

theorem upper_digits (n : Nat) : upper (decNat n) = decNat n := by
  have h := decNat_digits n
  unfold upper
  rw [List.map_congr_left (g := id), List.map_id]
  intro c hc
  have := h c hc
  rw [if_neg (by omega)]
  rfl

theorem hash_not_digit (n : Nat) : '#' ∉ decNat n := by
  intro h
  have := decNat_digits n _ h
  simp at this

theorem split_last {a b x y : List Char} (hx : '#' ∉ x) (hy : '#' ∉ y) (h : a ++ '#' :: x = b ++ '#' :: y) : x = y := by
  have h' := congrArg (fun l => l.reverse.takeWhile fun c => decide (c ≠ '#')) h
  have aux : ∀ (a x : List Char), '#' ∉ x → (a ++ '#' :: x).reverse.takeWhile (fun c => decide (c ≠ '#')) = x.reverse := by
    intro a x hx
    rw [List.reverse_append, List.reverse_cons, List.append_assoc, List.takeWhile_append_of_pos]
    · simp
    · intro c hc
      simp only [decide_eq_true_eq]
      rintro rfl
      exact hx (List.mem_reverse.1 hc)
  rw [aux a x hx, aux b y hy] at h'
  exact List.reverse_inj.1 h'

/-- C142: two columns of a query whose names in the text are the same to SQLite, which ignores case, are the same column. -/
theorem C142 (c d : Col) (h : upper (uid c).text = upper (uid d).text) : c.id = d.id := by
  simp only [uid, Nm.text, upper_append] at h
  have e : ∀ n, upper ('#' :: decNat n) = '#' :: decNat n := by
    intro n
    have := upper_digits n
    unfold upper at this ⊢
    rw [List.map_cons, this]
    rfl
  rw [e, e] at h
  have := split_last (hash_not_digit _) (hash_not_digit _) h
  have h2 := congrArg parseNat this
  rw [parseNat_decNat, parseNat_decNat] at h2
  exact Option.some.inj h2

/-- Columns called `a`, `A` and `a#1` with different identifiers have different names; without identifiers (as in UPDATE and
DELETE) the first two would not. -/
example : upper (uid ⟨['a'], 11⟩).text ≠ upper (uid ⟨['A'], 1⟩).text ∧ upper (uid ⟨['a', '#', '1'], 1⟩).text ≠ upper (uid ⟨['a'], 11⟩).text ∧
    upper (plain ⟨['a'], 11⟩).text = upper (plain ⟨['A'], 1⟩).text := by
  refine ⟨fun h => absurd (C142 _ _ h) (by decide), fun h => absurd (C142 _ _ h) (by decide), by decide +kernel⟩

end Verif.Query
