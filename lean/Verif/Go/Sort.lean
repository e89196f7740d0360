/-!
# sort.Slice

Part of the trusted model of Go.  `sort.Slice` is deterministic but not stable.
The models use an arbitrary `Sorter`; theorems hold for every one.
-/

namespace Verif.Go

/-- A strict weak order on the elements of `xs`, the precondition of `sort.Slice`. -/
structure StrictWeakOn {α : Type} (r : α → α → Bool) (xs : List α) : Prop where
  irrefl : ∀ x ∈ xs, r x x = false
  trans : ∀ x ∈ xs, ∀ y ∈ xs, ∀ z ∈ xs, r x y = true → r y z = true → r x z = true
  cotrans : ∀ x ∈ xs, ∀ y ∈ xs, ∀ z ∈ xs, r x y = true → r x z = true ∨ r z y = true

/-- What `sort.Slice` is documented to do: a permutation, and in order provided the
comparison is a strict weak order. -/
structure Sorter where
  sort : {α : Type} → (α → α → Bool) → List α → List α
  perm : ∀ {α : Type} (r : α → α → Bool) (xs : List α), (sort r xs).Perm xs
  sorted : ∀ {α : Type} (r : α → α → Bool) (xs : List α), StrictWeakOn r xs →
    (sort r xs).Pairwise fun a b => r b a = false

private theorem attach_perm {α : Type} (xs : List α) (le : {x // x ∈ xs} → {x // x ∈ xs} → Bool) :
    ((xs.attach.mergeSort le).map Subtype.val).Perm xs := by
  have h := (List.mergeSort_perm xs.attach le).map Subtype.val
  rwa [List.attach_map_subtype_val] at h

/-- Merge sort is one. -/
def mergeSorter : Sorter where
  sort r xs := (xs.attach.mergeSort (fun a b => !r b.1 a.1)).map Subtype.val
  perm _ xs := attach_perm xs _
  sorted r xs h := by
    rw [List.pairwise_map]
    have := List.pairwise_mergeSort (le := fun (a b : {x // x ∈ xs}) => !r b.1 a.1) ?_ ?_ xs.attach
    · exact this.imp (by simp)
    · intro a b c hab hbc
      simp only [Bool.not_eq_true', Bool.not_eq_true] at hab hbc ⊢
      cases hca : r c.1 a.1 with
      | false => rfl
      | true =>
        rcases h.cotrans _ c.2 _ a.2 _ b.2 hca with h1 | h1
        · rw [hbc] at h1; simp at h1
        · rw [hab] at h1; simp at h1
    · intro a b
      cases hab : r a.1 b.1 with
      | false => simp
      | true =>
        cases hba : r b.1 a.1 with
        | false => simp
        | true =>
          have := h.trans _ a.2 _ b.2 _ a.2 hab hba
          rw [h.irrefl _ a.2] at this
          simp at this

end Verif.Go
