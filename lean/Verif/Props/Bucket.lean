import Verif.Model.Arrays
import Verif.Lemmas.Value
import Verif.Spec.Sql

/-! # C67: RANGE_BUCKET; C89: GREATEST and LEAST -/

namespace Verif.Arrays

open Go Verif.Val Verif.Logic Verif.Sql

/-- The argument is an array of these scalars, none of them NULL. -/
inductive Elems : List Val → List Scalar → Prop where
  | nil : Elems [] []
  | cons {v x vs xs} : Arg1 v x → Elems vs xs → Elems (v :: vs) (x :: xs)

/-- `y` is at most `x`. -/
def Le (y x : Scalar) : Prop := Lt y x ∨ y = x

instance : DecidableRel Lt := fun x y => by
  cases x <;> cases y <;> simp only [Lt] <;> infer_instance

instance (y x : Scalar) : Decidable (Le y x) := by unfold Le; infer_instance

theorem Le_trans {x y z : Scalar} (h : Le x y) (h' : Le y z) : Le x z := by
  rcases h with h | rfl
  · rcases h' with h' | rfl
    · exact .inl (Lt_trans h h')
    · exact .inl h
  · exact h'

theorem Le_antisymm {x y : Scalar} (h : Le x y) (h' : Le y x) : x = y := by
  rcases h with h | rfl
  · rcases h' with h' | rfl
    · exact absurd (Lt_trans h h') (Lt_irrefl _)
    · rfl
  · rfl

theorem SameTy_symm {x y : Scalar} (h : SameTy x y) : SameTy y x := by
  cases x <;> cases y <;> simp_all [SameTy]

theorem SameTy_trans {x y z : Scalar} (h : SameTy x y) (h' : SameTy y z) : SameTy x z := by
  cases x <;> cases y <;> simp only [SameTy] at h <;> cases z <;> simp_all [SameTy]

theorem bucketLoop_ok {p : Val} {x : Scalar} (hp : Arg1 p x) : ∀ {vs xs}, Elems vs xs → (∀ y ∈ xs, SameTy x y) → ∀ i : Int,
    bucketLoop p vs i = .ok (i + ((xs.takeWhile fun y => decide (Le y x)).length : Nat)) := by
  intro vs xs h
  induction h with
  | nil => intro _ i; simp [bucketLoop]
  | @cons v y vs ys hv _ ih =>
    intro hs i
    obtain ⟨c, hc, hiff⟩ := cmp_scalar .gte hp hv (hs y (by simp))
    rw [bucketLoop, if_neg (by simp [hv.not_null]), hc, Res.bind'_ok]
    have hle : c = true ↔ Le y x := by
      rw [hiff]; simp only [OpHolds, Le]; exact or_congr Iff.rfl eq_comm
    cases c with
    | true =>
      rw [if_pos rfl, ih (fun z hz => hs z (by simp [hz])), List.takeWhile_cons, if_pos (by simpa using hle.mp rfl)]
      simp only [List.length_cons]
      congr 1; omega
    | false =>
      have : ¬ Le y x := fun h => by simpa using hle.mpr h
      rw [if_neg (by simp), List.takeWhile_cons, if_neg (by simpa using this)]
      simp

theorem sorted_takeWhile {x : Scalar} : ∀ {xs : List Scalar}, xs.Pairwise Le →
    (xs.takeWhile fun y => decide (Le y x)).length = xs.countP fun y => decide (Le y x)
  | [], _ => rfl
  | y :: ys, h => by
    rw [List.pairwise_cons] at h
    rw [List.takeWhile_cons, List.countP_cons]
    by_cases hy : Le y x
    · rw [if_pos (by simpa using hy), if_pos (by simpa using hy), List.length_cons, sorted_takeWhile h.2]
    · rw [if_neg (by simpa using hy), if_neg (by simpa using hy)]
      simp only [List.length_nil, Nat.add_zero]
      rw [eq_comm, List.countP_eq_zero]
      intro z hz
      simp only [decide_eq_true_eq]
      exact fun h' => hy (Le_trans (h.1 z hz) h')

/-- **C67** RANGE_BUCKET of a sorted array is the number of its elements up to the point. -/
theorem C67_bucket (p : Val) (x : Scalar) (vs : List Val) (xs : List Scalar) (hp : Arg1 p x) (hvs : Elems vs xs)
    (hs : ∀ y ∈ xs, SameTy x y) (hsort : xs.Pairwise Le) :
    rangeBucket p (.arr vs) = .ok (.int ((xs.countP fun y => decide (Le y x) : Nat) : Int)) := by
  have : existsNull [p, .arr vs] = false := by
    simp [existsNull_eq, hp.not_null, show (Val.arr vs).isNull = false from rfl]
  simp only [rangeBucket, this, toArray, Res.bind'_ok]
  rw [if_neg (by simp), bucketLoop_ok hp hvs hs, sorted_takeWhile hsort]
  simp

/-- **C67** a NULL point or array gives NULL, a NULL boundary that is reached an error. -/
theorem C67_null (p a : Val) (h : p = .null ∨ a = .null) : rangeBucket p a = .ok .null := by
  unfold rangeBucket
  rw [if_pos]
  rcases h with rfl | rfl
  · rfl
  · simp [existsNull_eq, Val.isNull]

example : Elems [.int 0, .int 10, .int 20] [.int 0, .int 10, .int 20] ∧ [Scalar.int 0, .int 10, .int 20].Pairwise Le ∧
    rangeBucket (.int 10) (.arr [.int 0, .int 10, .int 20]) = .ok (.int 2) :=
  ⟨.cons (.int _) (.cons (.int _) (.cons (.int _) .nil)), by decide, rfl⟩

/-! ### C89 -/

/-- `m` is one of the values and none is greater. -/
def IsMax (xs : List Scalar) (m : Scalar) : Prop := m ∈ xs ∧ ∀ y ∈ xs, Le y m
/-- `m` is one of the values and none is less. -/
def IsMin (xs : List Scalar) (m : Scalar) : Prop := m ∈ xs ∧ ∀ y ∈ xs, Le m y

/-- The value kept so far is the best of those seen. -/
theorem extremeLoop_ok (op : Op) (R : Scalar → Scalar → Prop) (hR : ∀ {x y z}, R x y → R y z → R x z) (hrefl : ∀ x, R x x)
    (hop : ∀ {x y}, SameTy x y → (OpHolds op x y → R y x) ∧ (¬ OpHolds op x y → R x y)) :
    ∀ {vs xs}, Elems vs xs → ∀ (m : Val) (b : Scalar), Arg1 m b → (∀ y ∈ xs, SameTy y b) →
    ∃ v z, extremeLoop op (some m) vs = .ok v ∧ Arg1 v z ∧ z ∈ b :: xs ∧ ∀ y ∈ b :: xs, R y z := by
  intro vs xs h
  induction h with
  | nil => intro m b hm _; exact ⟨m, b, rfl, hm, by simp, by simp [hrefl]⟩
  | @cons v x vs xs hv _ ih =>
    intro m b hm hs
    have hxb := hs x (by simp)
    obtain ⟨c, hc, hiff⟩ := cmp_scalar op hv hm hxb
    simp only [extremeLoop, hv.not_null, Bool.false_eq_true, if_false, hc, Res.bind'_ok]
    cases c with
    | true =>
      obtain ⟨w, z, h1, h2, h3, h4⟩ := ih v x hv (fun y hy => SameTy_trans (hs y (by simp [hy])) (SameTy_symm hxb))
      have hr := (hop hxb).1 (hiff.mp rfl)
      refine ⟨w, z, by simpa using h1, h2, by simp only [List.mem_cons] at h3 ⊢; exact .inr h3, ?_⟩
      intro y hy
      rcases List.mem_cons.mp hy with rfl | hy
      · exact hR hr (h4 x (by simp))
      · exact h4 y hy
    | false =>
      obtain ⟨w, z, h1, h2, h3, h4⟩ := ih m b hm (fun y hy => hs y (by simp [hy]))
      have hr := (hop hxb).2 (fun h => by simpa using hiff.mpr h)
      refine ⟨w, z, by simpa using h1, h2, ?_, ?_⟩
      · simp only [List.mem_cons] at h3 ⊢
        rcases h3 with h3 | h3
        · exact .inl h3
        · exact .inr (.inr h3)
      · intro y hy
        simp only [List.mem_cons] at hy
        rcases hy with rfl | rfl | hy
        · exact h4 _ (by simp)
        · exact hR hr (h4 b (by simp))
        · exact h4 y (by simp [hy])

theorem elems_not_null {vs xs} (h : Elems vs xs) : existsNull vs = false := by
  induction h with
  | nil => rfl
  | cons hv _ ih => simp only [existsNull_eq, List.any_cons, hv.not_null, Bool.false_or] at *; exact ih

/-- **C89** GREATEST is a greatest and LEAST a least of its arguments of one type. -/
theorem C89_extremes (v : Val) (vs : List Val) (x : Scalar) (xs : List Scalar) (hv : Arg1 v x) (hvs : Elems vs xs) (hs : ∀ y ∈ xs, SameTy y x) :
    (∃ w m, greatest (v :: vs) = .ok w ∧ Arg1 w m ∧ IsMax (x :: xs) m) ∧
    (∃ w m, least (v :: vs) = .ok w ∧ Arg1 w m ∧ IsMin (x :: xs) m) := by
  have hn : existsNull (v :: vs) = false := elems_not_null (.cons hv hvs)
  have total : ∀ {x y : Scalar}, SameTy x y → (¬ Lt y x → Le x y) := by
    intro x y h hc
    rcases Lt_total h with h | h | h
    · exact .inl h
    · exact .inr h
    · exact absurd h hc
  constructor
  · obtain ⟨w, m, h1, h2, h3, h4⟩ := extremeLoop_ok .gt Le Le_trans (fun _ => .inr rfl)
      (fun {x y} h => ⟨fun h' => .inl h', fun h' => total h h'⟩) hvs v x hv hs
    refine ⟨w, m, ?_, h2, h3, h4⟩
    simp only [greatest, hn, Bool.false_eq_true, if_false, extremeLoop, hv.not_null]
    exact h1
  · obtain ⟨w, m, h1, h2, h3, h4⟩ := extremeLoop_ok .lt (fun x y => Le y x) (fun h h' => Le_trans h' h) (fun _ => .inr rfl)
      (fun {x y} h => ⟨fun h' => .inl h', fun h' => total (SameTy_symm h) h'⟩) hvs v x hv hs
    refine ⟨w, m, ?_, h2, h3, h4⟩
    simp only [least, hn, Bool.false_eq_true, if_false, extremeLoop, hv.not_null]
    exact h1

/-- **C89** the result depends only on which values there are: order and repetition do not matter. -/
theorem C89_order {x x' : Scalar} {xs xs' : List Scalar} {m m' : Scalar} (h : ∀ y, y ∈ x :: xs ↔ y ∈ x' :: xs') :
    (IsMax (x :: xs) m → IsMax (x' :: xs') m' → m = m') ∧ (IsMin (x :: xs) m → IsMin (x' :: xs') m' → m = m') :=
  ⟨fun h1 h2 => Le_antisymm (h2.2 _ ((h m).mp h1.1)) (h1.2 _ ((h m').mpr h2.1)),
   fun h1 h2 => Le_antisymm (h1.2 _ ((h m').mpr h2.1)) (h2.2 _ ((h m).mp h1.1))⟩

/-- **C89** a NULL among the arguments makes the result NULL. -/
theorem C89_null (vs : List Val) (h : Val.null ∈ vs) : greatest vs = .ok .null ∧ least vs = .ok .null := by
  have : existsNull vs = true := by
    rw [existsNull_eq, List.any_eq_true]; exact ⟨_, h, rfl⟩
  simp [greatest, least, this]

example : greatest [.int 3, .int 9, .int 4] = .ok (.int 9) ∧ least [.str "b".toList, .str "a".toList] = .ok (.str "a".toList) := ⟨rfl, rfl⟩

end Verif.Arrays
