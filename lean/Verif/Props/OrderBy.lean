import Verif.Model.OrderBy
import Verif.Lemmas.Value
import Verif.Props.Logic

/-! # C32: ORDER BY -/

namespace Verif.OrderBy

open Go Verif.Val Verif.Sql Verif.Logic

/-- What SQL prescribes: does `x` come strictly before `y` on this item?
Without NULLS FIRST/LAST, NULLs come first in ascending and last in descending
order. -/
def Before (it : Item) (x y : Option Scalar) : Prop :=
  let nullsFirst := match it.nulls with
    | .first => true
    | .last => false
    | .unspecified => !it.desc
  match x, y with
  | some x, some y => if it.desc then Lt y x else Lt x y
  | none, some _ => nullsFirst = true
  | some _, none => nullsFirst = false
  | none, none => False

/-- `Before` is a strict linear order on the values of one type. -/
theorem Before_irrefl (it : Item) (x : Option Scalar) : ¬ Before it x x := by
  cases x with
  | none => simp [Before]
  | some x => simp only [Before]; split <;> exact Lt_irrefl x

theorem Before_trans (it : Item) {x y z : Option Scalar} (h : Before it x y) (h' : Before it y z) : Before it x z := by
  cases x <;> cases y <;> cases z <;> simp only [Before] at * <;> try (first | assumption | simp_all)
  cases hd : it.desc <;> simp only [hd] at *
  · exact Lt_trans h h'
  · exact Lt_trans h' h

theorem Before_total (it : Item) {x y : Option Scalar} (h : SameTyN x y) : Before it x y ∨ x = y ∨ Before it y x := by
  cases x with
  | none => cases y with
    | none => simp
    | some y => simp only [Before]; generalize (match it.nulls with | .first => true | .last => false | .unspecified => !it.desc) = b; cases b <;> simp
  | some x => cases y with
    | none => simp only [Before]; generalize (match it.nulls with | .first => true | .last => false | .unspecified => !it.desc) = b; cases b <;> simp
    | some y =>
      simp only [Before, Option.some.injEq]
      rcases Lt_total (x := x) (y := y) h with h1 | h1 | h1
      · cases it.desc <;> simp [h1]
      · simp [h1]
      · cases it.desc <;> simp [h1]

/-- A comparison result agrees with a strict order. -/
structure Agrees (r : Res Int) (lt eq gt : Prop) : Prop where
  ex : ∃ c, r = .ok c ∧ (c < 0 ↔ lt) ∧ (c = 0 ↔ eq) ∧ (0 < c ↔ gt)

theorem Lt_asymm {x y : Scalar} (h : Lt x y) : ¬ Lt y x := fun h' => Lt_irrefl _ (Lt_trans h h')

theorem collate_agrees {a b : Val} {x y : Scalar} (ha : Arg1 a x) (hb : Arg1 b y) (ht : SameTy x y) :
    Agrees (collate a b) (Lt x y) (x = y) (Lt y x) := by
  obtain ⟨r, h1, h2⟩ := cmp_scalar .eq ha hb ht
  obtain ⟨s, h3, h4⟩ := cmp_scalar .gt ha hb ht
  simp only [OpHolds] at h2 h4
  refine ⟨?_⟩
  unfold collate
  rw [h1, h3]
  cases r
  · have hne : x ≠ y := fun e => by have := h2.mpr e; cases this
    cases s
    · have hng : ¬ Lt y x := fun e => by have := h4.mpr e; cases this
      have : Lt x y := by rcases Lt_total ht with h | h | h <;> simp_all
      exact ⟨-1, rfl, by simp [this], by simp [hne], by simp [hng]⟩
    · have hg := h4.mp rfl
      exact ⟨1, rfl, by simp [Lt_asymm hg], by simp [hne], by simp [hg]⟩
  · have := h2.mp rfl
    subst this
    exact ⟨0, rfl, by simp [Lt_irrefl], by simp, by simp [Lt_irrefl]⟩

theorem sqliteCmp_agrees {a b : Val} {x y : Scalar} (ha : Arg1 a x) (hb : Arg1 b y) (ht : SameTy x y) :
    Agrees (sqliteCmp a b) (Lt x y) (x = y) (Lt y x) := by
  have hc := collate_agrees ha hb ht
  cases ha <;> cases hb <;> simp only [SameTy] at ht <;> try exact hc
  · rename_i i j
    refine ⟨_, rfl, ?_, ?_, ?_⟩ <;> simp only [Lt, Scalar.int.injEq] <;> split <;> (try split) <;> omega
  all_goals exact ⟨_, rfl, by simp [Lt], by simp, by simp [Lt]⟩

theorem itemCmp_agrees (it : Item) {a b : Val} {x y : Option Scalar} (ha : Arg a x) (hb : Arg b y) (ht : SameTyN x y) :
    Agrees (itemCmp it a b) (Before it x y) (x = y) (Before it y x) := by
  obtain ⟨desc, nulls⟩ := it
  cases ha with
  | null => cases hb with
    | null => refine ⟨0, ?_, by simp [Before], by simp, by simp [Before]⟩; cases nulls <;> cases desc <;> rfl
    | @some b y hb =>
      have hn := hb.not_null
      have hs : sqliteCmp .null b = .ok (-1) := by cases hb <;> rfl
      cases nulls <;> cases desc <;>
        simp [itemCmp, nullKeyCmp, hn, hs] <;>
        exact ⟨⟨_, rfl, by simp [Before], by simp, by simp [Before]⟩⟩
  | @some a x ha => cases hb with
    | null =>
      have hn := ha.not_null
      have hs : sqliteCmp a .null = .ok 1 := by cases ha <;> rfl
      cases nulls <;> cases desc <;>
        simp [itemCmp, nullKeyCmp, hn, hs] <;>
        exact ⟨⟨_, rfl, by simp [Before], by simp, by simp [Before]⟩⟩
    | @some b y hb =>
      obtain ⟨c, h1, h2, h3, h4⟩ := (sqliteCmp_agrees ha hb ht).ex
      have hk : nullKeyCmp ⟨desc, nulls⟩ a b = 0 := by cases nulls <;> simp [nullKeyCmp, ha.not_null, hb.not_null]
      simp only [itemCmp, hk, ne_eq, not_true_eq_false, if_false, h1, Res.bind'_ok]
      cases desc
      · exact ⟨c, rfl, by simp [Before, h2], by simp [h3], by simp [Before, h4]⟩
      · refine ⟨-c, rfl, ?_, ?_, ?_⟩
        · simp only [Before, if_true, ← h4]; omega
        · simp only [Option.some.injEq, ← h3]; omega
        · simp only [Before, if_true, ← h2]; omega

/-- **C32**, one item: the comparison SQLite is given never fails and is exactly
the order SQL prescribes, which is a strict linear order on the values of the
column (`Before_irrefl`, `Before_trans`, `Before_total`): two values compare
equal only if they are equal. -/
theorem C32_item (it : Item) (a b : Val) (x y : Option Scalar) (ha : Arg a x) (hb : Arg b y) (ht : SameTyN x y) :
    ∃ c, itemCmp it a b = .ok c ∧ (c < 0 ↔ Before it x y) ∧ (c = 0 ↔ x = y) ∧ (0 < c ↔ Before it y x) :=
  (itemCmp_agrees it ha hb ht).ex

/-- Row order on several items: the first item on which the rows differ decides. -/
inductive RowBefore : List Item → List (Option Scalar) → List (Option Scalar) → Prop where
  | here {it its x y xs ys} : Before it x y → RowBefore (it :: its) (x :: xs) (y :: ys)
  | there {it its x xs ys} : RowBefore its xs ys → RowBefore (it :: its) (x :: xs) (x :: ys)

/-- Rows of the same types. -/
abbrev RowArg := All2 Arg

/-- **C32**, several items: rows compare lexicographically. -/
theorem C32_rows (its : List Item) (as bs : List Val) (xs ys : List (Option Scalar)) (ha : RowArg as xs) (hb : RowArg bs ys)
    (hl : its.length = xs.length) (ht : All2 SameTyN xs ys) :
    ∃ c, rowCmp its as bs = .ok c ∧ (c < 0 ↔ RowBefore its xs ys) ∧ (c = 0 ↔ xs = ys) ∧ (0 < c ↔ RowBefore its ys xs) := by
  induction its generalizing as bs xs ys with
  | nil =>
    cases ha with
    | nil => cases ht with
      | nil => exact ⟨0, rfl, ⟨by simp, fun h => by cases h⟩, by simp, ⟨by simp, fun h => by cases h⟩⟩
    | cons => simp at hl
  | cons it its ih =>
    cases ha with
    | nil => simp at hl
    | @cons a x as xs ha has => cases hb with
      | nil => cases ht
      | @cons b y bs ys hb hbs => cases ht with
        | cons ht hts =>
          obtain ⟨c, h1, h2, h3, h4⟩ := C32_item it a b x y ha hb ht
          obtain ⟨d, g1, g2, g3, g4⟩ := ih as bs xs ys has hbs (by simpa using hl) hts
          simp only [rowCmp, h1, Res.bind'_ok]
          by_cases hc : c = 0
          · have := h3.mp hc
            subst this
            refine ⟨d, by simp [hc, g1], ?_, ?_, ?_⟩
            · rw [g2]; exact ⟨.there, fun h => by cases h with
                | here h => exact absurd h (Before_irrefl _ _)
                | there h => exact h⟩
            · rw [g3]; simp
            · rw [g4]; exact ⟨.there, fun h => by cases h with
                | here h => exact absurd h (Before_irrefl _ _)
                | there h => exact h⟩
          · have hne : x ≠ y := fun e => hc (h3.mpr e)
            refine ⟨c, by simp [hc], ?_, ?_, ?_⟩
            · rw [h2]; exact ⟨.here, fun h => by cases h with
                | here h => exact h
                | there h => exact absurd rfl hne⟩
            · simp [hc, hne]
            · rw [h4]; exact ⟨.here, fun h => by cases h with
                | here h => exact h
                | there h => exact absurd rfl hne⟩

example : itemCmp ⟨true, .last⟩ .null (.int 3) = .ok 1 ∧ itemCmp ⟨true, .last⟩ (.int 5) (.int 3) = .ok (-1) := ⟨rfl, rfl⟩

/-- On structs (which GROUP BY and DISTINCT also compare with this collation) it
is not an order: two different structs are each "before" the other. -/
theorem C32_struct_not_order :
    collate (.struct [['a'], ['b']] [.int 1, .int 2]) (.struct [['a'], ['b']] [.int 2, .int 1]) = .ok (-1) ∧
    collate (.struct [['a'], ['b']] [.int 2, .int 1]) (.struct [['a'], ['b']] [.int 1, .int 2]) = .ok (-1) := ⟨rfl, rfl⟩

end Verif.OrderBy
