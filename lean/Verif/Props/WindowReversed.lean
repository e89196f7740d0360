import Verif.Props.WindowText
import Verif.Props.WindowVar

/-! # C202–C208: aggregates over reversed frames, and the exact extent of C202 -/

namespace Verif.WindowAgg

open Go Verif.Val Verif.Aggregate Verif.Window Verif.Sql

/-- The result of `bind` on a panic. -/
theorem panic_bind {α β} (f : α → Res β) : (Res.panic : Res α).bind f = .panic := rfl

/-- C202–C205, C207: over a reversed frame every one of these functions panics, though the frame is merely empty. -/
theorem C202_reversed (S : Sorter) (other : Val → Res (List Char)) (flags : List Bool) (rows : List SRow)
    (hg : GoodParts (toText other) rows) (hk : GoodKeys flags rows) (p : List (Option Scalar)) :
    ∃ W, WindowOrder flags rows p W ∧ ∀ (b e : Boundary), Grammatical b e → ∀ (i j : Nat), W[i]? = some j → Reversed W.length i b e →
      vals rows W b e i = [] ∧
      winCountStar S (toText other) .rows b e (input flags rows) ((j : Int) + 1) = .panic ∧
      winCountIf S (toText other) .rows b e (input flags rows) ((j : Int) + 1) = .panic ∧
      (∀ d, winCount d S (toText other) .rows b e (input flags rows) ((j : Int) + 1) = .panic) ∧
      (∀ d, winSum d S (toText other) .rows b e (input flags rows) ((j : Int) + 1) = .panic) ∧
      (∀ d (delim : Option (List Char)), winString d (delim.map .str) S (toText other) .rows b e (input flags rows) ((j : Int) + 1) = .panic) ∧
      ((∀ r ∈ rows, r.value ≠ .null) → ∀ ig d, winArray ig d S (toText other) .rows b e (input flags rows) ((j : Int) + 1) = .panic) ∧
      (∀ pop, winVar pop S (toText other) .rows b e (input flags rows) ((j : Int) + 1) = .panic) := by
  refine ⟨windowOrder S flags rows p, windowOrder_ok S hk p, ?_⟩
  intro b e hge i j h hrev
  have hf := (rows_exact S hg hge h).1 hrev
  refine ⟨?_, ?_, ?_, ?_, ?_, ?_, ?_, ?_⟩
  · obtain ⟨x, y, hx, hy, hxy, -, -⟩ := hrev
    unfold vals rowsFrame
    rw [List.map_eq_nil_iff, List.map_eq_nil_iff, List.filter_eq_nil_iff]
    intro q _
    simp only [decide_eq_true_eq]
    rintro ⟨ha, hb⟩
    cases b <;> simp [offset] at hx <;> cases e <;> simp [offset] at hy <;> simp [lowerOk, upperOk] at ha hb <;> omega
  · unfold winCountStar; rw [hf, panic_bind]
  · unfold winCountIf; rw [hf, panic_bind]
  · intro d; unfold winCount; rw [hf, panic_bind]
  · intro d; unfold winSum; rw [hf, panic_bind]
  · intro d delim; unfold winString; rw [delimiter_eq, Res.bind'_ok, hf, panic_bind]
  · intro hn ig d
    unfold winArray
    have hany : rows.any (fun r => r.value.isNull) = false := by
      rw [List.any_eq_false]
      intro s hs hx
      have := hn s hs
      cases hy : s.value <;> rw [hy] at hx <;> first | exact absurd hy this | simp [Val.isNull] at hx
    rw [arraySteps_eq hg, hany, if_neg (by simp), Res.bind'_ok, hf, panic_bind]
  · intro pop
    obtain ⟨r, hr, rfl⟩ := mem_windowOrder.mp (List.mem_of_getElem? h)
    obtain ⟨s, hs⟩ := rows_index h b
    obtain ⟨t, ht⟩ := rows_index h e
    have hlen : (windowOrder S flags rows r.parts).length = (sortedRows S flags rows r.parts).length := by simp [windowOrder]
    unfold winVar
    unfold frameValues frame at hf
    rw [done_eq hg hr, hs, ht] at hf ⊢
    simp only [Res.bind'_ok] at hf ⊢
    split at hf
    · simp [Res.bind] at hf
    · rename_i hc
      rw [if_neg hc]
      simp only [Res.bind'_ok] at hf ⊢
      obtain ⟨x, y, -, -, h1, h2, h3⟩ := hrev
      rw [if_neg (by omega)]
      cases hsl : slice (sortedRows S flags rows r.parts) (if s < 0 then 0 else s)
          (if t ≥ (sortedRows S flags rows r.parts).length then ((sortedRows S flags rows r.parts).length : Int) - 1 else t) with
      | ok qs => rw [hsl] at hf; simp [Res.bind] at hf
      | err => rw [hsl] at hf; cases hf
      | panic => rfl

/-- **C202**, exact: COUNT, COUNT(*) and COUNTIF are right exactly over the frames that are not reversed. -/
theorem C202_iff (S : Sorter) (other : Val → Res (List Char)) (flags : List Bool) (rows : List SRow)
    (hg : GoodParts (toText other) rows) (hk : GoodKeys flags rows) (hc : Column (rows.map SRow.value)) (hl : rows.length < 2 ^ 63)
    (p : List (Option Scalar)) :
    ∃ W, WindowOrder flags rows p W ∧ ∀ (b e : Boundary), Grammatical b e → ∀ (i j : Nat), W[i]? = some j →
      (CountSpec (vals rows W b e i) (winCountStar S (toText other) .rows b e (input flags rows) ((j : Int) + 1))
        (winCountIf S (toText other) .rows b e (input flags rows) ((j : Int) + 1))
        (fun d => winCount d S (toText other) .rows b e (input flags rows) ((j : Int) + 1)) ↔ ¬ Reversed W.length i b e) := by
  refine ⟨windowOrder S flags rows p, windowOrder_ok S hk p, ?_⟩
  intro b e hge i j h
  refine ⟨fun hs hr => ?_, count_core S other flags rows hg hk hc hl p b e hge i j h⟩
  have hstar := hs.star
  unfold winCountStar at hstar
  rw [(rows_exact S hg hge h).1 hr, panic_bind] at hstar
  cases hstar

/-- A column and a reversed frame: COUNT(x) OVER (ROWS BETWEEN 1 PRECEDING AND 3 PRECEDING) at the last of four rows. -/
example : Column ((four (.int 7)).map SRow.value) ∧ Reversed 4 3 (.preceding 1) (.preceding 3) :=
  ⟨.inl (by simp [four]), -1, -3, rfl, rfl, by omega, by omega, by omega⟩

end Verif.WindowAgg
