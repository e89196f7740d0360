import Verif.Props.Window

/-! # C42: exactly when a ROWS frame is right -/

namespace Verif.Window

open Go Verif.Val Verif.Sql Verif.Aggregate

/-- The end bound is two or more rows before the start bound, the start is before the end of the partition and the end is not before
its start. -/
def Reversed (n i : Nat) (b e : Boundary) : Prop :=
  ∃ x y : Int, offset b = some x ∧ offset e = some y ∧ y + 1 < x ∧ i + x < n ∧ 0 ≤ i + y

/-- A reversed slice is a panic. -/
theorem frame_panic {S : Sorter} {text} {flags} {rows : List SRow} (hg : GoodParts text rows) {cur : Nat} {r : SRow}
    (hc : rows[cur]? = some r) {u : FrameUnit} {b e : Boundary} {s t : Int}
    (hs : boundaryIndex u (sortedRows S flags rows r.parts) cur (r.row flags) b = .ok s)
    (ht : boundaryIndex u (sortedRows S flags rows r.parts) cur (r.row flags) e = .ok t)
    (h1 : s < (sortedRows S flags rows r.parts).length) (h2 : 0 ≤ t) (h3 : t + 1 < s) :
    frameValues S text u b e (input flags rows) ((cur : Int) + 1) = .panic := by
  unfold frameValues frame
  rw [done_eq hg hc, hs, ht]
  simp only [Res.bind'_ok]
  rw [if_neg (by omega)]
  simp only [Res.bind'_ok]
  unfold slice
  rw [if_pos (by split <;> split <;> omega)]
  rfl

/-- What the code does on the window order. -/
theorem rows_exact (S : Sorter) {text : Val → Res (List Char)} {flags : List Bool} {rows : List SRow} (hg : GoodParts text rows)
    {p : List (Option Scalar)} {b e : Boundary} (hge : Grammatical b e) {i cur : Nat} (hi : (windowOrder S flags rows p)[i]? = some cur) :
    (Reversed (windowOrder S flags rows p).length i b e → frameValues S text .rows b e (input flags rows) ((cur : Int) + 1) = .panic) ∧
    (¬ Reversed (windowOrder S flags rows p).length i b e →
      frameValues S text .rows b e (input flags rows) ((cur : Int) + 1) = .ok ((rowsFrame (windowOrder S flags rows p) b e i).map (valueAt rows))) := by
  obtain ⟨r, hc, rfl⟩ := mem_windowOrder.mp (List.mem_of_getElem? hi)
  have hlt := (List.getElem?_eq_some_iff.mp hi).1
  have hlen : (windowOrder S flags rows r.parts).length = (sortedRows S flags rows r.parts).length := by simp [windowOrder]
  have hcur := currentIndex_eq hi
  constructor
  · rintro ⟨x, y, hx, hy, h1, h2, h3⟩
    have hs : boundaryIndex .rows (sortedRows S flags rows r.parts) cur (r.row flags) b = .ok ((i : Int) + x) := by
      cases b <;> simp [offset] at hx <;> subst hx <;> simp [boundaryIndex, rowsIndex, hcur] <;> omega
    have ht : boundaryIndex .rows (sortedRows S flags rows r.parts) cur (r.row flags) e = .ok ((i : Int) + y) := by
      cases e <;> simp [offset] at hy <;> subst hy <;> simp [boundaryIndex, rowsIndex, hcur] <;> omega
    exact frame_panic hg hc hs ht (by omega) h3 (by omega)
  · intro hr
    obtain ⟨s, hs, hs', hsx⟩ : ∃ s, boundaryIndex .rows (sortedRows S flags rows r.parts) cur (r.row flags) b = .ok s ∧
        (∀ pos : Int, 0 ≤ pos → (lowerOk i pos b ↔ s ≤ pos)) ∧ (s ≤ 0 ∨ ∃ x, offset b = some x ∧ s = i + x) := by
      cases b with
      | unboundedPreceding => exact ⟨0, rfl, fun pos h => by simp [lowerOk, h], .inl (by omega)⟩
      | unboundedFollowing => exact absurd rfl hge.1
      | current => exact ⟨i, hcur, fun pos h => by simp [lowerOk], .inr ⟨0, rfl, by omega⟩⟩
      | preceding n => exact ⟨i - n, by simp [boundaryIndex, rowsIndex, hcur], fun pos h => by simp [lowerOk], .inr ⟨-n, rfl, by omega⟩⟩
      | following n => exact ⟨i + n, by simp [boundaryIndex, rowsIndex, hcur], fun pos h => by simp [lowerOk], .inr ⟨n, rfl, by omega⟩⟩
    obtain ⟨t, ht, ht', htx⟩ : ∃ t, boundaryIndex .rows (sortedRows S flags rows r.parts) cur (r.row flags) e = .ok t ∧
        (∀ pos : Int, pos < (sortedRows S flags rows r.parts).length → (upperOk i pos e ↔ pos ≤ t)) ∧
        (t = (sortedRows S flags rows r.parts).length - 1 ∨ ∃ y, offset e = some y ∧ t = i + y) := by
      cases e with
      | unboundedFollowing => exact ⟨(sortedRows S flags rows r.parts).length - 1, rfl, fun pos h => by simp [upperOk]; omega, .inl rfl⟩
      | unboundedPreceding => exact absurd rfl hge.2
      | current => exact ⟨i, hcur, fun pos h => by simp [upperOk], .inr ⟨0, rfl, by omega⟩⟩
      | preceding n => exact ⟨i - n, by simp [boundaryIndex, rowsIndex, hcur], fun pos h => by simp [upperOk], .inr ⟨-n, rfl, by omega⟩⟩
      | following n => exact ⟨i + n, by simp [boundaryIndex, rowsIndex, hcur], fun pos h => by simp [upperOk], .inr ⟨n, rfl, by omega⟩⟩
    have hst : s < (sortedRows S flags rows r.parts).length → 0 ≤ t → s ≤ t + 1 := by
      intro h1 h2
      refine Classical.byContradiction fun h3 => ?_
      rcases hsx with h | ⟨x, hx, rfl⟩
      · omega
      · rcases htx with h | ⟨y, hy, rfl⟩
        · omega
        · exact hr ⟨x, y, hx, hy, by omega, by omega, by omega⟩
    rw [frame_slice hg hc hs ht hst]
    congr 2
    unfold rowsFrame
    have := filter_pos (windowOrder S flags rows r.parts) 0 s t
    simp only [Int.natCast_zero, Int.sub_zero] at this
    rw [← this]
    congr 1
    apply List.filter_congr
    intro q hq
    have := List.snd_lt_of_mem_zipIdx hq
    simp only [decide_eq_decide]
    rw [hs' _ (by omega), ht' _ (by omega)]

/-- C42, exact: a frame with reversed bounds inside of the partition is a panic, every other one is right. -/
theorem C42_exact (S : Sorter) (text : Val → Res (List Char)) (flags : List Bool) (rows : List SRow)
    (hg : GoodParts text rows) (hk : GoodKeys flags rows) (p : List (Option Scalar)) :
    ∃ W, WindowOrder flags rows p W ∧
      ∀ (b e : Boundary), Grammatical b e → ∀ (i j : Nat), W[i]? = some j →
        (Reversed W.length i b e → frameValues S text .rows b e (input flags rows) ((j : Int) + 1) = .panic) ∧
        (¬ Reversed W.length i b e →
          frameValues S text .rows b e (input flags rows) ((j : Int) + 1) = .ok ((rowsFrame W b e i).map (valueAt rows))) := by
  exact ⟨windowOrder S flags rows p, windowOrder_ok S hk p, fun b e hge i j hi => rows_exact S hg hge hi⟩

/-- C42, exact for aggregates: an aggregate that has a result over no rows is right unless the bounds are reversed. -/
theorem C42_iff (S : Sorter) (text : Val → Res (List Char)) (flags : List Bool) (rows : List SRow)
    (hg : GoodParts text rows) (hk : GoodKeys flags rows) (p : List (Option Scalar)) :
    ∃ W, WindowOrder flags rows p W ∧
      ∀ (b e : Boundary), Grammatical b e → ∀ (f : Fn), (∃ v, run f [] = .ok v) → ∀ (i j : Nat), W[i]? = some j →
        (winAgg f S text .rows b e (input flags rows) ((j : Int) + 1) = run f ((rowsFrame W b e i).map (valueAt rows)) ↔
          ¬ Reversed W.length i b e) := by
  obtain ⟨W, hW, h⟩ := C42_exact S text flags rows hg hk p
  refine ⟨W, hW, ?_⟩
  intro b e hge f ⟨v, hv⟩ i j hi
  obtain ⟨h1, h2⟩ := h b e hge i j hi
  constructor
  · intro hw hr
    unfold winAgg at hw
    rw [h1 hr] at hw
    have hemp : rowsFrame W b e i = [] := by
      obtain ⟨x, y, hx, hy, hxy, -, -⟩ := hr
      unfold rowsFrame
      rw [List.map_eq_nil_iff, List.filter_eq_nil_iff]
      intro q _
      simp only [decide_eq_true_eq]
      rintro ⟨ha, hb⟩
      cases b <;> simp [offset] at hx <;> cases e <;> simp [offset] at hy <;> simp [lowerOk, upperOk] at ha hb <;> omega
    rw [hemp, List.map_nil, hv] at hw
    cases hw
  · intro hr
    unfold winAgg
    rw [h2 hr, Res.bind'_ok]

/-- Cases: ROWS BETWEEN 1 PRECEDING AND 3 PRECEDING is reversed at the fourth of five rows, not at the second. -/
example : Reversed 5 3 (.preceding 1) (.preceding 3) ∧ ¬ Reversed 5 1 (.preceding 1) (.preceding 3) := by
  constructor
  · exact ⟨-1, -3, rfl, rfl, by omega, by omega, by omega⟩
  · rintro ⟨x, y, hx, hy, -, -, h⟩
    simp [offset] at hx hy
    omega

end Verif.Window
