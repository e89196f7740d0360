import Verif.Props.WindowRank

/-! # C43: RANGE frames -/

namespace Verif.Window

open Go Verif.Val Verif.Sql Verif.Aggregate

/-- What SQL prescribes for RANGE BETWEEN b AND e, ORDER BY one ascending INT64 key, at a
row with key `k`: the rows of the partition with a key between the bounds. -/
def rangeFrame (rows : List SRow) (W : List Nat) (b e : Boundary) (k : Int) : List Nat :=
  W.filter fun m => decide (lowerOk k (keyAt rows m) b ∧ upperOk k (keyAt rows m) e)

/-- C43 as stated (for one ascending INT64 key). -/
def C43_full (S : Sorter) (text : Val → Res (List Char)) : Prop :=
  ∀ rows, GoodParts text rows → IntKeyed rows → ∀ p, ∃ W, WindowOrder [true] rows p W ∧
    ∀ (b e : Boundary), Grammatical b e → ∀ (f : Fn) (j : Nat), j ∈ W →
      winAgg f S text .range b e (input [true] rows) ((j : Int) + 1) =
        run f ((rangeFrame rows W b e (keyAt rows j)).map (valueAt rows))

/-! ## Look-ups in a sorted list -/

theorem cmp_lte (a b : Int) : cmp .lte (.int a) (.int b) = .ok (decide (a ≤ b)) := by
  have h : cmp .lte (.int a) (.int b) = .ok (Op.run .lte (decide (a < b)) (decide (a = b)) (decide (a > b))) := by
    simp [cmp, cmpAux, cmpLeaf, Val.toInt64]
  rw [h]
  congr 1
  by_cases h1 : a < b <;> by_cases h2 : a = b <;> simp [Op.run, h1, h2] <;> omega

theorem cmp_gte (a b : Int) : cmp .gte (.int a) (.int b) = .ok (decide (b ≤ a)) := by
  have h : cmp .gte (.int a) (.int b) = .ok (Op.run .gte (decide (a < b)) (decide (a = b)) (decide (a > b))) := by
    simp [cmp, cmpAux, cmpLeaf, Val.toInt64]
  rw [h]
  congr 1
  by_cases h1 : a > b <;> by_cases h2 : a = b <;> simp [Op.run, h1, h2] <;> omega

/-- Indexed rows whose last keys are the integers `ks`. -/
def HasKeys (qs : List IRow) (ks : List Int) : Prop := qs.map (fun q => lastKey q.2) = ks.map fun k => some (.int k)

theorem lookupMin_eq (v : Int) (qs : List IRow) (ks : List Int) (h : HasKeys qs ks) (hs : ks.Pairwise (· ≤ ·)) (i : Nat) :
    lookupMin (.int v) i qs = .ok (if ks.all (fun k => decide (k < v)) then -1 else (i : Int) + (ks.countP fun k => decide (k < v))) := by
  induction qs generalizing ks i with
  | nil => cases ks <;> simp_all [HasKeys, lookupMin]
  | cons q qs ih =>
    cases ks with
    | nil => simp [HasKeys] at h
    | cons k ks =>
      simp only [HasKeys, List.map_cons, List.cons.injEq] at h
      rw [List.pairwise_cons] at hs
      simp only [lookupMin, ih ks h.2 hs.2, Res.bind'_ok, h.1, cmp_lte]
      congr 1
      by_cases hv : v ≤ k
      · have h1 : ¬ k < v := by omega
        have h2 : ks.countP (fun k => decide (k < v)) = 0 := by
          rw [List.countP_eq_zero]; intro x hx; have := hs.1 x hx; simp; omega
        simp [hv, h1, h2]
      · have h1 : k < v := by omega
        simp only [hv, decide_false, Bool.false_eq_true, if_false, List.all_cons, h1, decide_true, Bool.true_and, List.countP_cons,
          if_true]
        split
        · rfl
        · omega

theorem lookupMax_eq (v : Int) (qs : List IRow) (ks : List Int) (h : HasKeys qs ks) (hs : ks.Pairwise (· ≤ ·)) (i : Nat) (m : Int) :
    lookupMax (.int v) i m qs = .ok (if ks.countP (fun k => decide (k ≤ v)) = 0 then m else (i : Int) + (ks.countP fun k => decide (k ≤ v)) - 1) := by
  induction qs generalizing ks i m with
  | nil => cases ks <;> simp_all [HasKeys, lookupMax]
  | cons q qs ih =>
    cases ks with
    | nil => simp [HasKeys] at h
    | cons k ks =>
      simp only [HasKeys, List.map_cons, List.cons.injEq] at h
      rw [List.pairwise_cons] at hs
      simp only [lookupMax, h.1, cmp_gte, Res.bind'_ok, ih ks h.2 hs.2]
      congr 1
      by_cases hv : k ≤ v
      · simp only [hv, decide_true, if_true, List.countP_cons]
        split <;> split <;> omega
      · have h2 : ks.countP (fun k => decide (k ≤ v)) = 0 := by
          rw [List.countP_eq_zero]; intro x hx; have := hs.1 x hx; simp; omega
        simp [hv, h2]

theorem filter_sorted {α : Type} (g : α → Int) (xs : List α) (lo hi : Int) (hlh : lo ≤ hi) (hs : (xs.map g).Pairwise (· ≤ ·)) :
    xs.filter (fun x => decide (lo ≤ g x ∧ g x ≤ hi)) =
      (xs.drop ((xs.map g).countP fun k => decide (k < lo))).take
        ((xs.map g).countP (fun k => decide (k ≤ hi)) - (xs.map g).countP fun k => decide (k < lo)) := by
  induction xs with
  | nil => simp
  | cons x xs ih =>
    rw [List.map_cons, List.pairwise_cons] at hs
    have ih := ih hs.2
    rw [List.filter_cons, List.map_cons, List.countP_cons, List.countP_cons]
    by_cases h1 : g x < lo
    · have h2 : ¬ lo ≤ g x := by omega
      have h3 : g x ≤ hi := by omega
      simp only [h1, h2, h3, decide_true, if_true, false_and, decide_false, Bool.false_eq_true, if_false, List.drop_succ_cons,
        Nat.add_sub_add_right, ih]
    · have hz : (xs.map g).countP (fun k => decide (k < lo)) = 0 := by
        rw [List.countP_eq_zero]; intro y hy; have := hs.1 y hy; simp; omega
      rw [hz] at ih ⊢
      by_cases h3 : g x ≤ hi
      · have h2 : lo ≤ g x := by omega
        simp only [List.drop_zero, Nat.sub_zero] at ih
        simp only [h1, h2, h3, ih, decide_true, decide_false, and_self, if_true, Bool.false_eq_true, if_false, Nat.add_zero, Nat.sub_zero,
          List.drop_zero, List.take_succ_cons]
      · have hz2 : (xs.map g).countP (fun k => decide (k ≤ hi)) = 0 := by
          rw [List.countP_eq_zero]; intro y hy; have := hs.1 y hy; simp; omega
        rw [hz2] at ih ⊢
        simp only [Nat.sub_self, List.take_zero] at ih
        simp only [h1, h3, ih, and_false, decide_false, Bool.false_eq_true, if_false, Nat.add_zero, Nat.sub_zero, List.take_zero]

/-! ## The frame -/

theorem sorted_le (S : Sorter) {rows : List SRow} (h : IntKeyed rows) (p) :
    ((windowOrder S [true] rows p).map (keyAt rows)).Pairwise (· ≤ ·) :=
  (order_sorted S (asc := true) h p).imp fun h => by simp [klt] at h; exact h

theorem hasKeys (S : Sorter) {rows : List SRow} (h : IntKeyed rows) (p) :
    HasKeys (sortedRows S [true] rows p) ((windowOrder S [true] rows p).map (keyAt rows)) := by
  unfold HasKeys windowOrder
  rw [List.map_map, List.map_map]
  apply List.map_congr_left
  intro q hq
  obtain ⟨i, hi⟩ := List.getElem?_of_mem hq
  obtain ⟨r, h1, h2, _⟩ := sortedRows_get hi
  simp only [h2, row_lastKey h (List.mem_of_getElem? h1), Function.comp, keyAt, h1, Option.map_some, Option.getD_some]

/-- The start bounds that the code gets right. -/
inductive GoodStart (rows : List SRow) : Boundary → Prop where
  | unbounded : GoodStart rows .unboundedPreceding
  | preceding {n} : 0 ≤ n → n < 9007199254740992 → (∀ r ∈ rows, -9007199254740992 < keyOf r - n) → GoodStart rows (.preceding n)

/-- The end bounds that the code gets right. -/
inductive GoodEnd (rows : List SRow) : Boundary → Prop where
  | unbounded : GoodEnd rows .unboundedFollowing
  | current : GoodEnd rows .current
  | following {n} : 0 ≤ n → n < 9007199254740992 → (∀ r ∈ rows, keyOf r + n < 9007199254740992) → GoodEnd rows (.following n)

/-- C43, part: a start of UNBOUNDED PRECEDING or n PRECEDING and an end of CURRENT ROW, n
FOLLOWING or UNBOUNDED FOLLOWING; one ascending non-NULL INT64 key, everything within
2^53.  Peers of the current row are included. -/
theorem C43_partial (S : Sorter) (text : Val → Res (List Char)) (rows : List SRow) (hg : GoodParts text rows)
    (hk : IntKeyed rows) (p : List (Option Scalar)) :
    ∃ W, WindowOrder [true] rows p W ∧
      ∀ (b e : Boundary), GoodStart rows b → GoodEnd rows e → ∀ (f : Fn) (j : Nat), j ∈ W →
        winAgg f S text .range b e (input [true] rows) ((j : Int) + 1) =
          run f ((rangeFrame rows W b e (keyAt rows j)).map (valueAt rows)) := by
  refine ⟨windowOrder S [true] rows p, windowOrder_ok S hk.good p, ?_⟩
  intro b e hb he f j hj
  obtain ⟨r, hr, rfl⟩ := mem_windowOrder.mp hj
  have hrm := List.mem_of_getElem? hr
  have hkey : keyAt rows j = keyOf r := by simp [keyAt, hr]
  have hK := hasKeys S hk r.parts
  have hS := sorted_le S hk r.parts
  have hlk := row_lastKey (asc := true) hk hrm
  have hbd := (hk r hrm).2
  have hin : ∀ x ∈ (windowOrder S [true] rows r.parts).map (keyAt rows), -9007199254740992 < x ∧ x < 9007199254740992 := by
    intro x hx
    simp only [List.mem_map] at hx
    obtain ⟨m, hm, rfl⟩ := hx
    obtain ⟨s, hs, _⟩ := mem_windowOrder.mp hm
    simpa [keyAt, hs] using (hk s (List.mem_of_getElem? hs)).2
  have hmem : keyOf r ∈ (windowOrder S [true] rows r.parts).map (keyAt rows) := by
    rw [← hkey]; exact List.mem_map_of_mem hj
  have hlen : (sortedRows S [true] rows r.parts).length = ((windowOrder S [true] rows r.parts).map (keyAt rows)).length := by
    simp [windowOrder]
  generalize hks : (windowOrder S [true] rows r.parts).map (keyAt rows) = ks at *
  obtain ⟨lo, hlo, hlk', hloOk⟩ : ∃ lo : Int, boundaryIndex .range (sortedRows S [true] rows r.parts) j (r.row [true]) b
      = .ok (ks.countP fun k => decide (k < lo) : Nat) ∧ lo ≤ keyOf r ∧ ∀ x ∈ ks, (lowerOk (keyOf r) x b ↔ lo ≤ x) := by
    cases hb with
    | unbounded =>
      refine ⟨-9007199254740992, ?_, by omega, fun x hx => ?_⟩
      · rw [List.countP_eq_zero.mpr (by intro x hx; have := hin x hx; simp; omega)]; rfl
      · have := hin x hx; simp [lowerOk]; omega
    | @preceding n h0 h1 h2 =>
      refine ⟨keyOf r - n, ?_, by omega, fun x hx => by simp [lowerOk]⟩
      have h3 := h2 r hrm
      have hnot : ks.all (fun k => decide (k < keyOf r - n)) = false := by
        rw [List.all_eq_false]
        exact ⟨keyOf r, hmem, by simp; omega⟩
      simp only [boundaryIndex, rangeIndex, hlk, addKey]
      rw [f64_exact (n := -n) (by omega) (by omega), f64_exact (n := keyOf r + -n) (by omega) (by omega), Res.bind'_ok,
        show keyOf r + -n = keyOf r - n by omega, lookupMin_eq _ _ _ hK hS, hnot]
      simp
  obtain ⟨hi, hhi, hhk, hhiOk⟩ : ∃ hi : Int, boundaryIndex .range (sortedRows S [true] rows r.parts) j (r.row [true]) e
      = .ok ((ks.countP fun k => decide (k ≤ hi) : Nat) - 1) ∧ keyOf r ≤ hi ∧ ∀ x ∈ ks, (upperOk (keyOf r) x e ↔ x ≤ hi) := by
    cases he with
    | unbounded =>
      refine ⟨9007199254740992, ?_, by omega, fun x hx => ?_⟩
      · rw [List.countP_eq_length.mpr (by intro x hx; have := hin x hx; simp; omega)]
        simp only [boundaryIndex, rangeIndex, hlen]
      · have := hin x hx; simp [upperOk]; omega
    | current =>
      refine ⟨keyOf r, ?_, by omega, fun x hx => by simp [upperOk]⟩
      have hnz : ks.countP (fun k => decide (k ≤ keyOf r)) ≠ 0 := by
        rw [ne_eq, List.countP_eq_zero]; intro h; have := h _ hmem; simp at this
      simp only [boundaryIndex, rangeIndex, hlk]
      rw [lookupMax_eq _ _ _ hK hS, if_neg hnz]
      simp
    | @following n h0 h1 h2 =>
      refine ⟨keyOf r + n, ?_, by omega, fun x hx => by simp [upperOk]⟩
      have h3 := h2 r hrm
      have hnz : ks.countP (fun k => decide (k ≤ keyOf r + n)) ≠ 0 := by
        rw [ne_eq, List.countP_eq_zero]; intro h; have := h _ hmem; simp at this; omega
      simp only [boundaryIndex, rangeIndex, hlk, addKey]
      rw [f64_exact (n := n) (by omega) (by omega), f64_exact (n := keyOf r + n) (by omega) (by omega), Res.bind'_ok,
        lookupMax_eq _ _ _ hK hS, if_neg hnz]
      simp
  have hcc : (ks.countP fun k => decide (k < lo)) ≤ ks.countP (fun k => decide (k ≤ hi)) := by
    apply List.countP_mono_left
    intro x _ h; simp at h ⊢; omega
  unfold winAgg
  rw [frame_slice hg hr hlo hhi (by intro _ _; omega), Res.bind'_ok, hkey]
  congr 2
  unfold rangeFrame
  have hf := filter_sorted (keyAt rows) (windowOrder S [true] rows r.parts) lo hi (by omega) (by rw [hks]; exact hS)
  rw [hks] at hf
  have e1 : ((ks.countP fun k => decide (k < lo) : Nat) : Int).toNat = ks.countP fun k => decide (k < lo) := by simp
  have e2 : (((ks.countP (fun k => decide (k ≤ hi)) : Nat) : Int) - 1 + 1 - max ((ks.countP fun k => decide (k < lo) : Nat) : Int) 0).toNat
      = ks.countP (fun k => decide (k ≤ hi)) - ks.countP (fun k => decide (k < lo)) := by omega
  rw [e1, e2, ← hf]
  apply List.filter_congr
  intro m hm
  have hx : keyAt rows m ∈ ks := by rw [← hks]; exact List.mem_map_of_mem hm
  rw [decide_eq_decide, hloOk _ hx, hhiOk _ hx]

/-- RANGE BETWEEN 1 PRECEDING AND CURRENT ROW over keys 1, 2, 2, 4: the rows with key 2 see
both of them and the row with key 1. -/
example : rangeFrame [⟨[], [some (.int 2)], .null⟩, ⟨[], [some (.int 1)], .null⟩, ⟨[], [some (.int 4)], .null⟩,
    ⟨[], [some (.int 2)], .null⟩] [1, 0, 3, 2] (.preceding 1) .current 2 = [1, 0, 3] := by decide

/-- RANGE BETWEEN CURRENT ROW AND UNBOUNDED FOLLOWING over two peers: each should see
both, the code shows each only the last one. -/
theorem C43_full_false (S : Sorter) (text : Val → Res (List Char)) : ¬ C43_full S text := by
  intro h
  let rows : List SRow := [⟨[], [some (.int 1)], .int 1⟩, ⟨[], [some (.int 1)], .int 1⟩]
  have hg : GoodParts text rows := .inl (by simp [rows])
  have hk : IntKeyed rows := by intro r hr; simp [rows] at hr; subst hr; simp [keyOf]
  obtain ⟨W, hW, h⟩ := h rows hg hk []
  have hmem : members rows [] = [0, 1] := by rfl
  have hj : 0 ∈ W := by rw [hW.perm.mem_iff, hmem]; simp
  have h1 := h .current .unboundedFollowing ⟨by simp, by simp⟩ .count 0 hj
  have hkeys : ∀ m ∈ W, keyAt rows m = 1 ∧ valueAt rows m = .int 1 := by
    intro m hm
    rw [hW.perm.mem_iff, hmem] at hm
    simp at hm
    rcases hm with rfl | rfl <;> exact ⟨rfl, rfl⟩
  have hf : rangeFrame rows W .current .unboundedFollowing (keyAt rows 0) = W := by
    unfold rangeFrame
    rw [List.filter_eq_self]
    intro m hm
    rw [(hkeys m hm).1, decide_eq_true_eq]
    exact ⟨by show keyAt rows 0 ≤ 1; decide, trivial⟩
  have hlen : W.length = 2 := by rw [hW.perm.length_eq, hmem]; rfl
  have hval : W.map (valueAt rows) = [.int 1, .int 1] := by
    match W, hlen, hkeys with
    | [a, b], _, hkeys => simp [(hkeys a (by simp)).2, (hkeys b (by simp)).2]
  rw [hf, hval] at h1
  -- the code
  have hS := sorted_le S hk []
  have hK := hasKeys S hk []
  have hlen2 : (windowOrder S [true] rows []).length = 2 := by rw [(windowOrder_perm S [true] rows []).length_eq, hmem]; rfl
  have hks : (windowOrder S [true] rows []).map (keyAt rows) = [1, 1] := by
    have : ∀ m ∈ windowOrder S [true] rows [], keyAt rows m = 1 := by
      intro m hm
      rw [(windowOrder_perm S [true] rows []).mem_iff, hmem] at hm
      simp at hm
      rcases hm with rfl | rfl <;> rfl
    match windowOrder S [true] rows [], hlen2, this with
    | [a, b], _, h => simp [h a (by simp), h b (by simp)]
  have hvals : (windowOrder S [true] rows []).map (valueAt rows) = [.int 1, .int 1] := by
    have : ∀ m ∈ windowOrder S [true] rows [], valueAt rows m = .int 1 := by
      intro m hm
      rw [(windowOrder_perm S [true] rows []).mem_iff, hmem] at hm
      simp at hm
      rcases hm with rfl | rfl <;> rfl
    match windowOrder S [true] rows [], hlen2, this with
    | [a, b], _, h => simp [h a (by simp), h b (by simp)]
  rw [hks] at hK hS
  have hsl : (sortedRows S [true] rows []).length = 2 := by simpa [windowOrder] using hlen2
  have hb : boundaryIndex .range (sortedRows S [true] rows []) 0 (SRow.row [true] ⟨[], [some (.int 1)], .int 1⟩) .current = .ok 1 := by
    show lookupMax (.int (f64 1)) 0 (-1) (sortedRows S [true] rows []) = .ok 1
    rw [show f64 1 = 1 from f64_exact (by omega) (by omega), lookupMax_eq _ _ _ hK hS]
    rfl
  have he : boundaryIndex .range (sortedRows S [true] rows []) 0 (SRow.row [true] ⟨[], [some (.int 1)], .int 1⟩) .unboundedFollowing
      = .ok 1 := by
    show Res.ok ((sortedRows S [true] rows []).length - 1 : Int) = .ok 1
    rw [hsl]; rfl
  have h2 := frame_slice (S := S) (flags := [true]) hg (cur := 0) (r := ⟨[], [some (.int 1)], .int 1⟩) rfl hb he (by omega)
  unfold winAgg at h1
  rw [h2, Res.bind'_ok, List.map_take, List.map_drop, hvals] at h1
  have h3 : run .count [.int 1] = run .count [.int 1, .int 1] := h1
  have h4 : (Res.ok (Val.int 1) : Res Val) = .ok (.int 2) := h3
  injection h4 with h4; injection h4 with h4
  omega

end Verif.Window
