import Verif.Props.WindowRange

/-! # C43: exactly when a RANGE frame is right -/

namespace Verif.Window

open Go Verif.Val Verif.Sql Verif.Aggregate

/-- The situation of a current row in its partition: the sorted keys. -/
structure Here (S : Sorter) (rows : List SRow) (j : Nat) (r : SRow) (ks : List Int) : Prop where
  at_ : rows[j]? = some r
  key : keyAt rows j = keyOf r
  keys : (windowOrder S [true] rows r.parts).map (keyAt rows) = ks
  has : HasKeys (sortedRows S [true] rows r.parts) ks
  sorted : ks.Pairwise (· ≤ ·)
  last : lastKey (r.row [true]) = some (.int (keyOf r))
  bound : -9007199254740992 < keyOf r ∧ keyOf r < 9007199254740992
  within : ∀ x ∈ ks, -9007199254740992 < x ∧ x < 9007199254740992
  mem : keyOf r ∈ ks
  len : (sortedRows S [true] rows r.parts).length = ks.length

theorem here (S : Sorter) {rows : List SRow} (hk : IntKeyed rows) {p} {j : Nat} (hj : j ∈ windowOrder S [true] rows p) :
    ∃ r ks, r.parts = p ∧ Here S rows j r ks := by
  obtain ⟨r, hr, rfl⟩ := mem_windowOrder.mp hj
  have hrm := List.mem_of_getElem? hr
  have hkey : keyAt rows j = keyOf r := by simp [keyAt, hr]
  refine ⟨r, _, rfl, hr, hkey, rfl, hasKeys S hk r.parts, sorted_le S hk r.parts, row_lastKey (asc := true) hk hrm, (hk r hrm).2, ?_, ?_, by simp [windowOrder]⟩
  · intro x hx
    simp only [List.mem_map] at hx
    obtain ⟨m, hm, rfl⟩ := hx
    obtain ⟨s, hs, _⟩ := mem_windowOrder.mp hm
    simpa [keyAt, hs] using (hk s (List.mem_of_getElem? hs)).2
  · rw [← hkey]; exact List.mem_map_of_mem hj

theorem start_good {S : Sorter} {rows : List SRow} {j : Nat} {r : SRow} {ks : List Int} (h : Here S rows j r ks) {b : Boundary}
    (hb : GoodStart rows b) :
    ∃ lo : Int, boundaryIndex .range (sortedRows S [true] rows r.parts) j (r.row [true]) b
      = .ok (ks.countP fun k => decide (k < lo) : Nat) ∧ lo ≤ keyOf r ∧ ∀ x, (-9007199254740992 < x ∧ x < 9007199254740992) → (lowerOk (keyOf r) x b ↔ lo ≤ x) := by
  have hbd := h.bound
  cases hb with
  | unbounded =>
    refine ⟨-9007199254740992, ?_, by omega, fun x hx => ?_⟩
    · rw [List.countP_eq_zero.mpr (by intro x hx; have := h.within x hx; simp; omega)]; rfl
    · simp [lowerOk]; omega
  | @preceding n h0 h1 h2 =>
    refine ⟨keyOf r - n, ?_, by omega, fun x hx => by simp [lowerOk]⟩
    have h3 := h2 r (List.mem_of_getElem? h.at_)
    have hnot : ks.all (fun k => decide (k < keyOf r - n)) = false := by
      rw [List.all_eq_false]
      exact ⟨keyOf r, h.mem, by simp; omega⟩
    simp only [boundaryIndex, rangeIndex, h.last, addKey]
    rw [f64_exact (n := -n) (by omega) (by omega), f64_exact (n := keyOf r + -n) (by omega) (by omega), Res.bind'_ok,
      show keyOf r + -n = keyOf r - n by omega, lookupMin_eq _ _ _ h.has h.sorted, hnot]
    simp

theorem end_good {S : Sorter} {rows : List SRow} {j : Nat} {r : SRow} {ks : List Int} (h : Here S rows j r ks) {e : Boundary}
    (he : GoodEnd rows e) :
    ∃ hi : Int, boundaryIndex .range (sortedRows S [true] rows r.parts) j (r.row [true]) e
      = .ok ((ks.countP fun k => decide (k ≤ hi) : Nat) - 1) ∧ keyOf r ≤ hi ∧ ∀ x, (-9007199254740992 < x ∧ x < 9007199254740992) → (upperOk (keyOf r) x e ↔ x ≤ hi) := by
  have hbd := h.bound
  cases he with
  | unbounded =>
    refine ⟨9007199254740992, ?_, by omega, fun x hx => ?_⟩
    · rw [List.countP_eq_length.mpr (by intro x hx; have := h.within x hx; simp; omega)]
      simp only [boundaryIndex, rangeIndex, h.len]
    · simp [upperOk]; omega
  | current =>
    refine ⟨keyOf r, ?_, by omega, fun x hx => by simp [upperOk]⟩
    have hnz : ks.countP (fun k => decide (k ≤ keyOf r)) ≠ 0 := by
      rw [ne_eq, List.countP_eq_zero]; intro h'; have := h' _ h.mem; simp at this
    simp only [boundaryIndex, rangeIndex, h.last]
    rw [lookupMax_eq _ _ _ h.has h.sorted, if_neg hnz]
    simp
  | @following n h0 h1 h2 =>
    refine ⟨keyOf r + n, ?_, by omega, fun x hx => by simp [upperOk]⟩
    have h3 := h2 r (List.mem_of_getElem? h.at_)
    have hnz : ks.countP (fun k => decide (k ≤ keyOf r + n)) ≠ 0 := by
      rw [ne_eq, List.countP_eq_zero]; intro h'; have := h' _ h.mem; simp at this; omega
    simp only [boundaryIndex, rangeIndex, h.last, addKey]
    rw [f64_exact (n := n) (by omega) (by omega), f64_exact (n := keyOf r + n) (by omega) (by omega), Res.bind'_ok,
      lookupMax_eq _ _ _ h.has h.sorted, if_neg hnz]
    simp

theorem count_split (ks : List Int) (t : Int) :
    ks.countP (fun k => decide (k ≤ t)) = ks.countP (fun k => decide (k < t)) + ks.countP (fun k => decide (k = t)) := by
  induction ks with
  | nil => rfl
  | cons k ks ih =>
    simp only [List.countP_cons, ih]
    rcases Int.lt_trichotomy k t with h | h | h
    · simp [h, show k ≤ t by omega, show k ≠ t by omega]; omega
    · subst h; simp; omega
    · simp [show ¬ k ≤ t by omega, show ¬ k < t by omega, show k ≠ t by omega]

/-- The right frame is a stretch of the window order. -/
theorem rangeFrame_eq {S : Sorter} {rows : List SRow} {j : Nat} {r : SRow} {ks : List Int} (h : Here S rows j r ks) {b e : Boundary} {lo hi : Int}
    (hlh : lo ≤ hi) (hb : ∀ x ∈ ks, (lowerOk (keyOf r) x b ↔ lo ≤ x)) (he : ∀ x ∈ ks, (upperOk (keyOf r) x e ↔ x ≤ hi)) :
    rangeFrame rows (windowOrder S [true] rows r.parts) b e (keyAt rows j) =
      ((windowOrder S [true] rows r.parts).drop (ks.countP fun k => decide (k < lo))).take
        (ks.countP (fun k => decide (k ≤ hi)) - ks.countP fun k => decide (k < lo)) := by
  have hf := filter_sorted (keyAt rows) (windowOrder S [true] rows r.parts) lo hi hlh (by rw [h.keys]; exact h.sorted)
  rw [h.keys] at hf
  rw [← hf, h.key]
  unfold rangeFrame
  apply List.filter_congr
  intro m hm
  have hx : keyAt rows m ∈ ks := by rw [← h.keys]; exact List.mem_map_of_mem hm
  rw [decide_eq_decide, hb _ hx, he _ hx]

theorem countP_order {S : Sorter} {rows : List SRow} {j : Nat} {r : SRow} {ks : List Int} (h : Here S rows j r ks) (t : Int) :
    (windowOrder S [true] rows r.parts).countP (fun m => decide (keyAt rows m = t)) = ks.countP (fun k => decide (k = t)) := by
  rw [← h.keys, List.countP_map]
  rfl

/-- C43, exact for a start of CURRENT ROW (`n = 0`) or n FOLLOWING: the frame is right exactly if one row, no more and no less, of the
partition has the key the frame starts at. -/
theorem C43_start_iff (S : Sorter) (text : Val → Res (List Char)) (rows : List SRow) (hg : GoodParts text rows)
    (hk : IntKeyed rows) (p : List (Option Scalar)) :
    ∃ W, WindowOrder [true] rows p W ∧
      ∀ (b e : Boundary) (n : Int), (b = .current ∧ n = 0 ∨ b = .following n) → 0 ≤ n → n < 9007199254740992 → GoodEnd rows e →
        ∀ (j : Nat), j ∈ W → keyAt rows j + n < 9007199254740992 → upperOk (keyAt rows j) (keyAt rows j + n) e →
        (frameValues S text .range b e (input [true] rows) ((j : Int) + 1) =
            .ok ((rangeFrame rows W b e (keyAt rows j)).map (valueAt rows)) ↔
          W.countP (fun m => decide (keyAt rows m = keyAt rows j + n)) = 1) := by
  refine ⟨windowOrder S [true] rows p, windowOrder_ok S hk.good p, ?_⟩
  intro b e n hb h0 h1 he j hj hlt hup
  obtain ⟨r, ks, rfl, h⟩ := here S hk hj
  have hbd := h.bound
  rw [h.key] at hlt hup
  obtain ⟨hi, hhi, hhk, hhiOk⟩ := end_good h he
  have hle : keyOf r + n ≤ hi := (hhiOk _ (by omega)).1 hup
  have hlow : ∀ x ∈ ks, (lowerOk (keyOf r) x b ↔ keyOf r + n ≤ x) := by
    intro x _
    rcases hb with ⟨rfl, rfl⟩ | rfl <;> simp [lowerOk]
  have hnz : ks.countP (fun k => decide (k ≤ keyOf r + n)) ≠ 0 := by
    rw [ne_eq, List.countP_eq_zero]; intro h'; have := h' _ h.mem; simp at this; omega
  have hs : boundaryIndex .range (sortedRows S [true] rows r.parts) j (r.row [true]) b
      = .ok ((ks.countP fun k => decide (k ≤ keyOf r + n) : Nat) - 1) := by
    rcases hb with ⟨rfl, rfl⟩ | rfl
    · rw [Int.add_zero] at hnz ⊢
      simp only [boundaryIndex, rangeIndex, h.last]
      rw [lookupMax_eq _ _ _ h.has h.sorted, if_neg hnz]
      simp
    · simp only [boundaryIndex, rangeIndex, h.last, addKey]
      rw [f64_exact (n := n) (by omega) (by omega), f64_exact (n := keyOf r + n) (by omega) (by omega), Res.bind'_ok,
        lookupMax_eq _ _ _ h.has h.sorted, if_neg hnz]
      simp
  have hcc : (ks.countP fun k => decide (k ≤ keyOf r + n)) ≤ ks.countP (fun k => decide (k ≤ hi)) := by
    apply List.countP_mono_left
    intro x _ h; simp at h ⊢; omega
  have hsplit := count_split ks (keyOf r + n)
  have hlen := h.len
  have hwl : (windowOrder S [true] rows r.parts).length = ks.length := by rw [← h.keys, List.length_map]
  have hcl : ks.countP (fun k => decide (k ≤ hi)) ≤ ks.length := List.countP_le_length
  rw [frame_slice hg h.at_ hs hhi (by intro _ _; omega), rangeFrame_eq h hle hlow (fun x hx => hhiOk x (h.within x hx)), h.key, countP_order h]
  generalize ks.countP (fun k => decide (k ≤ keyOf r + n)) = u at *
  generalize ks.countP (fun k => decide (k < keyOf r + n)) = l at *
  generalize ks.countP (fun k => decide (k = keyOf r + n)) = c at *
  generalize ks.countP (fun k => decide (k ≤ hi)) = q at *
  have e1 : ((u : Int) - 1).toNat = u - 1 := by omega
  have e2 : ((q : Int) - 1 + 1 - max ((u : Int) - 1) 0).toNat = q - (u - 1) := by omega
  rw [e1, e2]
  constructor
  · intro heq
    have := congrArg (fun x => match x with | Res.ok l => l.length | _ => 0) heq
    simp only [List.length_map, List.length_take, List.length_drop] at this
    omega
  · rintro rfl
    rw [show u - 1 = l by omega]

/-- C43, exact for an end of n PRECEDING: the frame is right exactly if one row, no more and no less, of the partition has the key the
frame ends at. -/
theorem C43_end_iff (S : Sorter) (text : Val → Res (List Char)) (rows : List SRow) (hg : GoodParts text rows)
    (hk : IntKeyed rows) (p : List (Option Scalar)) :
    ∃ W, WindowOrder [true] rows p W ∧
      ∀ (b : Boundary) (n : Int), 0 ≤ n → n < 9007199254740992 → GoodStart rows b →
        ∀ (j : Nat), j ∈ W → -9007199254740992 < keyAt rows j - n → lowerOk (keyAt rows j) (keyAt rows j - n) b →
        (frameValues S text .range b (.preceding n) (input [true] rows) ((j : Int) + 1) =
            .ok ((rangeFrame rows W b (.preceding n) (keyAt rows j)).map (valueAt rows)) ↔
          W.countP (fun m => decide (keyAt rows m = keyAt rows j - n)) = 1) := by
  refine ⟨windowOrder S [true] rows p, windowOrder_ok S hk.good p, ?_⟩
  intro b n h0 h1 hb j hj hlt hup
  obtain ⟨r, ks, rfl, h⟩ := here S hk hj
  have hbd := h.bound
  rw [h.key] at hlt hup
  obtain ⟨lo, hlo, hlk, hloOk⟩ := start_good h hb
  have hle : lo ≤ keyOf r - n := (hloOk _ (by omega)).1 hup
  have hupper : ∀ x ∈ ks, (upperOk (keyOf r) x (.preceding n) ↔ x ≤ keyOf r - n) := by
    intro x _
    simp [upperOk]
  have hnot : ks.all (fun k => decide (k < keyOf r - n)) = false := by
    rw [List.all_eq_false]
    exact ⟨keyOf r, h.mem, by simp; omega⟩
  have he : boundaryIndex .range (sortedRows S [true] rows r.parts) j (r.row [true]) (.preceding n)
      = .ok (ks.countP fun k => decide (k < keyOf r - n) : Nat) := by
    simp only [boundaryIndex, rangeIndex, h.last, addKey]
    rw [f64_exact (n := -n) (by omega) (by omega), f64_exact (n := keyOf r + -n) (by omega) (by omega), Res.bind'_ok,
      show keyOf r + -n = keyOf r - n by omega, lookupMin_eq _ _ _ h.has h.sorted, hnot]
    simp
  have hcc : (ks.countP fun k => decide (k < lo)) ≤ ks.countP (fun k => decide (k < keyOf r - n)) := by
    apply List.countP_mono_left
    intro x _ h; simp at h ⊢; omega
  have hsplit := count_split ks (keyOf r - n)
  have hlen := h.len
  have hwl : (windowOrder S [true] rows r.parts).length = ks.length := by rw [← h.keys, List.length_map]
  have hcl : ks.countP (fun k => decide (k ≤ keyOf r - n)) ≤ ks.length := List.countP_le_length
  have hlt' : ks.countP (fun k => decide (k < keyOf r - n)) < ks.length := by
    have h1 : ks.countP (fun k => decide (k < keyOf r - n)) ≤ ks.length := List.countP_le_length
    rcases Nat.lt_or_eq_of_le h1 with h2 | h2
    · exact h2
    · have := List.countP_eq_length.mp h2 _ h.mem
      simp at this; omega
  rw [frame_slice hg h.at_ hlo he (by intro _ _; omega), rangeFrame_eq h hle (fun x hx => hloOk x (h.within x hx)) hupper, h.key, countP_order h]
  generalize ks.countP (fun k => decide (k ≤ keyOf r - n)) = u at *
  generalize ks.countP (fun k => decide (k < keyOf r - n)) = l at *
  generalize ks.countP (fun k => decide (k = keyOf r - n)) = c at *
  generalize ks.countP (fun k => decide (k < lo)) = q at *
  have e1 : ((q : Int)).toNat = q := by omega
  have e2 : ((l : Int) + 1 - max (q : Int) 0).toNat = l + 1 - q := by omega
  rw [e1, e2]
  constructor
  · intro heq
    have := congrArg (fun x => match x with | Res.ok l => l.length | _ => 0) heq
    simp only [List.length_map, List.length_take, List.length_drop] at this
    omega
  · rintro rfl
    rw [hsplit]

/-! The hypotheses are met, and both sides of the equivalences occur: of the keys 2, 1, 4, 2 the key 1 is held by one row, the key 2 by two. -/
example : (let rows : List SRow := [⟨[], [some (.int 2)], .null⟩, ⟨[], [some (.int 1)], .null⟩, ⟨[], [some (.int 4)], .null⟩, ⟨[], [some (.int 2)], .null⟩]
    [1, 0, 3, 2].countP (fun m => decide (keyAt rows m = keyAt rows 1 + 0)) = 1 ∧
    [1, 0, 3, 2].countP (fun m => decide (keyAt rows m = keyAt rows 0 + 0)) = 2 ∧
    [1, 0, 3, 2].countP (fun m => decide (keyAt rows m = keyAt rows 2 - 2)) = 2 ∧
    upperOk (keyAt rows 1) (keyAt rows 1 + 0) .current ∧ lowerOk (keyAt rows 2) (keyAt rows 2 - 2) (.preceding 3)) := by
  refine ⟨by decide, by decide, by decide, by decide, by decide⟩

end Verif.Window
