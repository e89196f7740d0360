import Verif.Props.WindowRank
import Verif.Lemmas.Params

/-! # C40: exactly when RANK and DENSE_RANK are right, for one INT64 key -/

namespace Verif.Window

open Go Verif.Val Verif.Sql Verif.Aggregate

theorem klt_of_not {asc : Bool} {a b c : Int} (h : klt asc a b) (h' : ¬ klt asc c b) : klt asc a c := by
  unfold klt at *
  cases asc <;> simp_all <;> omega

theorem klt_of_not' {asc : Bool} {a b c : Int} (h : klt asc a b) (h' : ¬ klt asc a c) : klt asc c b := by
  unfold klt at *
  cases asc <;> simp_all <;> omega

theorem getLast_append_cons {α : Type} (A : List α) (x : α) (t : List α) : (A ++ x :: t).getLast? = some (t.getLast?.getD x) := by
  rw [List.getLast?_append, List.getLast?_cons]
  rfl

/-- RANK: 0 up to the start value of the loop, right beyond. -/
theorem rankLoop_exact (asc : Bool) (k : Int) : ∀ (t A : List Int), (A ++ t).getLast? = some k → (∀ x ∈ A, ¬ klt asc (rankInit asc) x) →
    (A ++ t).Pairwise (fun a b => ¬ klt asc b a) →
    ∃ same mx, rankLoop asc (0, 1 + (A.length : Int), rankInit asc) (t.map .int) =
      .ok ((if klt asc (rankInit asc) k then 1 + (((A ++ t).countP fun x => decide (klt asc x k) : Nat) : Int) else 0), same, mx)
  | [], A, hl, hA, hs => by
    rw [List.append_nil] at hl
    rw [if_neg (hA k (List.mem_of_getLast? hl))]
    exact ⟨_, _, rfl⟩
  | x :: t, A, hl, hA, hs => by
    simp only [List.map_cons, rankLoop, toInt64, Res.bind'_ok]
    have hcond : (if asc then rankInit asc < x else rankInit asc > x) = klt asc (rankInit asc) x := by unfold klt; cases asc <;> simp
    simp only [hcond]
    have hlast : t.getLast?.getD x = k := by
      rw [getLast_append_cons] at hl
      exact Option.some.inj hl
    by_cases hx : klt asc (rankInit asc) x
    · rw [if_pos hx]
      have hAx : ∀ a ∈ A, klt asc a x := fun a ha => klt_of_not' hx (hA a ha)
      have hs' := hs
      rw [List.pairwise_append, List.pairwise_cons] at hs'
      have hcount : ((A ++ [x]).countP fun y => decide (klt asc y x)) = A.length := by
        rw [List.countP_append, List.countP_eq_length.mpr (by simpa using hAx)]
        simp [klt_irrefl]
      obtain ⟨s', h⟩ := rankLoop_spec asc t (A ++ [x]) x (0 + (1 + (A.length : Int))) 1
        (by
          intro y hy
          rcases List.mem_append.mp hy with hy | hy
          · exact fun h => klt_irrefl asc y (klt_trans (hAx y hy) h)
          · simp at hy; subst hy; exact klt_irrefl _ _)
        (by simp)
        (by rw [hcount]; omega)
        (by
          rw [List.countP_append, List.countP_eq_zero.mpr]
          · simp
          · intro y hy
            simp only [decide_eq_true_eq]
            rintro rfl
            exact klt_irrefl _ _ (hAx y hy))
        hs'.2.1.2 hs'.2.1.1
      refine ⟨s', k, ?_⟩
      rw [h, hlast]
      have hk : klt asc (rankInit asc) k := by
        cases t with
        | nil => simp at hlast; subst hlast; exact hx
        | cons y t =>
          refine klt_of_not hx (hs'.2.1.1 k ?_)
          rw [List.getLast?_cons, Option.getD_some] at hlast
          have : (y :: t).getLast? = some k := by rw [List.getLast?_cons, hlast]
          exact List.mem_of_getLast? this
      rw [if_pos hk]
      simp [List.append_assoc]
    · rw [if_neg hx]
      obtain ⟨s', mx, h⟩ := rankLoop_exact asc k t (A ++ [x]) (by simpa using hl)
        (by
          intro y hy
          rcases List.mem_append.mp hy with hy | hy
          · exact hA y hy
          · simp at hy; subst hy; exact hx)
        (by simpa using hs)
      refine ⟨s', mx, ?_⟩
      have e : (1 : Int) + ((A ++ [x]).length : Int) = 1 + (A.length : Int) + 1 := by simp; omega
      rw [e] at h
      rw [h]
      simp [List.append_assoc]

/-- DENSE_RANK: 0 up to the start value of the loop; beyond, the keys up to it are not counted. -/
theorem denseLoop_exact (asc : Bool) (k : Int) : ∀ (t A : List Int), (A ++ t).getLast? = some k → (∀ x ∈ A, ¬ klt asc (rankInit asc) x) →
    (A ++ t).Pairwise (fun a b => ¬ klt asc b a) →
    ∃ (D : List Int) (mx : Int), D.Nodup ∧ (∀ x, x ∈ D ↔ x ∈ A ++ t ∧ klt asc (rankInit asc) x ∧ klt asc x k) ∧
      denseLoop asc (0, rankInit asc) (t.map .int) = .ok ((if klt asc (rankInit asc) k then 1 + (D.length : Int) else 0), mx)
  | [], A, hl, hA, hs => by
    rw [List.append_nil] at hl
    refine ⟨[], _, List.nodup_nil, ?_, by rw [if_neg (hA k (List.mem_of_getLast? hl))]; rfl⟩
    intro x
    simp only [List.not_mem_nil, List.append_nil, false_iff]
    rintro ⟨h1, h2, -⟩
    exact hA x h1 h2
  | x :: t, A, hl, hA, hs => by
    simp only [List.map_cons, denseLoop, toInt64, Res.bind'_ok]
    have hcond : (if asc then rankInit asc < x else rankInit asc > x) = klt asc (rankInit asc) x := by unfold klt; cases asc <;> simp
    simp only [hcond]
    have hlast : t.getLast?.getD x = k := by
      rw [getLast_append_cons] at hl
      exact Option.some.inj hl
    by_cases hx : klt asc (rankInit asc) x
    · rw [if_pos hx]
      have hs' := hs
      rw [List.pairwise_append, List.pairwise_cons] at hs'
      obtain ⟨D, h1, h2, h3⟩ := denseLoop_spec asc t [x] [] x (by simp [klt_irrefl]) (by simp) (by simp)
        (by intro y; simp only [List.not_mem_nil, List.mem_singleton, false_iff]; rintro ⟨rfl, h⟩; exact klt_irrefl _ _ h) hs'.2.1.2 hs'.2.1.1
      rw [hlast] at h2 h3
      have hge : ∀ y ∈ x :: t, klt asc (rankInit asc) y := by
        intro y hy
        rcases List.mem_cons.1 hy with rfl | hy
        · exact hx
        · exact klt_of_not hx (hs'.2.1.1 y hy)
      have hk : klt asc (rankInit asc) k := by
        refine hge k ?_
        rw [← hlast, ← Option.some_inj, ← List.getLast?_cons] at *
        exact List.mem_of_getLast? (List.getLast?_cons ..)
      refine ⟨D, k, h1, ?_, ?_⟩
      · intro y
        rw [h2]
        constructor
        · rintro ⟨hy, hb⟩
          have hy' : y ∈ x :: t := by simpa using hy
          exact ⟨List.mem_append_right _ hy', hge y hy', hb⟩
        · rintro ⟨hy, hp, hb⟩
          rcases List.mem_append.1 hy with hy | hy
          · exact absurd hp (hA y hy)
          · exact ⟨by simpa using hy, hb⟩
      · rw [if_pos hk]
        simpa using h3
    · rw [if_neg hx]
      obtain ⟨D, mx, h1, h2, h3⟩ := denseLoop_exact asc k t (A ++ [x]) (by simpa using hl)
        (by
          intro y hy
          rcases List.mem_append.mp hy with hy | hy
          · exact hA y hy
          · simp at hy; subst hy; exact hx)
        (by simpa using hs)
      exact ⟨D, mx, h1, by simpa using h2, h3⟩

/-- What RANK and DENSE_RANK fold over. -/
theorem rank_dense_run (S : Sorter) (text : Val → Res (List Char)) (asc : Bool) (rows : List SRow) (hg : GoodParts text rows)
    (hk : IntKeyed rows) (j : Nat) (r : SRow) (hj : rows[j]? = some r) :
    ∃ (ks t d : List Int), ks = (windowOrder S [asc] rows r.parts).map (keyAt rows) ∧ ks = t ++ d ∧
      t.getLast? = some (keyOf r) ∧ t.Pairwise (fun a b => ¬ klt asc b a) ∧ (∀ x ∈ d, ¬ klt asc x (keyOf r)) ∧
      rank S text (input [asc] rows) ((j : Int) + 1) =
        ((rankLoop asc (0, 1, rankInit asc) (t.map .int)).bind fun s => .ok (.int s.1)) ∧
      denseRank S text (input [asc] rows) ((j : Int) + 1) =
        ((denseLoop asc (0, rankInit asc) (t.map .int)).bind fun s => .ok (.int s.1)) := by
  have hmem : j ∈ windowOrder S [asc] rows r.parts := mem_windowOrder.mpr ⟨r, hj, rfl⟩
  obtain ⟨i, hi⟩ := List.getElem?_of_mem hmem
  have hpos := position_eq (S := S) (flags := [asc]) hg hj hi
  have hlt : i < (sortedRows S [asc] rows r.parts).length := by
    have := (List.getElem?_eq_some_iff.mp hi).1; simpa [windowOrder] using this
  have hasc := lastAsc_eq (S := S) hk r.parts (List.getElem?_eq_getElem hlt)
  have hsort := order_sorted S (asc := asc) hk r.parts
  generalize hks : (windowOrder S [asc] rows r.parts).map (keyAt rows) = ks at hsort
  have hik : ks[i]? = some (keyOf r) := by
    rw [← hks, List.getElem?_map, hi]; simp [keyAt, hj]
  have hmap : (windowOrder S [asc] rows r.parts).map (fun j => Val.int (keyAt rows j)) = ks.map .int := by
    rw [← hks, List.map_map]; rfl
  refine ⟨ks, ks.take (i + 1), ks.drop (i + 1), rfl, (List.take_append_drop _ _).symm, take_last ks i _ hik,
    hsort.sublist (List.take_sublist _ _), drop_not_before asc ks hsort i _ hik, ?_, ?_⟩
  · unfold rank
    rw [hpos]
    simp only [Res.bind'_ok]
    rw [lastKeys_eq hk, hasc]
    simp only [Res.bind'_ok, Int.toNat_natCast]
    rw [hmap, ← List.map_take]
  · unfold denseRank
    rw [hpos]
    simp only [Res.bind'_ok]
    rw [lastKeys_eq hk, hasc]
    simp only [Res.bind'_ok, Int.toNat_natCast]
    rw [hmap, ← List.map_take]

/-- A key the loops count. -/
theorem counted_iff {asc : Bool} {rows : List SRow} (hk : IntKeyed rows) {r : SRow} (hr : r ∈ rows) :
    klt asc (rankInit asc) (keyOf r) ↔ (asc = true → 0 < keyOf r) := by
  have := (hk r hr).2
  cases asc
  · simp [klt, rankInit]; omega
  · simp [klt, rankInit]

/-- C40, exact for RANK over one INT64 key within 2^53: in descending order every row gets its
rank, in ascending order exactly the rows with a positive key. -/
theorem C40_rank_iff (S : Sorter) (text : Val → Res (List Char)) (asc : Bool) (rows : List SRow) (hg : GoodParts text rows)
    (hk : IntKeyed rows) (j : Nat) (r : SRow) (hj : rows[j]? = some r) :
    RankSpec [asc] rows r (rank S text (input [asc] rows) ((j : Int) + 1)) ↔ (asc = true → 0 < keyOf r) := by
  have hrm := List.mem_of_getElem? hj
  obtain ⟨ks, t, d, hks, hsp, hl, hs, hd, e, -⟩ := rank_dense_run S text asc rows hg hk j r hj
  obtain ⟨same, mx, h⟩ := rankLoop_exact asc (keyOf r) t [] (by simpa using hl) (by simp) (by simpa using hs)
  simp only [List.length_nil, Int.natCast_zero, Int.add_zero, List.nil_append] at h
  rw [e, h, ← counted_iff hk hrm]
  simp only [Res.bind'_ok]
  by_cases hc : klt asc (rankInit asc) (keyOf r)
  · rw [if_pos hc]
    simp only [hc, iff_true]
    refine ⟨(windowOrder S [asc] rows r.parts).filter fun m => decide (klt asc (keyAt rows m) (keyOf r)), ?_, ?_, ?_⟩
    · exact (windowOrder_nodup S [asc] rows r.parts).filter _
    · intro m
      simp only [List.mem_filter, mem_windowOrder, decide_eq_true_eq]
      constructor
      · rintro ⟨⟨s, hs, hsp⟩, hlt⟩
        refine ⟨s, hs, hsp, ?_⟩
        rw [(hk s (List.mem_of_getElem? hs)).1, (hk r hrm).1, keysBefore_int]
        simpa [keyAt, hs] using hlt
      · rintro ⟨s, hs, hsp, hb⟩
        rw [(hk s (List.mem_of_getElem? hs)).1, (hk r hrm).1, keysBefore_int] at hb
        exact ⟨⟨s, hs, hsp⟩, by simpa [keyAt, hs] using hb⟩
    · have hc : ((windowOrder S [asc] rows r.parts).filter fun m => decide (klt asc (keyAt rows m) (keyOf r))).length
          = ks.countP (fun x => decide (klt asc x (keyOf r))) := by
        rw [hks, List.countP_map, List.countP_eq_length_filter]; rfl
      have hz : d.countP (fun x => decide (klt asc x (keyOf r))) = 0 :=
        List.countP_eq_zero.mpr (by intro x hx; simpa using hd x hx)
      rw [hc, hsp, List.countP_append, hz]
      simp
  · rw [if_neg hc]
    simp only [hc, iff_false]
    rintro ⟨b, -, -, hb⟩
    injection hb with hb
    injection hb with hb
    omega

/-- C40: in ascending order a row with a key of 0 or less gets the rank 0. -/
theorem C40_rank_zero (S : Sorter) (text : Val → Res (List Char)) (rows : List SRow) (hg : GoodParts text rows)
    (hk : IntKeyed rows) (j : Nat) (r : SRow) (hj : rows[j]? = some r) (h0 : keyOf r ≤ 0) :
    rank S text (input [true] rows) ((j : Int) + 1) = .ok (.int 0) := by
  obtain ⟨ks, t, d, hks, hsp, hl, hs, hd, e, -⟩ := rank_dense_run S text true rows hg hk j r hj
  obtain ⟨same, mx, h⟩ := rankLoop_exact true (keyOf r) t [] (by simpa using hl) (by simp) (by simpa using hs)
  simp only [List.length_nil, Int.natCast_zero, Int.add_zero, List.nil_append] at h
  rw [e, h, if_neg (by simp [klt, rankInit]; omega)]
  rfl

/-- C40, exact for DENSE_RANK over one INT64 key within 2^53: in descending order every row gets
its rank, in ascending order exactly the rows of the partitions whose keys are all positive. -/
theorem C40_dense_iff (S : Sorter) (text : Val → Res (List Char)) (asc : Bool) (rows : List SRow) (hg : GoodParts text rows)
    (hk : IntKeyed rows) (j : Nat) (r : SRow) (hj : rows[j]? = some r) :
    DenseSpec [asc] rows r (denseRank S text (input [asc] rows) ((j : Int) + 1)) ↔
      (asc = true → ∀ s ∈ rows, s.parts = r.parts → 0 < keyOf s) := by
  have hrm := List.mem_of_getElem? hj
  obtain ⟨ks, t, d, hks, hsp, hl, hs, hd, -, e⟩ := rank_dense_run S text asc rows hg hk j r hj
  obtain ⟨D, mx, h1, h2, h⟩ := denseLoop_exact asc (keyOf r) t [] (by simpa using hl) (by simp) (by simpa using hs)
  simp only [List.nil_append] at h2
  have hmemks : ∀ x, x ∈ ks ↔ ∃ s ∈ rows, s.parts = r.parts ∧ keyOf s = x := by
    intro x
    rw [hks, List.mem_map]
    constructor
    · rintro ⟨m, hm, rfl⟩
      obtain ⟨s, hs, hp⟩ := mem_windowOrder.mp hm
      exact ⟨s, List.mem_of_getElem? hs, hp, by simp [keyAt, hs]⟩
    · rintro ⟨s, hs, hp, rfl⟩
      obtain ⟨m, hm⟩ := List.getElem?_of_mem hs
      exact ⟨m, mem_windowOrder.mpr ⟨s, hm, hp⟩, by simp [keyAt, hm]⟩
  have hD : ∀ x, x ∈ D ↔ ∃ s ∈ rows, s.parts = r.parts ∧ keyOf s = x ∧ klt asc (rankInit asc) x ∧ klt asc x (keyOf r) := by
    intro x
    rw [h2]
    constructor
    · rintro ⟨hx, ha, hb⟩
      obtain ⟨s, h1, h2, h3⟩ := (hmemks x).1 (by rw [hsp]; exact List.mem_append_left _ hx)
      exact ⟨s, h1, h2, h3, ha, hb⟩
    · rintro ⟨s, hs, hp, hx, ha, hb⟩
      refine ⟨?_, ha, hb⟩
      have := (hmemks x).2 ⟨s, hs, hp, hx⟩
      rw [hsp, List.mem_append] at this
      exact this.resolve_right fun h => hd x h hb
  rw [e, h]
  simp only [Res.bind'_ok]
  have hinj : ∀ a b : Int, ([some (Scalar.int a)] : List (Option Scalar)) = [some (.int b)] → a = b := by
    intro a b h; simpa using h
  have hnd : (D.map fun x => [some (Scalar.int x)]).Nodup := by
    rw [List.Nodup, List.pairwise_map]
    exact h1.imp fun hne he => hne (hinj _ _ he)
  by_cases hc : klt asc (rankInit asc) (keyOf r)
  · rw [if_pos hc]
    constructor
    · rintro ⟨keys, hn, hm, ho⟩ rfl s hs hp
      injection ho with ho
      injection ho with ho
      have hlen : D.length = keys.length := by omega
      refine Classical.byContradiction fun hneg => ?_
      have hsr : klt true (keyOf s) (keyOf r) := by
        have h1 : (0 : Int) < keyOf r := by simpa [klt, rankInit] using hc
        simp only [klt, if_true]
        omega
      have hmem1 : ([some (Scalar.int (keyOf s))] : List (Option Scalar)) ∈ keys := by
        rw [hm]
        refine ⟨s, hs, hp, (hk s hs).1, ?_⟩
        rw [(hk r hrm).1, keysBefore_int]
        exact hsr
      have hnot : ([some (Scalar.int (keyOf s))] : List (Option Scalar)) ∉ D.map fun x => [some (Scalar.int x)] := by
        intro hin
        obtain ⟨x, hx, he⟩ := List.mem_map.1 hin
        rw [hinj _ _ he] at hx
        obtain ⟨-, -, -, -, h0, -⟩ := (hD _).1 hx
        exact hneg (by simpa [klt, rankInit] using h0)
      have hle := Params.length_le_of_nodup_subset (l := [some (Scalar.int (keyOf s))] :: D.map fun x => [some (Scalar.int x)]) (m := keys)
        (List.nodup_cons.2 ⟨hnot, hnd⟩) (by
          intro y hy
          rcases List.mem_cons.1 hy with rfl | hy
          · exact hmem1
          · obtain ⟨x, hx, rfl⟩ := List.mem_map.1 hy
            obtain ⟨s', hs', hp', hx', -, hb⟩ := (hD _).1 hx
            rw [hm]
            refine ⟨s', hs', hp', by rw [(hk s' hs').1, hx'], ?_⟩
            rw [(hk r hrm).1, keysBefore_int]
            exact hb)
      simp only [List.length_cons, List.length_map] at hle
      omega
    · intro hall
      refine ⟨D.map fun x => [some (Scalar.int x)], hnd, ?_, by simp⟩
      intro k
      rw [List.mem_map]
      constructor
      · rintro ⟨x, hx, rfl⟩
        obtain ⟨s', hs', hp', hx', -, hb⟩ := (hD _).1 hx
        refine ⟨s', hs', hp', by rw [(hk s' hs').1, hx'], ?_⟩
        rw [(hk r hrm).1, keysBefore_int]
        exact hb
      · rintro ⟨s, hs, hp, rfl, hb⟩
        rw [(hk s hs).1, (hk r hrm).1, keysBefore_int] at hb
        refine ⟨keyOf s, (hD _).2 ⟨s, hs, hp, rfl, ?_, hb⟩, (hk s hs).1.symm⟩
        exact (counted_iff hk hs).2 fun ha => hall ha s hs hp
  · rw [if_neg hc]
    constructor
    · rintro ⟨b, -, -, hb⟩
      injection hb with hb
      injection hb with hb
      omega
    · intro hall
      exact absurd ((counted_iff hk hrm).2 fun ha => hall ha r hrm rfl) hc

/-- A witness of the hypotheses: three rows in one partition, one of them with a negative key. -/
example : IntKeyed [⟨[], [some (.int 4)], .null⟩, ⟨[], [some (.int (-9))], .null⟩, ⟨[], [some (.int 4)], .null⟩] := by
  intro r hr; simp at hr; rcases hr with rfl | rfl | rfl <;> simp [keyOf]

end Verif.Window
