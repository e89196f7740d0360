import Verif.Props.Window

/-! # C40 and C43: RANK, DENSE_RANK and RANGE frames -/

namespace Verif.Window

open Go Verif.Val Verif.Sql Verif.Aggregate
open Verif.OrderBy (RowBefore Before)
open Verif.Logic (All2)

/-- RANK of the row `r`: one more than the number of rows of its partition before it. -/
def RankSpec (flags : List Bool) (rows : List SRow) (r : SRow) (out : Res Val) : Prop :=
  ∃ before : List Nat, before.Nodup ∧
    (∀ j, j ∈ before ↔ ∃ s, rows[j]? = some s ∧ s.parts = r.parts ∧ KeysBefore flags s.keys r.keys) ∧
    out = .ok (.int (1 + before.length))

/-- DENSE_RANK: one more than the number of different keys before it. -/
def DenseSpec (flags : List Bool) (rows : List SRow) (r : SRow) (out : Res Val) : Prop :=
  ∃ keys : List (List (Option Scalar)), keys.Nodup ∧
    (∀ k, k ∈ keys ↔ ∃ s ∈ rows, s.parts = r.parts ∧ s.keys = k ∧ KeysBefore flags k r.keys) ∧
    out = .ok (.int (1 + keys.length))

/-- C40 as stated. -/
def C40_full (S : Sorter) (text : Val → Res (List Char)) : Prop :=
  ∀ flags rows, flags ≠ [] → GoodParts text rows → GoodKeys flags rows → ∀ (j : Nat) (r : SRow), rows[j]? = some r →
    RankSpec flags rows r (rank S text (input flags rows) ((j : Int) + 1)) ∧
    DenseSpec flags rows r (denseRank S text (input flags rows) ((j : Int) + 1))

/-- The only row of a partition has rank 0 if its key is 0. -/
theorem C40_full_false (S : Sorter) (text : Val → Res (List Char)) : ¬ C40_full S text := by
  intro h
  let rows : List SRow := [⟨[], [some (.int 0)], .null⟩]
  have hg : GoodParts text rows := .inl (by simp [rows])
  have hk : GoodKeys [true] rows := ⟨by simp [rows], by simp [rows, WinSafe], fun r hr s hs => by
    simp [rows] at hr hs; subst hr hs; exact .cons trivial .nil⟩
  obtain ⟨⟨bs, _, _, h1⟩, _⟩ := h [true] rows (by simp) hg hk 0 _ rfl
  have hp := S.perm lessRow (memberRows [true] rows [])
  have hm : memberRows [true] rows [] = [(0, ⟨[], [⟨.int 0, true⟩], .null⟩)] := rfl
  rw [hm, List.perm_singleton] at hp
  have hs : sortedRows S [true] rows [] = [(0, ⟨[], [⟨.int 0, true⟩], .null⟩)] := by unfold sortedRows; rw [hm]; exact hp
  have hi : (windowOrder S [true] rows [])[0]? = some 0 := by unfold windowOrder; rw [hs]; rfl
  have h2 : rank S text (input [true] rows) (((0 : Nat) : Int) + 1) = .ok (.int 0) := by
    unfold rank
    rw [position_eq hg (r := ⟨[], [some (.int 0)], .null⟩) rfl hi, hs]
    rfl
  rw [h2] at h1
  injection h1 with h1; injection h1 with h1
  omega

/-- A STRING key is an error. -/
theorem C40_string : rankLoop true (0, 1, 0) [.str ['a']] = .err := by
  decide

/-! ## One INT64 key -/

/-- The window order on integers. -/
def klt (asc : Bool) (a b : Int) : Prop := if asc then a < b else b < a

instance (asc a b) : Decidable (klt asc a b) := by unfold klt; infer_instance

theorem klt_irrefl (asc a) : ¬ klt asc a a := by unfold klt; split <;> omega
theorem klt_trans {asc a b c} (h : klt asc a b) (h' : klt asc b c) : klt asc a c := by unfold klt at *; split at h <;> simp_all <;> omega
theorem klt_total {asc a b} (h : ¬ klt asc a b) (h' : ¬ klt asc b a) : a = b := by unfold klt at *; split at h <;> simp_all <;> omega

/-- The key of row `j`. -/
def keyOf (r : SRow) : Int := match r.keys with
  | [some (.int k)] => k
  | _ => 0

/-- The key of the row at position `j`. -/
def keyAt (rows : List SRow) (j : Nat) : Int := (rows[j]?.map keyOf).getD 0

/-- Every row has one INT64 key within 2^53. -/
def IntKeyed (rows : List SRow) : Prop :=
  ∀ r ∈ rows, r.keys = [some (.int (keyOf r))] ∧ -9007199254740992 < keyOf r ∧ keyOf r < 9007199254740992

theorem IntKeyed.good {asc} {rows : List SRow} (h : IntKeyed rows) : GoodKeys [asc] rows := by
  refine ⟨?_, ?_, ?_⟩
  · intro r hr; rw [(h r hr).1]; rfl
  · intro r hr k hk
    rw [(h r hr).1] at hk
    simp only [List.mem_singleton] at hk
    subst hk
    exact (h r hr).2
  · intro r hr s hs
    rw [(h r hr).1, (h s hs).1]
    exact .cons trivial .nil

theorem keysBefore_int {asc : Bool} {a b : Int} : KeysBefore [asc] [some (.int a)] [some (.int b)] ↔ klt asc a b := by
  unfold KeysBefore klt
  constructor
  · intro h
    cases h with
    | here h => cases asc <;> simpa [Before, Lt] using h
    | there h => cases h
  · intro h
    refine .here ?_
    cases asc <;> simpa [Before, Lt] using h

theorem order_sorted (S : Sorter) {asc} {rows : List SRow} (h : IntKeyed rows) (p) :
    ((windowOrder S [asc] rows p).map (keyAt rows)).Pairwise fun a b => ¬ klt asc b a := by
  rw [List.pairwise_map]
  refine List.Pairwise.imp_of_mem ?_ (windowOrder_sorted S (h.good (asc := asc)) p)
  intro i j hi hj hij
  obtain ⟨r, hr, _⟩ := mem_windowOrder.mp hi
  obtain ⟨s, hs, _⟩ := mem_windowOrder.mp hj
  have := hij r s hr hs
  rw [(h r (List.mem_of_getElem? hr)).1, (h s (List.mem_of_getElem? hs)).1, keysBefore_int] at this
  simpa [keyAt, hr, hs] using this

theorem row_lastKey {asc} {rows : List SRow} (h : IntKeyed rows) {r : SRow} (hr : r ∈ rows) :
    lastKey (r.row [asc]) = some (.int (keyOf r)) := by
  unfold lastKey SRow.row
  simp only [(h r hr).1, List.zipWith_cons_cons, List.zipWith_nil_left, List.getLast?_singleton, Option.map_some, ofScalar, winKey,
    f64_exact (h r hr).2.1 (h r hr).2.2]

theorem lastKeys_eq {S : Sorter} {asc} {rows : List SRow} (h : IntKeyed rows) (p) :
    lastKeys (sortedRows S [asc] rows p) = .ok ((windowOrder S [asc] rows p).map fun j => .int (keyAt rows j)) := by
  unfold windowOrder
  have hm : ∀ q ∈ sortedRows S [asc] rows p, ∃ r, rows[q.1]? = some r ∧ q.2 = r.row [asc] := by
    intro q hq
    obtain ⟨i, hi⟩ := List.getElem?_of_mem hq
    obtain ⟨r, h1, h2, _⟩ := sortedRows_get hi
    exact ⟨r, h1, h2⟩
  generalize sortedRows S [asc] rows p = qs at hm
  induction qs with
  | nil => rfl
  | cons q qs ih =>
    obtain ⟨r, h1, h2⟩ := hm q (by simp)
    have h3 := row_lastKey (asc := asc) h (List.mem_of_getElem? h1)
    simp only [lastKeys, h2, h3, ih (fun q hq => hm q (by simp [hq])), Res.bind'_ok, List.map_cons, keyAt, h1, Option.map_some,
      Option.getD_some]

theorem lastAsc_eq {S : Sorter} {asc} {rows : List SRow} (h : IntKeyed rows) (p) {i : Nat} {q : IRow}
    (hi : (sortedRows S [asc] rows p)[i]? = some q) : lastAsc (sortedRows S [asc] rows p) = asc := by
  unfold lastAsc
  have hm : ∀ q ∈ sortedRows S [asc] rows p, ∃ r ∈ rows, q.2 = r.row [asc] := by
    intro q hq
    obtain ⟨i, hi⟩ := List.getElem?_of_mem hq
    obtain ⟨r, h1, h2, _⟩ := sortedRows_get hi
    exact ⟨r, List.mem_of_getElem? h1, h2⟩
  generalize sortedRows S [asc] rows p = qs at *
  cases qs with
  | nil => simp at hi
  | cons q qs =>
    obtain ⟨r, h1, h2⟩ := hm q (by simp)
    simp [h2, SRow.row, (h r h1).1]

/-! ## The rank loops -/

theorem rankLoop_spec (asc : Bool) (ks P : List Int) (mx : Int) (rank same : Int)
    (hP : ∀ x ∈ P, ¬ klt asc mx x) (hmx : mx ∈ P)
    (hrank : rank = 1 + (P.countP fun x => decide (klt asc x mx)))
    (hsame : same = P.countP fun x => decide (x = mx))
    (hs : ks.Pairwise fun a b => ¬ klt asc b a) (hk : ∀ k ∈ ks, ¬ klt asc k mx) :
    ∃ same', rankLoop asc (rank, same, mx) (ks.map .int) =
      .ok (1 + ((P ++ ks).countP fun x => decide (klt asc x (ks.getLast?.getD mx))), same', ks.getLast?.getD mx) := by
  induction ks generalizing P mx rank same with
  | nil => exact ⟨same, by simp only [rankLoop, List.map_nil, hrank, List.append_nil]; rfl⟩
  | cons k ks ih =>
    simp only [List.map_cons, rankLoop, toInt64, Res.bind'_ok]
    have hcond : (if asc then mx < k else mx > k) = klt asc mx k := by unfold klt; cases asc <;> simp
    simp only [hcond]
    rw [List.pairwise_cons] at hs
    have hlast : (k :: ks).getLast?.getD mx = ks.getLast?.getD k := by
      cases ks with
      | nil => rfl
      | cons a as =>
        rw [List.getLast?_cons_cons]
        obtain ⟨z, hz⟩ : ∃ z, (a :: as).getLast? = some z := ⟨_, List.getLast?_eq_some_getLast (by simp)⟩
        rw [hz]; rfl
    rw [hlast]
    by_cases hlt : klt asc mx k
    · rw [if_pos hlt]
      have hall : ∀ x ∈ P, klt asc x k := by
        intro x hx
        have h1 := hP x hx
        by_cases h2 : klt asc x mx
        · exact klt_trans h2 hlt
        · rw [klt_total h2 h1]; exact hlt
      have hcount : ((P ++ [k]).countP fun x => decide (klt asc x k)) = P.length := by
        rw [List.countP_append, List.countP_eq_length.mpr (by simpa using hall)]
        simp [klt_irrefl]
      have hsum : (P.countP fun x => decide (klt asc x mx)) + (P.countP fun x => decide (x = mx)) = P.length := by
        clear hcount hrank hsame ih hmx
        induction P with
        | nil => rfl
        | cons x P ih =>
          have ih := ih (fun y hy => hP y (by simp [hy])) (fun y hy => hall y (by simp [hy]))
          have h1 := hP x (by simp)
          simp only [List.countP_cons, List.length_cons, decide_eq_true_eq]
          by_cases h2 : x = mx
          · subst h2; simp [klt_irrefl]; omega
          · have : klt asc x mx := by
              by_cases h3 : klt asc x mx
              · exact h3
              · exact absurd (klt_total h3 h1) h2
            simp [this, h2]; omega
      obtain ⟨s', h⟩ := ih (P ++ [k]) k (rank + same) 1
        (by
          intro x hx
          rcases List.mem_append.mp hx with hx | hx
          · exact fun h => klt_irrefl asc x (klt_trans (hall x hx) h)
          · simp at hx; subst hx; exact klt_irrefl _ _)
        (by simp)
        (by rw [hcount, hrank, hsame]; omega)
        (by
          rw [List.countP_append, List.countP_eq_zero.mpr]
          · simp
          · intro x hx
            simp only [decide_eq_true_eq]
            rintro rfl
            exact klt_irrefl _ _ (hall x hx))
        hs.2 hs.1
      exact ⟨s', by rw [h]; simp [List.append_assoc]⟩
    · rw [if_neg hlt]
      have hkm : k = mx := klt_total (hk k (by simp)) hlt
      subst hkm
      obtain ⟨s', h⟩ := ih (P ++ [k]) k rank (same + 1)
        (by
          intro x hx
          rcases List.mem_append.mp hx with hx | hx
          · exact hP x hx
          · simp at hx; subst hx; exact klt_irrefl _ _)
        (by simp)
        (by rw [List.countP_append, hrank]; simp [klt_irrefl])
        (by rw [List.countP_append, hsame]; simp)
        hs.2 hs.1
      exact ⟨s', by rw [h]; simp [List.append_assoc]⟩

theorem denseLoop_spec (asc : Bool) (ks P D : List Int) (mx : Int)
    (hP : ∀ x ∈ P, ¬ klt asc mx x) (hmx : mx ∈ P) (hD : D.Nodup) (hDm : ∀ x, x ∈ D ↔ x ∈ P ∧ klt asc x mx)
    (hs : ks.Pairwise fun a b => ¬ klt asc b a) (hk : ∀ k ∈ ks, ¬ klt asc k mx) :
    ∃ D' : List Int, D'.Nodup ∧ (∀ x, x ∈ D' ↔ x ∈ P ++ ks ∧ klt asc x (ks.getLast?.getD mx)) ∧
      denseLoop asc (1 + D.length, mx) (ks.map .int) = .ok (1 + D'.length, ks.getLast?.getD mx) := by
  induction ks generalizing P D mx with
  | nil => exact ⟨D, hD, by simpa using hDm, rfl⟩
  | cons k ks ih =>
    simp only [List.map_cons, denseLoop, toInt64, Res.bind'_ok]
    have hcond : (if asc then mx < k else mx > k) = klt asc mx k := by unfold klt; cases asc <;> simp
    simp only [hcond]
    rw [List.pairwise_cons] at hs
    have hlast : (k :: ks).getLast?.getD mx = ks.getLast?.getD k := by
      cases ks with
      | nil => rfl
      | cons a as =>
        rw [List.getLast?_cons_cons]
        obtain ⟨z, hz⟩ : ∃ z, (a :: as).getLast? = some z := ⟨_, List.getLast?_eq_some_getLast (by simp)⟩
        rw [hz]; rfl
    rw [hlast]
    by_cases hlt : klt asc mx k
    · rw [if_pos hlt]
      have hall : ∀ x ∈ P, klt asc x k := by
        intro x hx
        have h1 := hP x hx
        by_cases h2 : klt asc x mx
        · exact klt_trans h2 hlt
        · rw [klt_total h2 h1]; exact hlt
      obtain ⟨D', h1, h2, h3⟩ := ih (P ++ [k]) (mx :: D) k
        (by
          intro x hx
          rcases List.mem_append.mp hx with hx | hx
          · exact fun h => klt_irrefl asc x (klt_trans (hall x hx) h)
          · simp at hx; subst hx; exact klt_irrefl _ _)
        (by simp)
        (by
          rw [List.nodup_cons]
          exact ⟨fun h => klt_irrefl _ _ ((hDm mx).mp h).2, hD⟩)
        (by
          intro x
          simp only [List.mem_cons, List.mem_append, List.not_mem_nil, or_false]
          constructor
          · rintro (rfl | h)
            · exact ⟨.inl hmx, hlt⟩
            · exact ⟨.inl ((hDm x).mp h).1, klt_trans ((hDm x).mp h).2 hlt⟩
          · rintro ⟨h | rfl, h'⟩
            · by_cases he : x = mx
              · exact .inl he
              · refine .inr ((hDm x).mpr ⟨h, ?_⟩)
                by_cases h3 : klt asc x mx
                · exact h3
                · exact absurd (klt_total h3 (hP x h)) he
            · exact absurd h' (klt_irrefl _ _))
        hs.2 hs.1
      refine ⟨D', h1, ?_, ?_⟩
      · intro x; rw [h2]; simp [List.append_assoc]
      · rw [← h3]; congr 2
    · rw [if_neg hlt]
      have hkm : k = mx := klt_total (hk k (by simp)) hlt
      subst hkm
      obtain ⟨D', h1, h2, h3⟩ := ih (P ++ [k]) D k
        (by
          intro x hx
          rcases List.mem_append.mp hx with hx | hx
          · exact hP x hx
          · simp at hx; subst hx; exact klt_irrefl _ _)
        (by simp) hD
        (by
          intro x
          rw [hDm]
          simp only [List.mem_append, List.mem_singleton]
          constructor
          · rintro ⟨h, h'⟩; exact ⟨.inl h, h'⟩
          · rintro ⟨h | rfl, h'⟩
            · exact ⟨h, h'⟩
            · exact absurd h' (klt_irrefl _ _))
        hs.2 hs.1
      refine ⟨D', h1, ?_, h3⟩
      intro x; rw [h2]; simp [List.append_assoc]

/-- The keys lie beyond the start value of the loops. -/
def InRange (asc : Bool) (rows : List SRow) : Prop := ∀ r ∈ rows, klt asc (rankInit asc) (keyOf r)

theorem take_last {α : Type} (xs : List α) (i : Nat) (x : α) (h : xs[i]? = some x) : (xs.take (i + 1)).getLast? = some x := by
  rw [List.getLast?_take]
  simp [h]

theorem drop_not_before (asc : Bool) (ks : List Int) (hs : ks.Pairwise fun a b => ¬ klt asc b a) (i : Nat) (k : Int)
    (h : ks[i]? = some k) : ∀ x ∈ ks.drop (i + 1), ¬ klt asc x k := by
  intro x hx
  obtain ⟨m, hm⟩ := List.getElem?_of_mem hx
  rw [List.getElem?_drop] at hm
  obtain ⟨h1, rfl⟩ := List.getElem?_eq_some_iff.mp h
  obtain ⟨h2, rfl⟩ := List.getElem?_eq_some_iff.mp hm
  exact List.pairwise_iff_getElem.mp hs i _ h1 h2 (by omega)

/-- C40, part: one INT64 key within 2^53, positive if ascending.  Peers therefore share a
rank. -/
theorem C40_partial (S : Sorter) (text : Val → Res (List Char)) (asc : Bool) (rows : List SRow) (hg : GoodParts text rows)
    (hk : IntKeyed rows) (hr0 : InRange asc rows) (j : Nat) (r : SRow) (hj : rows[j]? = some r) :
    RankSpec [asc] rows r (rank S text (input [asc] rows) ((j : Int) + 1)) ∧
    DenseSpec [asc] rows r (denseRank S text (input [asc] rows) ((j : Int) + 1)) := by
  have hrm := List.mem_of_getElem? hj
  have hmem : j ∈ windowOrder S [asc] rows r.parts := mem_windowOrder.mpr ⟨r, hj, rfl⟩
  obtain ⟨i, hi⟩ := List.getElem?_of_mem hmem
  have hpos := position_eq (S := S) (flags := [asc]) hg hj hi
  have hlt : i < (sortedRows S [asc] rows r.parts).length := by
    have := (List.getElem?_eq_some_iff.mp hi).1; simpa [windowOrder] using this
  have hasc := lastAsc_eq (S := S) hk r.parts (List.getElem?_eq_getElem hlt)
  have hsort := order_sorted S (asc := asc) hk r.parts
  -- the keys in window order
  generalize hks : (windowOrder S [asc] rows r.parts).map (keyAt rows) = ks at hsort
  have hik : ks[i]? = some (keyOf r) := by
    rw [← hks, List.getElem?_map, hi]; simp [keyAt, hj]
  have hmap : (windowOrder S [asc] rows r.parts).map (fun j => Val.int (keyAt rows j)) = ks.map .int := by
    rw [← hks, List.map_map]; rfl
  have hin : ∀ k ∈ ks, klt asc (rankInit asc) k := by
    intro k hk'
    rw [← hks, List.mem_map] at hk'
    obtain ⟨m, hm, rfl⟩ := hk'
    obtain ⟨s, hs, _⟩ := mem_windowOrder.mp hm
    simpa [keyAt, hs] using hr0 s (List.mem_of_getElem? hs)
  have hafter := drop_not_before asc ks hsort i _ hik
  -- the prefix up to the current row
  have htd : ks.take (i + 1) ++ ks.drop (i + 1) = ks := List.take_append_drop _ _
  obtain ⟨k0, tl, htk⟩ : ∃ k0 tl, ks.take (i + 1) = k0 :: tl := by
    cases ks with
    | nil => simp at hik
    | cons a as => exact ⟨a, as.take i, by simp⟩
  have hlast : tl.getLast?.getD k0 = keyOf r := by
    have h1 := take_last ks i _ hik
    rw [htk, List.getLast?_cons] at h1
    exact Option.some.inj h1
  have hk0 : klt asc (rankInit asc) k0 := hin k0 (List.mem_of_mem_take (i := i + 1) (by rw [htk]; simp))
  have hpre : (k0 :: tl).Pairwise fun a b => ¬ klt asc b a := by rw [← htk]; exact hsort.sublist (List.take_sublist _ _)
  rw [List.pairwise_cons] at hpre
  have hcond : (if asc then (rankInit asc) < k0 else (rankInit asc) > k0) = klt asc (rankInit asc) k0 := by
    unfold klt; cases asc <;> simp
  have hpart : ∀ m ∈ windowOrder S [asc] rows r.parts, ∃ s, rows[m]? = some s ∧ s.parts = r.parts :=
    fun m hm => mem_windowOrder.mp hm
  constructor
  · obtain ⟨s', h⟩ := rankLoop_spec asc tl [k0] k0 1 1 (by simp [klt_irrefl]) (by simp) (by simp [klt_irrefl]) (by simp)
      hpre.2 hpre.1
    rw [hlast] at h
    refine ⟨(windowOrder S [asc] rows r.parts).filter fun m => decide (klt asc (keyAt rows m) (keyOf r)), ?_, ?_, ?_⟩
    · exact (windowOrder_nodup S [asc] rows r.parts).filter _
    · intro m
      simp only [List.mem_filter, mem_windowOrder, decide_eq_true_eq]
      constructor
      · rintro ⟨⟨s, hs, hsp⟩, hlt⟩
        refine ⟨s, hs, hsp, ?_⟩
        rw [(hk s (List.mem_of_getElem? hs)).1, (hk r hrm).1, keysBefore_int]
        simpa [keyAt, hs] using hlt
      · rintro ⟨s, hs, hsp, hb⟩
        rw [(hk s (List.mem_of_getElem? hs)).1, (hk r hrm).1, keysBefore_int] at hb
        exact ⟨⟨s, hs, hsp⟩, by simpa [keyAt, hs] using hb⟩
    · unfold rank
      rw [hpos]
      simp only [Res.bind'_ok]
      rw [lastKeys_eq hk, hasc]
      simp only [Res.bind'_ok, Int.toNat_natCast]
      rw [hmap, ← List.map_take, htk]
      simp only [List.map_cons, rankLoop, toInt64, Res.bind'_ok, hcond]
      rw [if_pos hk0]
      have e01 : (0 : Int) + 1 = 1 := rfl
      rw [e01, h, Res.bind'_ok]
      congr 2
      have hc : ((windowOrder S [asc] rows r.parts).filter fun m => decide (klt asc (keyAt rows m) (keyOf r))).length
          = ks.countP (fun x => decide (klt asc x (keyOf r))) := by
        rw [← hks, List.countP_map, List.countP_eq_length_filter]; rfl
      have hz : (ks.drop (i + 1)).countP (fun x => decide (klt asc x (keyOf r))) = 0 :=
        List.countP_eq_zero.mpr (by intro x hx; simpa using hafter x hx)
      have hsplit : ks.countP (fun x => decide (klt asc x (keyOf r)))
          = (k0 :: tl).countP (fun x => decide (klt asc x (keyOf r))) := by
        rw [← htk, ← Nat.add_zero (List.countP _ (ks.take (i + 1))), ← hz, ← List.countP_append, htd]
      rw [hc, hsplit]
      rfl
  · obtain ⟨D, h1, h2, h3⟩ := denseLoop_spec asc tl [k0] [] k0 (by simp [klt_irrefl]) (by simp) (by simp)
      (by intro x; simp only [List.not_mem_nil, List.mem_singleton, false_iff]; rintro ⟨rfl, h⟩; exact klt_irrefl _ _ h) hpre.2 hpre.1
    rw [hlast] at h2 h3
    refine ⟨D.map fun k => [some (.int k)], ?_, ?_, ?_⟩
    · exact List.pairwise_map.mpr (h1.imp fun h e => h (by simpa using e))
    · intro k
      simp only [List.mem_map, h2]
      constructor
      · rintro ⟨x, ⟨hx, hb⟩, rfl⟩
        have hx' : x ∈ ks := List.mem_of_mem_take (i := i + 1) (by rw [htk]; simpa using hx)
        rw [← hks, List.mem_map] at hx'
        obtain ⟨m, hm, rfl⟩ := hx'
        obtain ⟨s, hs, hsp⟩ := hpart m hm
        have hsm := List.mem_of_getElem? hs
        have he : keyAt rows m = keyOf s := by simp [keyAt, hs]
        refine ⟨s, hsm, hsp, ?_, ?_⟩
        · rw [(hk s hsm).1, he]
        · rw [(hk r hrm).1, keysBefore_int]; exact hb
      · rintro ⟨s, hsm, hsp, rfl, hb⟩
        rw [(hk s hsm).1, (hk r hrm).1, keysBefore_int] at hb
        refine ⟨keyOf s, ⟨?_, hb⟩, (hk s hsm).1.symm⟩
        obtain ⟨m, hm⟩ := List.getElem?_of_mem hsm
        have hmo : m ∈ windowOrder S [asc] rows r.parts := mem_windowOrder.mpr ⟨s, hm, hsp⟩
        have hkm : keyOf s ∈ ks := by
          rw [← hks, List.mem_map]; exact ⟨m, hmo, by simp [keyAt, hm]⟩
        rw [← htd, List.mem_append, htk] at hkm
        rcases hkm with hkm | hkm
        · simpa using hkm
        · exact absurd hb (hafter _ hkm)
    · unfold denseRank
      rw [hpos]
      simp only [Res.bind'_ok]
      rw [lastKeys_eq hk, hasc]
      simp only [Res.bind'_ok, Int.toNat_natCast]
      rw [hmap, ← List.map_take, htk]
      simp only [List.map_cons, denseLoop, toInt64, Res.bind'_ok, hcond]
      rw [if_pos hk0]
      have e01 : (0 : Int) + 1 = 1 + ([] : List Int).length := rfl
      rw [e01, h3, Res.bind'_ok]
      congr 2
      simp

/-- A witness of the hypotheses: three rows, two of them peers. -/
example : IntKeyed [⟨[], [some (.int 4)], .null⟩, ⟨[], [some (.int 9)], .null⟩, ⟨[], [some (.int 4)], .null⟩] ∧
    InRange true [⟨[], [some (.int 4)], .null⟩, ⟨[], [some (.int 9)], .null⟩, ⟨[], [some (.int 4)], .null⟩] := by
  constructor
  · intro r hr; simp at hr; rcases hr with rfl | rfl | rfl <;> simp [keyOf]
  · intro r hr; simp at hr; rcases hr with rfl | rfl | rfl <;> simp [keyOf, klt, rankInit]

end Verif.Window
