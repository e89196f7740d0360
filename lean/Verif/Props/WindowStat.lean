import Verif.Model.WindowStat
import Verif.Props.WindowRank
import Verif.Props.WindowRowsExact
import Verif.Lemmas.F64Exact

/-! # C171–C173: CUME_DIST, PERCENT_RANK and AVG over windows -/

namespace Verif.WindowStat

open Go Verif.Val Verif.Sql Verif.Window Verif.Aggregate
open Verif.Float (Near)
open Go.F64 (Is)

set_option exponentiation.threshold 3000

/-! ### C171: CUME_DIST -/

/-- CUME_DIST of the row `r`: the share of the rows of its partition that come before it or are its
peers, as the nearest FLOAT64. -/
def CumeSpec (flags : List Bool) (rows : List SRow) (r : SRow) (out : Res F64) : Prop :=
  ∃ upto part : List Nat, upto.Nodup ∧ part.Nodup ∧
    (∀ j, j ∈ part ↔ ∃ s, rows[j]? = some s ∧ s.parts = r.parts) ∧
    (∀ j, j ∈ upto ↔ ∃ s, rows[j]? = some s ∧ s.parts = r.parts ∧ ¬ KeysBefore flags r.keys s.keys) ∧
    ∃ x, out = .ok x ∧ Near (upto.length * F64.one) part.length x

/-- C171 in full. -/
def C171_full (S : Sorter) (text : Val → Res (List Char)) : Prop :=
  ∀ flags rows, flags ≠ [] → rows.length ≤ 2 ^ 53 → GoodParts text rows → GoodKeys flags rows →
    ∀ (j : Nat) (r : SRow), rows[j]? = some r →
    CumeSpec flags rows r (cumeDist S text (input flags rows) ((j : Int) + 1))

theorem members_length (rows : List SRow) (p) : (members rows p).length ≤ rows.length := by
  unfold members
  exact Nat.le_trans (List.length_filter_le _ _) (by simp)

theorem order_length (S : Sorter) (flags rows p) : (windowOrder S flags rows p).length ≤ rows.length := by
  rw [(windowOrder_perm S flags rows p).length_eq]; exact members_length _ _

/-- What the code computes: position in the window order over size of the partition. -/
theorem cumeDist_eq (S : Sorter) (text : Val → Res (List Char)) (flags : List Bool) (rows : List SRow) (hn : rows.length ≤ 2 ^ 53)
    (hg : GoodParts text rows) {i j : Nat} {r : SRow} (hj : rows[j]? = some r) (hi : (windowOrder S flags rows r.parts)[i]? = some j) :
    ∃ x, cumeDist S text (input flags rows) ((j : Int) + 1) = .ok x ∧
      Near ((i + 1 : Nat) * F64.one) (windowOrder S flags rows r.parts).length x := by
  have hlt := (List.getElem?_eq_some_iff.mp hi).1
  have hl := order_length S flags rows r.parts
  have e : (sortedRows S flags rows r.parts).length = (windowOrder S flags rows r.parts).length := by simp [windowOrder]
  unfold cumeDist
  rw [position_eq hg hj hi]
  simp only [Res.bind'_ok, e]
  rw [if_neg (by omega)]
  refine ⟨_, rfl, ?_⟩
  generalize (windowOrder S flags rows r.parts).length = n at *
  have h1 : ((i : Int) + 1) = ((i + 1 : Nat) : Int) := by push_cast; rfl
  rw [h1]
  exact F64.near_div (F64.is_ofInt (by omega)) (F64.is_ofInt (by omega)) (by omega) (by omega)

theorem perm_of_mem {xs ys : List Nat} (hx : xs.Nodup) (hy : ys.Nodup) (h : ∀ j, j ∈ xs ↔ j ∈ ys) : xs.length = ys.length :=
  ((List.perm_ext_iff_of_nodup hx hy).mpr h).length_eq

/-- C171, part: a row that has no peers, or that the code sorts after all its peers. -/
theorem C171_partial (S : Sorter) (text : Val → Res (List Char)) (flags : List Bool) (rows : List SRow) (hn : rows.length ≤ 2 ^ 53)
    (hg : GoodParts text rows) (hk : GoodKeys flags rows) (j : Nat) (r : SRow) (hj : rows[j]? = some r)
    (h : ∀ m s, m ≠ j → rows[m]? = some s → s.parts = r.parts → KeysBefore flags r.keys s.keys ∨ KeysBefore flags s.keys r.keys) :
    CumeSpec flags rows r (cumeDist S text (input flags rows) ((j : Int) + 1)) := by
  have hmem : j ∈ windowOrder S flags rows r.parts := mem_windowOrder.mpr ⟨r, hj, rfl⟩
  obtain ⟨i, hi⟩ := List.getElem?_of_mem hmem
  obtain ⟨x, hx, hnear⟩ := cumeDist_eq S text flags rows hn hg hj hi
  have hlt := (List.getElem?_eq_some_iff.mp hi).1
  have hnd := windowOrder_nodup S flags rows r.parts
  refine ⟨(windowOrder S flags rows r.parts).take (i + 1), windowOrder S flags rows r.parts, ?_, hnd, ?_, ?_, x, hx, ?_⟩
  · exact hnd.sublist (List.take_sublist _ _)
  · intro j; exact mem_windowOrder
  · intro m
    have hsort := windowOrder_sorted S hk r.parts
    generalize hW : windowOrder S flags rows r.parts = W at *
    have hmw : ∀ m, m ∈ W ↔ ∃ s, rows[m]? = some s ∧ s.parts = r.parts := by intro m; rw [← hW]; exact mem_windowOrder
    have hij : W[i]'hlt = j := by rw [List.getElem?_eq_getElem hlt] at hi; exact Option.some.inj hi
    constructor
    · intro hm
      obtain ⟨s, hs, hp⟩ := (hmw m).mp (List.mem_of_mem_take hm)
      refine ⟨s, hs, hp, fun hb => ?_⟩
      obtain ⟨l, hl, hle⟩ := List.getElem_of_mem hm
      simp only [List.length_take] at hl
      rw [List.getElem_take] at hle
      rcases Nat.lt_or_ge l i with h1 | h1
      · have := List.pairwise_iff_getElem.mp hsort l i (by omega) hlt h1
        rw [hle, hij] at this
        exact this s r hs hj hb
      · have : l = i := by omega
        subst this
        rw [hij] at hle
        subst hle
        rw [hs] at hj; cases hj
        exact RowBefore_irrefl _ _ hb
    · rintro ⟨s, hs, hp, hb⟩
      obtain ⟨l, hl, hle⟩ := List.getElem_of_mem ((hmw m).mpr ⟨s, hs, hp⟩)
      have hli : l ≤ i := by
        rcases Nat.lt_or_ge i l with h1 | h1
        · exfalso
          have h2 := List.pairwise_iff_getElem.mp hsort i l hlt hl h1
          rw [hle, hij] at h2
          have hne : m ≠ j := by
            rintro rfl
            have := (List.getElem_inj hnd).mp (hle.trans hij.symm)
            omega
          rcases h m s hne hs hp with h3 | h3
          · exact hb h3
          · exact h2 r s hj hs h3
        · exact h1
      rw [← hle]
      exact List.mem_take_iff_getElem.mpr ⟨l, by omega, rfl⟩
  · rw [List.length_take, Nat.min_eq_left (by omega)]
    exact hnear

/-- Three rows without peers. -/
example : ∀ m s, m ≠ 1 → ([⟨[], [some (.int 4)], .null⟩, ⟨[], [some (.int 9)], .null⟩, ⟨[], [some (.int 5)], .null⟩] : List SRow)[m]? = some s →
    s.parts = [] → KeysBefore [true] [some (.int 9)] s.keys ∨ KeysBefore [true] s.keys [some (.int 9)] := by
  intro m s hm hs _
  right
  match m, hm, hs with
  | 0, _, hs => simp at hs; subst hs; exact keysBefore_int.mpr (by simp [klt])
  | 1, h, _ => exact absurd rfl h
  | 2, _, hs => simp at hs; subst hs; exact keysBefore_int.mpr (by simp [klt])
  | m + 3, _, hs => simp at hs

/-- Two rows that are peers of each other. -/
def twins : List SRow := [⟨[], [some (.int 0)], .null⟩, ⟨[], [some (.int 0)], .null⟩]

theorem twins_keyed : IntKeyed twins := by intro r hr; simp [twins] at hr; subst hr; simp [keyOf]

theorem twins_order (S : Sorter) : (windowOrder S [true] twins []).length = 2 := by
  rw [(windowOrder_perm S [true] twins []).length_eq]; rfl

theorem twins_at {j : Nat} {r : SRow} (h : twins[j]? = some r) : r = ⟨[], [some (.int 0)], .null⟩ := by
  have := List.mem_of_getElem? h
  simpa [twins] using this

/-- The first of two peers gets 1/2, it should get 1. -/
theorem C171_full_false (S : Sorter) (text : Val → Res (List Char)) : ¬ C171_full S text := by
  intro h
  obtain ⟨j, hj⟩ : ∃ j, (windowOrder S [true] twins [])[0]? = some j := ⟨_, List.getElem?_eq_getElem (by rw [twins_order]; decide)⟩
  obtain ⟨r, hr, hp⟩ := mem_windowOrder.mp (List.mem_of_getElem? hj)
  have hr' := twins_at hr
  have hg : GoodParts text twins := .inl (by simp [twins])
  have h1 : (windowOrder S [true] twins r.parts)[0]? = some j := by rw [hp]; exact hj
  obtain ⟨x, hx, hnear⟩ := cumeDist_eq S text [true] twins (by decide) hg hr h1
  rw [hp, twins_order] at hnear
  obtain ⟨upto, part, hu, hpn, hpm, hum, y, hy, hnear'⟩ := h [true] twins (by simp) (by decide) hg (twins_keyed.good) j r hr
  rw [hx] at hy
  injection hy with hy
  subst hy
  have l1 : part.length = 2 := by
    refine perm_of_mem hpn (by decide : [0, 1].Nodup) (fun m => ?_)
    rw [hpm, hp, ← mem_members]
    have : members twins [] = [0, 1] := by decide
    rw [this]
  have l2 : upto.length = 2 := by
    refine perm_of_mem hu (by decide : [0, 1].Nodup) (fun m => ?_)
    rw [hum]
    have : members twins [] = [0, 1] := by decide
    rw [← this, mem_members]
    constructor
    · rintro ⟨s, hs, hps, _⟩; exact ⟨s, hs, by rw [hps, hp]⟩
    · rintro ⟨s, hs, hps⟩
      refine ⟨s, hs, by rw [hps, hp], ?_⟩
      rw [twins_at hs, hr']
      exact RowBefore_irrefl _ _
  rw [l1, l2] at hnear'
  cases x with
  | fin s k =>
    have a1 := hnear.2 false 1 1073 (by decide)
    have a2 := hnear'.2 false 1 1074 (by decide)
    have e1 : ((((0 + 1 : Nat) : Int) * F64.one) - ((2 : Nat) : Int) * F64.sval false (1 * 2 ^ 1073)).natAbs = 0 := by decide +kernel
    have e2 : ((((2 : Nat) : Int) * F64.one) - ((2 : Nat) : Int) * F64.sval false (1 * 2 ^ 1074)).natAbs = 0 := by decide +kernel
    rw [e1] at a1
    rw [e2] at a2
    have hp : (0 : Int) < F64.one := by exact_mod_cast Float.one_pos
    generalize (F64.one : Int) = L at *
    omega
  | inf s => exact hnear
  | nan => exact hnear

/-! ### C172: PERCENT_RANK -/

/-- PERCENT_RANK of the row `r`: the number of rows before it over the number of other rows,
0 for a single row. -/
def PercentSpec (flags : List Bool) (rows : List SRow) (r : SRow) (out : Res F64) : Prop :=
  ∃ before part : List Nat, before.Nodup ∧ part.Nodup ∧
    (∀ j, j ∈ part ↔ ∃ s, rows[j]? = some s ∧ s.parts = r.parts) ∧
    (∀ j, j ∈ before ↔ ∃ s, rows[j]? = some s ∧ s.parts = r.parts ∧ KeysBefore flags s.keys r.keys) ∧
    ∃ x, out = .ok x ∧ if part.length = 1 then x = .fin false 0 else Near (before.length * F64.one) (part.length - 1) x

/-- C172 in full. -/
def C172_full (S : Sorter) (text : Val → Res (List Char)) : Prop :=
  ∀ flags rows, flags ≠ [] → rows.length ≤ 2 ^ 53 → GoodParts text rows → GoodKeys flags rows →
    ∀ (j : Nat) (r : SRow), rows[j]? = some r →
    PercentSpec flags rows r (percentRank S text (input flags rows) ((j : Int) + 1))

theorem lastKeys_length {qs : List IRow} {ks : List Val} (h : lastKeys qs = .ok ks) : ks.length = qs.length := by
  induction qs generalizing ks with
  | nil => simp [lastKeys] at h; subst h; rfl
  | cons q qs ih =>
    simp only [lastKeys] at h
    split at h
    · cases h
    · cases hl : lastKeys qs with
      | ok l => rw [hl] at h; simp at h; subst h; simp [ih hl]
      | err => rw [hl] at h; simp at h
      | panic => rw [hl] at h; simp at h

/-- PERCENT_RANK in terms of RANK. -/
theorem percentRank_of_rank {S : Sorter} {text} {flags} {rows : List SRow} (hg : GoodParts text rows) {i j : Nat} {r : SRow}
    (hj : rows[j]? = some r) (hi : (windowOrder S flags rows r.parts)[i]? = some j) {k : Int}
    (h : rank S text (input flags rows) ((j : Int) + 1) = .ok (.int k)) :
    percentRank S text (input flags rows) ((j : Int) + 1) =
      if (windowOrder S flags rows r.parts).length = 1 then .ok (.fin false 0)
      else .ok ((F64.ofInt (k - 1)).div (F64.ofInt ((windowOrder S flags rows r.parts).length - 1))) := by
  unfold rank at h
  unfold percentRank
  rw [position_eq hg hj hi] at h ⊢
  simp only [Res.bind'_ok] at h ⊢
  cases hl : lastKeys (sortedRows S flags rows r.parts) with
  | err => rw [hl] at h; simp at h
  | panic => rw [hl] at h; simp at h
  | ok ks =>
    rw [hl] at h
    simp only [Res.bind'_ok] at h ⊢
    have e : ks.length = (windowOrder S flags rows r.parts).length := by rw [lastKeys_length hl]; simp [windowOrder]
    cases hr : rankLoop (lastAsc (sortedRows S flags rows r.parts)) (0, 1, rankInit (lastAsc (sortedRows S flags rows r.parts)))
        (List.take ((i : Int).toNat + 1) ks) with
    | err => rw [hr] at h; simp at h
    | panic => rw [hr] at h; simp at h
    | ok st =>
      rw [hr] at h
      simp only [Res.bind'_ok, Res.ok.injEq, Val.int.injEq] at h ⊢
      rw [e, h]

/-- C172, part: one INT64 key within 2^53, positive if ascending (as for RANK, C40). -/
theorem C172_partial (S : Sorter) (text : Val → Res (List Char)) (asc : Bool) (rows : List SRow) (hn : rows.length ≤ 2 ^ 53)
    (hg : GoodParts text rows) (hk : IntKeyed rows) (hr0 : InRange asc rows) (j : Nat) (r : SRow) (hj : rows[j]? = some r) :
    PercentSpec [asc] rows r (percentRank S text (input [asc] rows) ((j : Int) + 1)) := by
  obtain ⟨before, hb, hbm, hrank⟩ := (C40_partial S text asc rows hg hk hr0 j r hj).1
  have hmem : j ∈ windowOrder S [asc] rows r.parts := mem_windowOrder.mpr ⟨r, hj, rfl⟩
  obtain ⟨i, hi⟩ := List.getElem?_of_mem hmem
  have hlen := (List.getElem?_eq_some_iff.mp hi).1
  have hl := order_length S [asc] rows r.parts
  have hnd := windowOrder_nodup S [asc] rows r.parts
  have hble : before.length ≤ (windowOrder S [asc] rows r.parts).length := by
    rw [perm_of_mem hb (hnd.filter fun m => decide (m ∈ before)) (fun m => ?_)]
    · exact List.length_filter_le _ _
    · simp only [List.mem_filter, decide_eq_true_eq]
      refine ⟨fun hm => ⟨?_, hm⟩, fun hm => hm.2⟩
      obtain ⟨s, hs, hp, _⟩ := (hbm m).mp hm
      exact mem_windowOrder.mpr ⟨s, hs, hp⟩
  refine ⟨before, windowOrder S [asc] rows r.parts, hb, hnd, fun _ => mem_windowOrder, hbm, ?_⟩
  rw [percentRank_of_rank hg hj hi hrank]
  generalize (windowOrder S [asc] rows r.parts).length = n at *
  by_cases h1 : n = 1
  · simp [h1]
  · simp only [if_neg h1]
    refine ⟨_, rfl, ?_⟩
    have e1 : (1 + (before.length : Int)) - 1 = ((before.length : Nat) : Int) := by omega
    have e2 : (n : Int) - 1 = ((n - 1 : Nat) : Int) := by omega
    rw [e1, e2]
    exact F64.near_div (F64.is_ofInt (by omega)) (F64.is_ofInt (by omega)) (by omega) (by omega)

/-- Two peers with key 0 get −1, they should get 0. -/
theorem C172_full_false (S : Sorter) (text : Val → Res (List Char)) : ¬ C172_full S text := by
  intro h
  have hg : GoodParts text twins := .inl (by simp [twins])
  obtain ⟨before, part, hb, hpn, hpm, hbm, x, hx, hnear⟩ := h [true] twins (by simp) (by decide) hg (twins_keyed.good) 0 _ rfl
  have hmem : 0 ∈ windowOrder S [true] twins [] := mem_windowOrder.mpr ⟨_, rfl, rfl⟩
  obtain ⟨i, hi⟩ := List.getElem?_of_mem hmem
  have hil := (List.getElem?_eq_some_iff.mp hi).1
  rw [twins_order] at hil
  have hrank : rank S text (input [true] twins) (((0 : Nat) : Int) + 1) = .ok (.int 0) := by
    unfold rank
    rw [position_eq hg (r := ⟨[], [some (.int 0)], .null⟩) rfl hi]
    simp only [Res.bind'_ok]
    rw [lastKeys_eq twins_keyed]
    have hlt : 0 < (sortedRows S [true] twins []).length := by
      have := twins_order S; simp [windowOrder] at this; omega
    rw [lastAsc_eq (S := S) (asc := true) twins_keyed [] (List.getElem?_eq_getElem hlt)]
    have hks : (windowOrder S [true] twins []).map (fun j => Val.int (keyAt twins j)) = [.int 0, .int 0] := by
      have hall : ∀ v ∈ (windowOrder S [true] twins []).map (fun j => Val.int (keyAt twins j)), v = .int 0 := by
        intro v hv
        obtain ⟨m, hm, rfl⟩ := List.mem_map.mp hv
        obtain ⟨s, hs, _⟩ := mem_windowOrder.mp hm
        rw [keyAt, hs, twins_at hs]; rfl
      exact List.eq_replicate_iff.mpr ⟨by rw [List.length_map, twins_order], hall⟩
    simp only [Res.bind'_ok]
    rw [hks]
    match i, hil with
    | 0, _ => rfl
    | 1, _ => rfl
  rw [percentRank_of_rank hg (r := ⟨[], [some (.int 0)], .null⟩) rfl hi hrank] at hx
  rw [twins_order, if_neg (by decide)] at hx
  injection hx with hx
  have l1 : part.length = 2 := by
    refine perm_of_mem hpn (by decide : [0, 1].Nodup) (fun m => ?_)
    rw [hpm, ← mem_members]
    have : members twins [] = [0, 1] := by decide
    rw [this]
  have l2 : before = [] := by
    apply List.eq_nil_iff_forall_not_mem.mpr
    intro m hm
    obtain ⟨s, hs, _, hk⟩ := (hbm m).mp hm
    rw [twins_at hs] at hk
    exact RowBefore_irrefl _ _ hk
  rw [l1, l2, ← hx] at hnear
  have e : (F64.ofInt (0 - 1)).div (F64.ofInt ((2 : Nat) - 1)) = .fin true F64.one := by decide +kernel
  rw [e] at hnear
  simp only [if_neg (by decide : ¬ (2 = 1))] at hnear
  have a := hnear.2 false 0 0 (by decide)
  revert a
  decide +kernel

/-! ### C173: AVG over a frame -/

/-- An INT64 or NULL as the function receives it. -/
def asVal : Option Int → Val
  | none => .null
  | some z => .int z

/-- AVG([DISTINCT] x) of the values `vs`: the nearest FLOAT64 to the mean of those that are not NULL
(each once under DISTINCT); NULL if there are none. -/
def AvgSpec (distinct : Bool) (vs : List (Option Int)) (out : Res (Option F64)) : Prop :=
  ∃ us : List Int, (if distinct then us.Nodup ∧ ∀ z, z ∈ us ↔ some z ∈ vs else us = vs.filterMap id) ∧
    if us = [] then out = .ok none else ∃ x, out = .ok (some x) ∧ Near (us.sum * F64.one) us.length x

/-- The argument in row `j`, if it is an INT64. -/
def intAt (rows : List SRow) (j : Nat) : Option Int := match valueAt rows j with
  | .int z => some z
  | _ => none

/-- The magnitudes add up to at most 2⁵³, so that no addition rounds. -/
def Small (vs : List (Option Int)) : Prop := ((vs.filterMap id).map Int.natAbs).sum ≤ 2 ^ 53

/-- The text of an INT64 determines it. -/
def IntText (text : Val → Res (List Char)) : Prop := ∃ f : Int → List Char, (∀ a b, f a = f b → a = b) ∧ ∀ z, text (.int z) = .ok (f z)

/-- C173 in full: every ROWS frame of an INT64 argument. -/
def C173_full (S : Sorter) (text : Val → Res (List Char)) : Prop :=
  ∀ flags rows, GoodParts text rows → GoodKeys flags rows → (∀ r ∈ rows, ∃ o, r.value = asVal o) → rows.length ≤ 2 ^ 53 →
    ∀ p, ∃ W, WindowOrder flags rows p W ∧
      ∀ (b e : Boundary), Grammatical b e → Ordered b e → ∀ (d : Bool) (i j : Nat), W[i]? = some j →
        Small ((rowsFrame W b e i).map (intAt rows)) →
        AvgSpec d ((rowsFrame W b e i).map (intAt rows)) (winAvg d S text .rows b e (input flags rows) ((j : Int) + 1))

theorem avgLoop_some (text : Val → Res (List Char)) (seen : List (List Char)) (vs : List (Option Int)) : ∀ (s : F64) (a : Int), Is s (a * F64.one) →
    a.natAbs + ((vs.filterMap id).map Int.natAbs).sum ≤ 2 ^ 53 →
    ∃ t, avgLoop false text seen (some s) (vs.map asVal) = .ok (some t) ∧ Is t ((a + (vs.filterMap id).sum) * F64.one) := by
  induction vs with
  | nil => intro s a hs _; exact ⟨s, rfl, by simpa using hs⟩
  | cons v vs ih =>
    intro s a hs hb
    cases v with
    | none => simpa [avgLoop, asVal, Val.isNull] using ih s a hs (by simpa using hb)
    | some z =>
      simp only [List.filterMap_cons, id, List.map_cons, List.sum_cons] at hb
      have e : a * (F64.one : Int) + z * F64.one = (a + z) * F64.one := (Int.add_mul _ _ _).symm
      have h1 : Is (s.add (F64.ofInt z)) ((a + z) * F64.one) := by
        rw [← e]
        refine F64.is_add hs (F64.is_ofInt (by omega)) ?_
        rw [e]; exact F64.fit_int (by omega)
      obtain ⟨t, ht, hi⟩ := ih _ (a + z) h1 (by omega)
      refine ⟨t, ?_, ?_⟩
      · simpa [avgLoop, asVal, Val.isNull, avgArg, Float.add] using ht
      · simpa [Int.add_assoc] using hi

theorem avgLoop_none (text : Val → Res (List Char)) (seen : List (List Char)) (vs : List (Option Int)) (hs : Small vs) :
    if vs.filterMap id = [] then avgLoop false text seen none (vs.map asVal) = .ok none
    else ∃ t, avgLoop false text seen none (vs.map asVal) = .ok (some t) ∧ Is t ((vs.filterMap id).sum * F64.one) := by
  unfold Small at hs
  induction vs with
  | nil => simp [avgLoop]
  | cons v vs ih =>
    cases v with
    | none => simpa [avgLoop, asVal, Val.isNull] using ih (by simpa using hs)
    | some z =>
      simp only [List.filterMap_cons, id, List.map_cons, List.sum_cons] at hs
      obtain ⟨t, ht, hi⟩ := avgLoop_some text seen vs (F64.ofInt z) z (F64.is_ofInt (by omega)) (by omega)
      simp only [List.filterMap_cons, id, if_neg (List.cons_ne_nil _ _)]
      exact ⟨t, by simpa [avgLoop, asVal, Val.isNull, avgArg] using ht, by simpa using hi⟩

theorem sum_natAbs (zs : List Int) : zs.sum.natAbs ≤ (zs.map Int.natAbs).sum := by
  induction zs with
  | nil => simp
  | cons z zs ih => simp only [List.sum_cons, List.map_cons]; omega

/-- What the code computes: the sum over the length of the whole frame. -/
theorem avgFrame_eq (text : Val → Res (List Char)) (vs : List (Option Int)) (hs : Small vs) (hl : vs.length ≤ 2 ^ 53) :
    if vs.filterMap id = [] then avgFrame false text (vs.map asVal) = .ok none
    else ∃ x, avgFrame false text (vs.map asVal) = .ok (some x) ∧ Near ((vs.filterMap id).sum * F64.one) vs.length x := by
  have h := avgLoop_none text [] vs hs
  unfold avgFrame
  split at h
  · rename_i h0
    rw [if_pos h0, h]; rfl
  · rename_i h0
    obtain ⟨t, ht, hi⟩ := h
    rw [if_neg h0, ht]
    have hpos : 0 < vs.length := by
      rcases vs with _ | ⟨v, vs⟩
      · simp at h0
      · simp
    have hd : Is (F64.ofInt (vs.length : Int)) ((vs.length : Int) * F64.one) := F64.is_ofInt (by omega)
    have hne : ((vs.length : Int) * F64.one) ≠ 0 := Int.mul_ne_zero (by omega) (by exact_mod_cast Nat.pos_iff_ne_zero.mp Float.one_pos)
    simp only [Res.bind'_ok, List.length_map, Float.div, F64.is_eq hd F64.is_zero, hne, decide_false, Bool.false_eq_true, if_false]
    refine ⟨_, rfl, F64.near_div hi hd ?_ hpos⟩
    exact Nat.le_trans (sum_natAbs _) hs

/-- DISTINCT changes nothing if there are no duplicates. -/
theorem avgLoop_distinct {text : Val → Res (List Char)} {f : Int → List Char} (hf : ∀ a b, f a = f b → a = b) (ht : ∀ z, text (.int z) = .ok (f z))
    (vs : List (Option Int)) : ∀ (seen : List (List Char)) (sum : Option F64), (vs.filterMap id).Nodup → (∀ z, some z ∈ vs → f z ∉ seen) →
    avgLoop true text seen sum (vs.map asVal) = avgLoop false text [] sum (vs.map asVal) := by
  induction vs with
  | nil => intro seen sum _ _; cases sum <;> rfl
  | cons v vs ih =>
    intro seen sum hn hs
    cases v with
    | none => simpa [avgLoop, asVal, Val.isNull] using ih seen sum (by simpa using hn) (fun z hz => hs z (by simp [hz]))
    | some z =>
      simp only [List.filterMap_cons, id, List.nodup_cons] at hn
      have h1 : f z ∉ seen := hs z (by simp)
      have h2 : ∀ y, some y ∈ vs → f y ∉ f z :: seen := by
        intro y hy hm
        rcases List.mem_cons.mp hm with h | h
        · have := hf _ _ h; subst this
          exact hn.1 (List.mem_filterMap.mpr ⟨some y, hy, rfl⟩)
        · exact hs y (by simp [hy]) h
      cases sum with
      | none => simpa [avgLoop, asVal, Val.isNull, avgArg, ht, h1] using ih (f z :: seen) _ hn.2 h2
      | some s => simpa [avgLoop, asVal, Val.isNull, avgArg, ht, h1, Float.add] using ih (f z :: seen) _ hn.2 h2

/-- C173, part: no NULLs in the frame and, under DISTINCT, no duplicates; or nothing but NULLs. -/
theorem C173_frame (text : Val → Res (List Char)) (ht : IntText text) (d : Bool) (vs : List (Option Int)) (hs : Small vs) (hl : vs.length ≤ 2 ^ 53)
    (h : vs.filterMap id = [] ∨ (∀ v ∈ vs, v ≠ none) ∧ (d = true → vs.Nodup)) :
    AvgSpec d vs (avgFrame d text (vs.map asVal)) := by
  have hnd : d = true → (vs.filterMap id).Nodup := by
    intro hd
    rcases h with h | h
    · rw [h]; exact .nil
    · have := h.2 hd
      rw [List.Nodup, List.pairwise_filterMap]
      refine this.imp ?_
      intro a b hab x hx y hy e
      simp only [id] at hx hy
      exact hab (by rw [hx, hy, e])
  have hd : avgFrame d text (vs.map asVal) = avgFrame false text (vs.map asVal) := by
    cases d with
    | false => rfl
    | true =>
      obtain ⟨f, hf, hft⟩ := ht
      unfold avgFrame
      rw [avgLoop_distinct hf hft vs [] none (hnd rfl) (by simp)]
  rw [hd]
  refine ⟨vs.filterMap id, ?_, ?_⟩
  · cases d with
    | false => rfl
    | true => exact ⟨hnd rfl, fun z => by simp [List.mem_filterMap]⟩
  · have h1 := avgFrame_eq text vs hs hl
    split at h1
    · rename_i h0; rw [if_pos h0]; exact h1
    · rename_i h0
      rw [if_neg h0]
      obtain ⟨x, hx, hn⟩ := h1
      refine ⟨x, hx, ?_⟩
      have hlen : (vs.filterMap id).length = vs.length := by
        have h2 := (h.resolve_left h0).1
        clear hs hl h hnd hd h0 hx hn
        induction vs with
        | nil => rfl
        | cons v vs ih =>
          cases v with
          | none => exact absurd rfl (h2 none (by simp))
          | some z => simp only [List.filterMap_cons, id, List.length_cons, ih (fun v hv => h2 v (by simp [hv]))]
      rw [hlen]; exact hn

/-- Under DISTINCT the loop adds every value once. -/
theorem avgLoop_once {text : Val → Res (List Char)} {f : Int → List Char} (hf : ∀ a b, f a = f b → a = b) (ht : ∀ z, text (.int z) = .ok (f z))
    (vs : List (Option Int)) : ∀ (seen : List (List Char)), ∃ us : List Int, us.Nodup ∧ (∀ z, z ∈ us ↔ some z ∈ vs ∧ f z ∉ seen) ∧
      (us.map Int.natAbs).sum ≤ ((vs.filterMap id).map Int.natAbs).sum ∧
      ∀ sum, avgLoop true text seen sum (vs.map asVal) = avgLoop false text [] sum ((us.map some).map asVal) := by
  induction vs with
  | nil => intro seen; exact ⟨[], .nil, by simp, by simp, fun sum => by cases sum <;> rfl⟩
  | cons v vs ih =>
    intro seen
    cases v with
    | none =>
      obtain ⟨us, h1, h2, h3, h4⟩ := ih seen
      exact ⟨us, h1, by simpa using h2, by simpa using h3, fun sum => by simpa [avgLoop, asVal, Val.isNull] using h4 sum⟩
    | some z =>
      by_cases hz : f z ∈ seen
      · obtain ⟨us, h1, h2, h3, h4⟩ := ih seen
        refine ⟨us, h1, ?_, ?_, ?_⟩
        · intro y
          rw [h2 y, List.mem_cons]
          constructor
          · rintro ⟨a, b⟩; exact ⟨.inr a, b⟩
          · rintro ⟨a | a, b⟩
            · injection a with a; subst a; exact absurd hz b
            · exact ⟨a, b⟩
        · simp only [List.filterMap_cons, id, List.map_cons, List.sum_cons]; omega
        · intro sum; simpa [avgLoop, asVal, Val.isNull, ht, hz] using h4 sum
      · obtain ⟨us, h1, h2, h3, h4⟩ := ih (f z :: seen)
        refine ⟨z :: us, List.nodup_cons.mpr ⟨?_, h1⟩, ?_, ?_, ?_⟩
        · intro hm; exact ((h2 z).mp hm).2 (by simp)
        · intro y
          simp only [List.mem_cons, h2 y]
          constructor
          · rintro (rfl | ⟨a, b⟩)
            · exact ⟨.inl rfl, hz⟩
            · exact ⟨.inr a, fun hm => b (.inr hm)⟩
          · rintro ⟨a | a, b⟩
            · injection a with a; exact .inl a
            · by_cases hyz : y = z
              · exact .inl hyz
              · refine .inr ⟨a, ?_⟩
                intro hm
                rcases hm with h | h
                · exact hyz (hf _ _ h)
                · exact b h
        · simp only [List.filterMap_cons, id, List.map_cons, List.sum_cons]; omega
        · intro sum
          cases sum with
          | none => simpa [avgLoop, asVal, Val.isNull, avgArg, ht, hz] using h4 _
          | some s => simpa [avgLoop, asVal, Val.isNull, avgArg, ht, hz, Float.add] using h4 _

/-- C173, what the code does with every frame: the sum is right, DISTINCT included, but it is divided by the
number of rows of the frame. -/
theorem C173_divisor (text : Val → Res (List Char)) (ht : IntText text) (d : Bool) (vs : List (Option Int)) (hs : Small vs) (hl : vs.length ≤ 2 ^ 53) :
    ∃ us : List Int, (if d then us.Nodup ∧ ∀ z, z ∈ us ↔ some z ∈ vs else us = vs.filterMap id) ∧
      if us = [] then avgFrame d text (vs.map asVal) = .ok none
      else ∃ x, avgFrame d text (vs.map asVal) = .ok (some x) ∧ Near (us.sum * F64.one) vs.length x := by
  cases d with
  | false => exact ⟨vs.filterMap id, rfl, avgFrame_eq text vs hs hl⟩
  | true =>
    obtain ⟨f, hf, hft⟩ := ht
    obtain ⟨us, h1, h2, h3, h4⟩ := avgLoop_once hf hft vs []
    refine ⟨us, ⟨h1, fun z => by simpa using h2 z⟩, ?_⟩
    have hf : (us.map some).filterMap id = us := by
      induction us with
      | nil => rfl
      | cons u us ih => simp
    have h := avgLoop_none text [] (us.map some) (by unfold Small at hs ⊢; rw [hf]; omega)
    rw [hf] at h
    unfold avgFrame
    rw [h4]
    split at h
    · rename_i h0
      rw [if_pos h0, h]; rfl
    · rename_i h0
      obtain ⟨t, ht, hi⟩ := h
      rw [if_neg h0, ht]
      have hpos : 0 < vs.length := by
        obtain ⟨u, hu⟩ := List.exists_mem_of_ne_nil _ h0
        exact List.length_pos_of_mem ((h2 u).mp hu).1
      have hd : Is (F64.ofInt (vs.length : Int)) ((vs.length : Int) * F64.one) := F64.is_ofInt (by omega)
      have hne : ((vs.length : Int) * F64.one) ≠ 0 := Int.mul_ne_zero (by omega) (by exact_mod_cast Nat.pos_iff_ne_zero.mp Float.one_pos)
      simp only [Res.bind'_ok, List.length_map, Float.div, F64.is_eq hd F64.is_zero, hne, decide_false, Bool.false_eq_true, if_false]
      refine ⟨_, rfl, F64.near_div hi hd ?_ hpos⟩
      unfold Small at hs
      exact Nat.le_trans (sum_natAbs _) (by omega)

theorem valueAt_eq {rows : List SRow} (hv : ∀ r ∈ rows, ∃ o, r.value = asVal o) (j : Nat) : valueAt rows j = asVal (intAt rows j) := by
  unfold intAt
  cases h : rows[j]? with
  | none => simp [valueAt, h, asVal]
  | some r =>
    obtain ⟨o, ho⟩ := hv r (List.mem_of_getElem? h)
    cases o <;> simp [valueAt, h, ho, asVal]

theorem frame_length (W : List Nat) (b e : Boundary) (i : Int) : (rowsFrame W b e i).length ≤ W.length := by
  unfold rowsFrame
  rw [List.length_map]
  exact Nat.le_trans (List.length_filter_le _ _) (by simp)

/-- The same over the rows of a query. -/
theorem C173_partial (S : Sorter) (text : Val → Res (List Char)) (ht : IntText text) (flags : List Bool) (rows : List SRow)
    (hg : GoodParts text rows) (hk : GoodKeys flags rows) (hv : ∀ r ∈ rows, ∃ o, r.value = asVal o) (hn : rows.length ≤ 2 ^ 53)
    (p : List (Option Scalar)) :
    ∃ W, WindowOrder flags rows p W ∧
      ∀ (b e : Boundary), Grammatical b e → ∀ (d : Bool) (i j : Nat), W[i]? = some j → ¬ Reversed W.length i b e →
        Small ((rowsFrame W b e i).map (intAt rows)) →
        (((rowsFrame W b e i).map (intAt rows)).filterMap id = [] ∨
          (∀ v ∈ (rowsFrame W b e i).map (intAt rows), v ≠ none) ∧ (d = true → ((rowsFrame W b e i).map (intAt rows)).Nodup)) →
        AvgSpec d ((rowsFrame W b e i).map (intAt rows)) (winAvg d S text .rows b e (input flags rows) ((j : Int) + 1)) := by
  refine ⟨windowOrder S flags rows p, windowOrder_ok S hk p, ?_⟩
  intro b e hge d i j h ho hs hh
  obtain ⟨r, hr, rfl⟩ := mem_windowOrder.mp (List.mem_of_getElem? h)
  unfold winAvg
  rw [(rows_exact S hg hge h).2 ho, Res.bind'_ok]
  have : (rowsFrame (windowOrder S flags rows r.parts) b e i).map (valueAt rows)
      = ((rowsFrame (windowOrder S flags rows r.parts) b e i).map (intAt rows)).map asVal := by
    rw [List.map_map]; exact List.map_congr_left fun j _ => valueAt_eq hv j
  rw [this]
  refine C173_frame text ht d _ hs ?_ hh
  rw [List.length_map]
  exact Nat.le_trans (frame_length _ _ _ _) (Nat.le_trans (order_length _ _ _ _) hn)

/-- The mean of NULL and 2 is 2, the code answers 1. -/
theorem C173_null (text : Val → Res (List Char)) : avgFrame false text [.null, .int 2] = .ok (some (.fin false F64.one)) := by
  have e1 : (F64.ofInt 2).eq (.fin false 0) = false := by decide +kernel
  have e2 : (F64.ofInt 2).div (F64.ofInt 2) = .fin false F64.one := by decide +kernel
  simp only [avgFrame, avgLoop, Val.isNull, avgArg, if_true, if_false, Bool.false_eq_true, Res.bind'_ok, List.length_cons, List.length_nil, Float.div]
  have e3 : (((0 + 1 + 1 : Nat)) : Int) = 2 := rfl
  rw [e3, e1, e2]
  simp

theorem frame_all (W : List Nat) (i : Int) : rowsFrame W .unboundedPreceding .unboundedFollowing i = W := by
  unfold rowsFrame
  have : (W.zipIdx.filter fun q => decide (lowerOk i q.2 .unboundedPreceding ∧ upperOk i q.2 .unboundedFollowing)) = W.zipIdx := by
    rw [List.filter_eq_self]; intro q _; simp [lowerOk, upperOk]
  rw [this]; simp

theorem C173_full_false (S : Sorter) (text : Val → Res (List Char)) : ¬ C173_full S text := by
  intro h
  let rows : List SRow := [⟨[], [], .null⟩, ⟨[], [], .int 2⟩]
  have hg : GoodParts text rows := .inl (by simp [rows])
  have hk : GoodKeys [] rows := ⟨by simp [rows], by simp [rows], fun r hr s hs => by
    simp [rows] at hr hs; rcases hr with rfl | rfl <;> rcases hs with rfl | rfl <;> exact .nil⟩
  have hv : ∀ r ∈ rows, ∃ o, r.value = asVal o := by
    intro r hr; simp [rows] at hr
    rcases hr with rfl | rfl
    · exact ⟨none, rfl⟩
    · exact ⟨some 2, rfl⟩
  obtain ⟨W, hW, h⟩ := h [] rows hg hk hv (by decide) []
  have hm : members rows [] = [0, 1] := by decide
  -- any order of the two rows has the same values
  have perm : ∀ V : List Nat, V.Perm (members rows []) → (V.map (intAt rows)).filterMap id = [2] ∧ V.length = 2 := by
    intro V hV
    rw [hm] at hV
    have h1 := (hV.map (intAt rows)).filterMap id
    have h2 : ([0, 1].map (intAt rows)).filterMap id = [2] := rfl
    rw [h2, List.perm_singleton] at h1
    exact ⟨h1, hV.length_eq⟩
  have hge : Grammatical .unboundedPreceding .unboundedFollowing := ⟨by simp, by simp⟩
  have ho : Ordered .unboundedPreceding .unboundedFollowing := by intro x y hx; simp [offset] at hx
  obtain ⟨j, hj⟩ : ∃ j, W[0]? = some j := ⟨_, List.getElem?_eq_getElem (by rw [(perm W hW.perm).2]; decide)⟩
  have hs : Small ((rowsFrame W .unboundedPreceding .unboundedFollowing (0 : Nat)).map (intAt rows)) := by
    rw [frame_all]; unfold Small; rw [(perm W hW.perm).1]; decide
  obtain ⟨us, hus, hspec⟩ := h _ _ hge ho false 0 j hj hs
  rw [frame_all] at hus
  simp only [Bool.false_eq_true, if_false] at hus
  rw [(perm W hW.perm).1] at hus
  subst hus
  simp only [if_neg (List.cons_ne_nil _ _)] at hspec
  obtain ⟨x, hx, hnear⟩ := hspec
  -- what the code computes
  obtain ⟨r, hr, hrp⟩ : ∃ r, rows[j]? = some r ∧ r.parts = [] := mem_members.mp (hW.perm.mem_iff.mp (List.mem_of_getElem? hj))
  have hjo : j ∈ windowOrder S [] rows r.parts := mem_windowOrder.mpr ⟨r, hr, rfl⟩
  obtain ⟨i, hi⟩ := List.getElem?_of_mem hjo
  unfold winAvg at hx
  rw [rows_frame hg hr hi hge ho, Res.bind'_ok, frame_all, hrp] at hx
  have hp2 := perm _ (windowOrder_perm S [] rows [])
  have hmap : (windowOrder S [] rows []).map (valueAt rows) = ((windowOrder S [] rows []).map (intAt rows)).map asVal := by
    rw [List.map_map]; exact List.map_congr_left fun j _ => valueAt_eq hv j
  rw [hmap] at hx
  have h2 := avgFrame_eq text ((windowOrder S [] rows []).map (intAt rows)) (by unfold Small; rw [hp2.1]; decide +kernel)
    (by rw [List.length_map, hp2.2]; decide)
  rw [hp2.1, if_neg (List.cons_ne_nil _ _), List.length_map, hp2.2, hx] at h2
  obtain ⟨y, hy, hnear'⟩ := h2
  injection hy with hy
  injection hy with hy
  subst hy
  cases x with
  | fin s k =>
    have a1 := hnear.2 false 1 1075 (by decide)
    have a2 := hnear'.2 false 1 1074 (by decide)
    have e1 : ((([2] : List Int).sum * F64.one) - (([(2 : Int)].length : Nat) : Int) * F64.sval false (1 * 2 ^ 1075)).natAbs = 0 := by decide +kernel
    have e2 : ((([2] : List Int).sum * F64.one) - ((2 : Nat) : Int) * F64.sval false (1 * 2 ^ 1074)).natAbs = 0 := by decide +kernel
    rw [e1] at a1
    rw [e2] at a2
    have e3 : ([2] : List Int).sum = 2 := rfl
    have e4 : [(2 : Int)].length = 1 := rfl
    rw [e3, e4] at a1
    rw [e3] at a2
    have hp : (0 : Int) < F64.one := by exact_mod_cast Float.one_pos
    generalize (F64.one : Int) = L at *
    omega
  | inf s => exact hnear
  | nan => exact hnear

/-- A frame that meets the hypotheses. -/
example : Small [some 3, some (-4), some 9] ∧ (∀ v ∈ [some 3, some (-4), some (9 : Int)], v ≠ none) ∧ [some 3, some (-4), some (9 : Int)].Nodup := by
  refine ⟨by unfold Small; decide +kernel, by decide, by decide⟩

theorem intText (other : Val → Res (List Char)) : IntText (toText other) := ⟨decInt, fun _ _ => decInt_injective, fun _ => rfl⟩

end Verif.WindowStat
