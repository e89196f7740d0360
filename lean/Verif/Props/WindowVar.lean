import Verif.Props.WindowText

/-! # C207 and C208: variance and covariance as analytic functions -/

namespace Verif.WindowAgg

open Go Verif.Val Verif.Aggregate Verif.Window Verif.Sql
open Verif.Approx (popCov sampCov sumX sumY sumXY)

/-! ## C207: VAR_POP and VAR_SAMP over a frame -/

/-- A number, as a rational. -/
def number : Val → Option Rat
  | .int i => some i
  | .num r _ => some r
  | _ => none

/-- Numbers and NULLs. -/
def NumColumn (vs : List Val) : Prop := ∀ v ∈ vs, v = .null ∨ ∃ x, number v = some x

/-- The pairs (x, x) of the numbers that are not NULL. -/
def doubled (vs : List Val) : List (Rat × Rat) := (vs.filterMap number).map fun x => (x, x)

/-- The population or sample variance of the values of a frame, NULLs ignored. -/
def VarSpec (pop : Bool) (vs : List Val) (out : Res (Option Rat)) : Prop :=
  out = .ok (if pop then popCov (doubled vs) else sampCov (doubled vs))

/-- **C207** in full: every ROWS frame with bounds in order. -/
def C207_full (S : Sorter) (text : Val → Res (List Char)) : Prop :=
  ∀ flags rows, GoodParts text rows → GoodKeys flags rows → NumColumn (rows.map SRow.value) →
    ∀ p, ∃ W, WindowOrder flags rows p W ∧ ∀ (b e : Boundary), Grammatical b e → Ordered b e →
      ∀ (pop : Bool) (i j : Nat), W[i]? = some j →
        VarSpec pop (vals rows W b e i) (winVar pop S text .rows b e (input flags rows) ((j : Int) + 1))

theorem toRat_number {v : Val} {x : Rat} (h : number v = some x) : toRat v = .ok x := by
  cases v <;> simp_all [number, toRat]

theorem floats_ok {vs : List Val} (h : NumColumn vs) (hn : ∀ v ∈ vs, v.isNull = false) : floats vs = .ok (vs.filterMap number) := by
  induction vs with
  | nil => rfl
  | cons v vs ih =>
    have h1 := ih (fun v hv => h v (List.mem_cons_of_mem _ hv)) (fun v hv => hn v (List.mem_cons_of_mem _ hv))
    rcases h v List.mem_cons_self with rfl | ⟨x, hx⟩
    · have := hn .null List.mem_cons_self; simp at this
    · rw [floats, toRat_number hx, Res.bind'_ok, h1, Res.bind'_ok, List.filterMap_cons_some hx]

theorem floats_panic {vs : List Val} (h : NumColumn vs) (hn : ∃ v ∈ vs, v.isNull = true) : floats vs = .panic := by
  induction vs with
  | nil => simp at hn
  | cons v vs ih =>
    rcases h v List.mem_cons_self with rfl | ⟨x, hx⟩
    · rfl
    · rw [floats, toRat_number hx, Res.bind'_ok, ih (fun v hv => h v (List.mem_cons_of_mem _ hv)) ?_]
      · rfl
      · obtain ⟨w, hw, hwn⟩ := hn
        rcases List.mem_cons.mp hw with rfl | hw
        · cases w <;> simp_all [number, Val.isNull]
        · exact ⟨w, hw, hwn⟩

/-- The frame's values, and the size of the partition, determine the variance. -/
theorem winVar_eq {S : Sorter} {text} {flags} {rows : List SRow} (hg : GoodParts text rows) {cur : Nat} {r : SRow}
    (hc : rows[cur]? = some r) {pop u b e} {vs : List Val} (hf : frameValues S text u b e (input flags rows) ((cur : Int) + 1) = .ok vs)
    {s t : Int} (hs : boundaryIndex u (sortedRows S flags rows r.parts) cur (r.row flags) b = .ok s)
    (ht : boundaryIndex u (sortedRows S flags rows r.parts) cur (r.row flags) e = .ok t) :
    winVar pop S text u b e (input flags rows) ((cur : Int) + 1) =
      if (windowOrder S flags rows r.parts).length < 2 then .ok none
      else (floats vs).bind fun xs => .ok (if xs = [] then none else if pop then Approx.popVariance xs else Approx.variance xs) := by
  have hlen : (windowOrder S flags rows r.parts).length = (sortedRows S flags rows r.parts).length := by simp [windowOrder]
  unfold winVar
  unfold frameValues frame at hf
  rw [done_eq hg hc, hs, ht] at hf ⊢
  simp only [Res.bind'_ok] at hf ⊢
  split
  · rename_i h1
    rw [if_pos h1] at hf
    simp only [Res.bind'_ok, List.map_nil, Res.ok.injEq] at hf ⊢
    subst hf
    rw [floats, Res.bind'_ok]
    simp
  · rename_i h1
    rw [if_neg h1] at hf
    simp only [Res.bind'_ok] at hf ⊢
    rw [hlen]
    split
    · rfl
    · cases hsl : slice (sortedRows S flags rows r.parts) (if s < 0 then 0 else s)
          (if t ≥ (sortedRows S flags rows r.parts).length then ((sortedRows S flags rows r.parts).length : Int) - 1 else t) with
      | ok qs => rw [hsl] at hf; simp only [Res.bind'_ok, Res.ok.injEq] at hf ⊢; rw [hf]
      | err => rw [hsl] at hf; cases hf
      | panic => rw [hsl] at hf; cases hf

theorem rows_index {S : Sorter} {flags} {rows : List SRow} {cur : Nat} {r : SRow} {i : Nat}
    (hi : (windowOrder S flags rows r.parts)[i]? = some cur) (b : Boundary) :
    ∃ s, boundaryIndex .rows (sortedRows S flags rows r.parts) cur (r.row flags) b = .ok s := by
  have hcur := currentIndex_eq hi
  cases b <;> simp [boundaryIndex, rowsIndex, hcur]

theorem variance_eq (xs : List Rat) : (if xs = [] then none else Approx.variance xs) = sampCov (xs.map fun x => (x, x)) := by
  have := (Approx.C186 [] (xs.map some)).2.1
  simpa [Approx.varSamp, List.filterMap_map] using this

theorem popVariance_eq (xs : List Rat) : (if xs = [] then none else Approx.popVariance xs) = popCov (xs.map fun x => (x, x)) := by
  have := (Approx.C186 [] (xs.map some)).2.2
  simpa [Approx.varPop, List.filterMap_map] using this

/-- **C207**, the part that holds: exactly if the frame has no NULL, and for VAR_POP the partition is not a single
row with a value; a partition of one row gives NULL, a NULL in the frame of a larger one a panic. -/
theorem C207_partial (S : Sorter) (text : Val → Res (List Char)) (flags : List Bool) (rows : List SRow)
    (hg : GoodParts text rows) (hk : GoodKeys flags rows) (hc : NumColumn (rows.map SRow.value)) (p : List (Option Scalar)) :
    ∃ W, WindowOrder flags rows p W ∧ ∀ (b e : Boundary), Grammatical b e →
      ∀ (pop : Bool) (i j : Nat), W[i]? = some j → ¬ Reversed W.length i b e →
        (W.length = 1 → winVar pop S text .rows b e (input flags rows) ((j : Int) + 1) = .ok none) ∧
        (2 ≤ W.length → (∃ v ∈ vals rows W b e i, v = .null) →
          winVar pop S text .rows b e (input flags rows) ((j : Int) + 1) = .panic) ∧
        (VarSpec pop (vals rows W b e i) (winVar pop S text .rows b e (input flags rows) ((j : Int) + 1)) ↔
          if W.length = 1 then pop = true → ∀ v ∈ vals rows W b e i, v = .null
          else ∀ v ∈ vals rows W b e i, v ≠ .null) := by
  have hW := windowOrder_ok S hk p
  refine ⟨windowOrder S flags rows p, hW, ?_⟩
  intro b e hge pop i j h ho
  have hnum : NumColumn (vals rows (windowOrder S flags rows p) b e i) := fun v hv => hc v (vals_mem hW hv)
  have hvl : (vals rows (windowOrder S flags rows p) b e i).length ≤ (windowOrder S flags rows p).length := by
    unfold vals rowsFrame
    rw [List.length_map, List.length_map]
    exact Nat.le_trans (List.length_filter_le _ _) (by simp)
  have hpos : 0 < (windowOrder S flags rows p).length := by have := (List.getElem?_eq_some_iff.mp h).1; omega
  obtain ⟨r, hr, rfl⟩ := mem_windowOrder.mp (List.mem_of_getElem? h)
  have hf := (rows_exact S hg hge h).2 ho
  rw [← vals] at hf
  obtain ⟨s, hs⟩ := rows_index h b
  obtain ⟨t, ht⟩ := rows_index h e
  have hval := winVar_eq (pop := pop) hg hr hf hs ht
  generalize hvs : vals rows (windowOrder S flags rows r.parts) b e i = vs at *
  generalize hwl : (windowOrder S flags rows r.parts).length = n at *
  have hnull : ∀ v : Val, v.isNull = true ↔ v = .null := by intro v; cases v <;> simp [Val.isNull]
  refine ⟨fun h1 => by rw [hval, if_pos (by omega)], fun h2 ⟨v, hv, hvn⟩ => ?_, ?_⟩
  · rw [hval, if_neg (by omega), floats_panic hnum ⟨v, hv, by rw [hvn]; rfl⟩]; rfl
  · by_cases h1 : n = 1
    · rw [if_pos h1, hval, if_pos (by omega)]
      unfold VarSpec
      rcases vs with _ | ⟨v, vs⟩
      · cases pop <;> simp [doubled, popCov, sampCov]
      · have : vs = [] := by
          rw [List.length_cons] at hvl
          exact List.length_eq_zero_iff.mp (by omega)
        subst this
        rcases hnum v List.mem_cons_self with rfl | ⟨x, hx⟩
        · have hd : doubled [Val.null] = [] := rfl
          cases pop <;> simp [hd, popCov, sampCov]
        · have hvn : v ≠ .null := by rintro rfl; simp [number] at hx
          have hd : doubled [v] = [(x, x)] := by unfold doubled; rw [List.filterMap_cons_some hx]; rfl
          cases pop <;> simp [hd, popCov, sampCov, hvn]
    · rw [if_neg h1, hval, if_neg (by omega)]
      by_cases hn : ∀ v ∈ vs, v.isNull = false
      · rw [floats_ok hnum hn, Res.bind'_ok]
        have hR : ∀ v ∈ vs, v ≠ .null := fun v hv h => by rw [h] at hv; have := hn _ hv; simp at this
        refine iff_of_true ?_ hR
        unfold VarSpec doubled
        cases pop
        · simp only [Bool.false_eq_true, if_false]; rw [variance_eq]
        · simp only [if_true]; rw [popVariance_eq]
      · have hex : ∃ v ∈ vs, v.isNull = true := by
          simp only [Classical.not_forall] at hn
          obtain ⟨v, hv, hvn⟩ := hn
          exact ⟨v, hv, by simpa using hvn⟩
        rw [floats_panic hnum hex]
        refine iff_of_false (by intro h; cases h) ?_
        obtain ⟨v, hv, hvn⟩ := hex
        exact fun h => h v hv ((hnull v).mp hvn)

/-- VAR_SAMP over a frame with a NULL panics. -/
theorem C207_full_false (S : Sorter) (text : Val → Res (List Char)) : ¬ C207_full S text := by
  intro h
  obtain ⟨hg, hk⟩ := four_good text .null
  have hc : NumColumn ((four .null).map SRow.value) := by simp [four, NumColumn]
  obtain ⟨W, hW, h⟩ := h [] (four .null) hg hk hc []
  obtain ⟨W', hW', h'⟩ := C207_partial S text [] (four .null) hg hk hc []
  have hlen : W.length = 4 := by rw [hW.perm.length_eq]; rfl
  have hlen' : W'.length = 4 := by rw [hW'.perm.length_eq]; rfl
  obtain ⟨j, hj⟩ : ∃ j, W[0]? = some j := ⟨_, List.getElem?_eq_getElem (by omega)⟩
  have hj' : j ∈ W' := hW'.perm.mem_iff.mpr (hW.perm.mem_iff.mp (List.mem_of_getElem? hj))
  obtain ⟨i, hi⟩ := List.getElem?_of_mem hj'
  have ho : Ordered .unboundedPreceding .unboundedFollowing := by intro x y hx; cases hx
  have h1 := h .unboundedPreceding .unboundedFollowing ⟨by simp, by simp⟩ ho false 0 j hj
  have h2 := (h' .unboundedPreceding .unboundedFollowing ⟨by simp, by simp⟩ false i j hi (by rintro ⟨x, _, hx, _⟩; cases hx)).2.1 (by omega)
  have hin : valueAt (four .null) j ∈ vals (four .null) W' .unboundedPreceding .unboundedFollowing i := by
    unfold vals rowsFrame
    rw [List.filter_eq_self.mpr (by intro q _; simp [lowerOk, upperOk])]
    simp only [List.zipIdx_map_fst]
    exact List.mem_map_of_mem hj'
  have hv : valueAt (four .null) j = .null := by
    obtain ⟨r, hr, _⟩ := mem_members.mp (hW'.perm.mem_iff.mp hj')
    have : r ∈ four .null := List.mem_of_getElem? hr
    simp [four] at this
    simp [valueAt, hr, this]
  rw [h2 ⟨_, hin, hv⟩] at h1
  cases h1

example : floats [.int 1, .num (5/2) false] = .ok [1, 5/2] := by rfl

/-! ## C208: COVAR_SAMP over a frame -/

/-- The rows of a call with two arguments; the second one is beside the row. -/
abbrev PSRow := SRow × Val

/-- What reaches the aggregator. -/
def pairInput (flags : List Bool) (rows : List PSRow) : List PRow := rows.map fun r => (r.1.row flags, r.2)

/-- The pair of arguments of row `j`, if neither is NULL. -/
def pairAt (rows : List PSRow) (j : Nat) : Option (Rat × Rat) :=
  rows[j]?.bind fun r => (number r.1.value).bind fun x => (number r.2).map fun y => (x, y)

/-- Both arguments are numbers or NULL. -/
def PairColumn (rows : List PSRow) : Prop := ∀ r ∈ rows, (r.1.value = .null ∨ ∃ x, number r.1.value = some x) ∧ (r.2 = .null ∨ ∃ y, number r.2 = some y)

/-- COVAR_SAMP over the frame `b … e`. -/
def CovarSpec (rows : List PSRow) (W : List Nat) (b e : Boundary) (i : Nat) (out : Res (Option Rat)) : Prop :=
  out = .ok (sampCov ((rowsFrame W b e i).filterMap (pairAt rows)))

/-- **C208** in full: every ROWS frame with bounds in order. -/
def C208_full (S : Sorter) (text : Val → Res (List Char)) : Prop :=
  ∀ flags (rows : List PSRow), GoodParts text (rows.map Prod.fst) → GoodKeys flags (rows.map Prod.fst) → PairColumn rows →
    ∀ p, ∃ W, WindowOrder flags (rows.map Prod.fst) p W ∧ ∀ (b e : Boundary), Grammatical b e → Ordered b e →
      ∀ (i j : Nat), W[i]? = some j →
        CovarSpec rows W b e i (winCovar S text .rows b e (pairInput flags rows) ((j : Int) + 1))

/-- A row that never reached the aggregator shifts the numbers of those after it: with a NULL in the first of two rows,
the second is looked up at an index that does not exist. -/
theorem C208_skipped (S : Sorter) (text : Val → Res (List Char)) :
    winCovar S text .rows .unboundedPreceding .current (pairInput [] [(⟨[], [], .null⟩, .int 1), (⟨[], [], .int 1⟩, .int 1)]) 2 = .panic := by
  rfl

theorem C208_full_false (S : Sorter) (text : Val → Res (List Char)) : ¬ C208_full S text := by
  intro h
  let rows : List PSRow := [(⟨[], [], .null⟩, .int 1), (⟨[], [], .int 1⟩, .int 1)]
  have hp : PairColumn rows := by intro r hr; simp [rows] at hr; rcases hr with rfl | rfl <;> simp [number]
  obtain ⟨W, hW, h⟩ := h [] rows (.inl (by simp [rows])) ⟨by simp [rows], by simp [rows], fun r hr s hs => by
    simp [rows] at hr hs
    rcases hr with rfl | rfl <;> rcases hs with rfl | rfl <;> exact .nil⟩ hp []
  have hmem : 1 ∈ W := hW.perm.mem_iff.mpr (mem_members.mpr ⟨_, rfl, rfl⟩)
  obtain ⟨i, hi⟩ := List.getElem?_of_mem hmem
  have := h .unboundedPreceding .current ⟨by simp, by simp⟩ (by intro x y hx; cases hx) i 1 hi
  rw [show ((1 : Nat) : Int) + 1 = 2 from rfl, C208_skipped S text] at this
  cases this

/-- The row with both arguments as its value. -/
def both (r : PSRow) : SRow := { r.1 with value := .arr [r.1.value, r.2] }

theorem pairRows_all (flags : List Bool) (rows : List PSRow) (hn : ∀ r ∈ rows, r.1.value.isNull = false ∧ r.2.isNull = false) :
    pairRows (pairInput flags rows) = input flags (rows.map both) := by
  induction rows with
  | nil => rfl
  | cons r rows ih =>
    have h := hn r List.mem_cons_self
    have ih := ih fun r hr => hn r (List.mem_cons_of_mem _ hr)
    unfold pairRows pairInput input at *
    rw [List.map_cons, List.map_cons, List.map_cons]
    rw [List.filterMap_cons_some (b := (both r).row flags)]
    · rw [ih]
    · have : (r.1.row flags).value = r.1.value := rfl
      simp only [this, h.1, h.2, Bool.or_self, Bool.false_eq_true, if_false]
      rfl

theorem goodParts_congr {text} {rows rows' : List SRow} (h : rows.map SRow.parts = rows'.map SRow.parts) (hg : GoodParts text rows) :
    GoodParts text rows' := by
  have hm : ∀ r ∈ rows', ∃ s ∈ rows, s.parts = r.parts := by
    intro r hr
    have : r.parts ∈ rows.map SRow.parts := by rw [h]; exact List.mem_map_of_mem hr
    obtain ⟨s, hs, he⟩ := List.mem_map.mp this
    exact ⟨s, hs, he⟩
  rcases hg with hg | ⟨key, h1, h2⟩
  · exact .inl fun r hr => by obtain ⟨s, hs, he⟩ := hm r hr; rw [← he]; exact hg s hs
  · refine .inr ⟨key, fun r hr => ?_, fun r hr s hs => ?_⟩
    · obtain ⟨s, hs, he⟩ := hm r hr; rw [← he]; exact h1 s hs
    · obtain ⟨r', hr', he⟩ := hm r hr
      obtain ⟨s', hs', he'⟩ := hm s hs
      rw [← he, ← he']; exact h2 _ hr' _ hs'

theorem pairFloats_ok (rows : List PSRow) (js : List Nat) (h : ∀ j ∈ js, ∃ q, pairAt rows j = some q) :
    pairFloats (js.map (valueAt (rows.map both))) = .ok (js.filterMap (pairAt rows)) := by
  induction js with
  | nil => rfl
  | cons j js ih =>
    obtain ⟨q, hq⟩ := h j List.mem_cons_self
    have ih := ih fun j hj => h j (List.mem_cons_of_mem _ hj)
    rw [List.filterMap_cons_some hq, List.map_cons]
    unfold pairAt at hq
    cases hr : rows[j]? with
    | none => rw [hr] at hq; cases hq
    | some r =>
      rw [hr] at hq
      simp only [Option.bind_some, Option.bind_eq_some_iff, Option.map_eq_some_iff] at hq
      obtain ⟨x, hx, y, hy, rfl⟩ := hq
      have hv : valueAt (rows.map both) j = .arr [r.1.value, r.2] := by simp [valueAt, hr, both]
      rw [hv, pairFloats]
      simp only [pairOf, toRat_number hx, toRat_number hy, Res.bind'_ok, ih]

theorem covariance_none (ps : List (Rat × Rat)) : (if ps = [] then none else Approx.covariance ps) = sampCov ps := by
  by_cases h : ps = []
  · simp [h, sampCov]
  · rw [if_neg h, Approx.covariance_eq h]

/-- `Done` when the current row exists. -/
theorem doneSkip_eq {S : Sorter} {text u b e} {rows : List WRow} {cur : Nat} {r : WRow} (hc : rows[cur]? = some r) :
    doneSkip S text u b e rows ((cur : Int) + 1) = Window.done S text u b e rows ((cur : Int) + 1) := by
  have hne : rows ≠ [] := by rintro rfl; simp at hc
  have e1 : ((cur : Int) + 1 - 1).toNat = cur := by omega
  have hb : ∀ (sorted : List IRow) (b : Boundary), boundaryOf u sorted rows cur b = boundaryIndex u sorted cur r b := by
    intro sorted b
    cases u <;> cases b <;> simp [boundaryOf, boundaryIndex, rowsIndex, rangeIndex, hc]
  unfold doneSkip Window.done
  rw [if_neg (by simp [hne]), if_neg (by omega), e1, hc]
  simp only [hb]

/-- A function of the pairs of the frame that is NULL for a single pair: without NULLs in the input. -/
theorem winPair_frame {β} (stat : List (Rat × Rat) → Option β) (hst : ∀ q, stat [q] = none) (S : Sorter) (text : Val → Res (List Char)) (flags : List Bool)
    (rows : List PSRow) (hg : GoodParts text (rows.map Prod.fst)) (hk : GoodKeys flags (rows.map Prod.fst)) (hp : PairColumn rows)
    (hn : ∀ r ∈ rows, r.1.value ≠ .null ∧ r.2 ≠ .null) (p : List (Option Scalar)) :
    ∃ W, WindowOrder flags (rows.map Prod.fst) p W ∧ ∀ (b e : Boundary), Grammatical b e →
      ∀ (i j : Nat), W[i]? = some j → ¬ Reversed W.length i b e →
        winPair stat S text .rows b e (pairInput flags rows) ((j : Int) + 1) =
          .ok (if (rowsFrame W b e i).filterMap (pairAt rows) = [] then none else stat ((rowsFrame W b e i).filterMap (pairAt rows))) := by
  have hnull : ∀ v : Val, v ≠ .null → v.isNull = false := by intro v; cases v <;> simp [Val.isNull]
  have hin := pairRows_all flags rows fun r hr => ⟨hnull _ (hn r hr).1, hnull _ (hn r hr).2⟩
  have hparts : (rows.map Prod.fst).map SRow.parts = (rows.map both).map SRow.parts := by
    rw [List.map_map, List.map_map]; rfl
  have hg' := goodParts_congr hparts hg
  have hk' : GoodKeys flags (rows.map both) := by
    have hm : ∀ r ∈ rows.map both, ∃ s ∈ rows.map Prod.fst, s.keys = r.keys := by
      intro r hr; obtain ⟨q, hq, rfl⟩ := List.mem_map.mp hr; exact ⟨q.1, List.mem_map_of_mem hq, rfl⟩
    refine ⟨fun r hr => ?_, fun r hr => ?_, fun r hr s hs => ?_⟩
    · obtain ⟨s, hs, he⟩ := hm r hr; rw [← he]; exact hk.1 s hs
    · obtain ⟨s, hs, he⟩ := hm r hr; rw [← he]; exact hk.2 s hs
    · obtain ⟨r', hr', he⟩ := hm r hr
      obtain ⟨s', hs', he'⟩ := hm s hs
      rw [← he, ← he']; exact hk.3 _ hr' _ hs'
  have hget : ∀ j : Nat, (rows.map both)[j]?.map SRow.parts = (rows.map Prod.fst)[j]?.map SRow.parts := by
    intro j; simp only [List.getElem?_map, Option.map_map]; rfl
  have hW' := windowOrder_ok S hk' p
  have hW : WindowOrder flags (rows.map Prod.fst) p (windowOrder S flags (rows.map both) p) := by
    refine ⟨?_, ?_⟩
    · have : members (rows.map Prod.fst) p = members (rows.map both) p := by
        unfold members
        simp only [hget, List.length_map]
      rw [this]; exact hW'.perm
    · refine hW'.sorted.imp ?_
      intro i j hij r s hr hs
      rw [List.getElem?_map] at hr hs
      cases hi : rows[i]? with
      | none => rw [hi] at hr; cases hr
      | some r' =>
        cases hj : rows[j]? with
        | none => rw [hj] at hs; cases hs
        | some s' =>
          rw [hi] at hr; rw [hj] at hs
          injection hr with hr; injection hs with hs
          subst hr hs
          exact hij (both r') (both s') (by simp [hi]) (by simp [hj])
  refine ⟨_, hW, ?_⟩
  intro b e hge i j h ho
  obtain ⟨r, hr, rfl⟩ := mem_windowOrder.mp (List.mem_of_getElem? h)
  have hf := (rows_exact S hg' hge h).2 ho
  obtain ⟨s, hs⟩ := rows_index h b
  obtain ⟨t, ht⟩ := rows_index h e
  have hcur : (input flags (rows.map both))[j]? = some (r.row flags) := by unfold input; rw [List.getElem?_map, hr]; rfl
  have hpairs : ∀ j ∈ rowsFrame (windowOrder S flags (rows.map both) r.parts) b e i, ∃ q, pairAt rows j = some q := by
    intro k hk
    have hkW : k ∈ windowOrder S flags (rows.map both) r.parts := by
      unfold rowsFrame at hk
      simp only [List.mem_map, List.mem_filter] at hk
      obtain ⟨⟨k', m⟩, ⟨hq, _⟩, rfl⟩ := hk
      exact List.mem_of_getElem? (List.mem_zipIdx_iff_getElem?.mp hq)
    obtain ⟨x, hx, _⟩ := mem_windowOrder.mp hkW
    rw [List.getElem?_map] at hx
    cases hk : rows[k]? with
    | none => rw [hk] at hx; cases hx
    | some y =>
      have hy := List.mem_of_getElem? hk
      obtain ⟨a, ha⟩ := (hp y hy).1.resolve_left (hn y hy).1
      obtain ⟨c, hc⟩ := (hp y hy).2.resolve_left (hn y hy).2
      exact ⟨(a, c), by simp [pairAt, hk, ha, hc]⟩
  have hfl := pairFloats_ok rows _ hpairs
  unfold winPair
  rw [hin, doneSkip_eq hcur]
  unfold frameValues frame at hf
  have hlen : (windowOrder S flags (rows.map both) r.parts).length = (sortedRows S flags (rows.map both) r.parts).length := by simp [windowOrder]
  have hfl2 : ((rowsFrame (windowOrder S flags (rows.map both) r.parts) b e i).filterMap (pairAt rows)).length ≤
      (windowOrder S flags (rows.map both) r.parts).length := by
    refine Nat.le_trans (List.length_filterMap_le _ _) ?_
    unfold rowsFrame
    rw [List.length_map]
    exact Nat.le_trans (List.length_filter_le _ _) (by simp)
  rw [done_eq hg' hr, hs, ht] at hf ⊢
  simp only [Res.bind'_ok] at hf ⊢
  generalize rowsFrame (windowOrder S flags (rows.map both) r.parts) b e i = fr at *
  split
  · rename_i h1
    rw [if_pos h1] at hf
    simp only [Res.bind'_ok, List.map_nil, Res.ok.injEq] at hf ⊢
    have : fr = [] := List.map_eq_nil_iff.mp hf.symm
    rw [this]; rfl
  · rename_i h1
    rw [if_neg h1] at hf
    simp only [Res.bind'_ok] at hf ⊢
    split
    · rename_i h2
      have h3 : (fr.filterMap (pairAt rows)).length < 2 := by omega
      match fr.filterMap (pairAt rows), h3 with
      | [], _ => rfl
      | [q], _ => rw [if_neg (by simp), hst]
    · cases hsl : slice (sortedRows S flags (rows.map both) r.parts) (if s < 0 then 0 else s)
          (if t ≥ (sortedRows S flags (rows.map both) r.parts).length then ((sortedRows S flags (rows.map both) r.parts).length : Int) - 1 else t) with
      | ok qs =>
        rw [hsl] at hf
        simp only [Res.bind'_ok, Res.ok.injEq] at hf ⊢
        rw [hf, hfl, Res.bind'_ok]
      | err => rw [hsl] at hf; cases hf
      | panic => rw [hsl] at hf; cases hf

/-- **C208**, the part that holds: without NULLs in the input. -/
theorem C208_partial (S : Sorter) (text : Val → Res (List Char)) (flags : List Bool) (rows : List PSRow)
    (hg : GoodParts text (rows.map Prod.fst)) (hk : GoodKeys flags (rows.map Prod.fst)) (hp : PairColumn rows)
    (hn : ∀ r ∈ rows, r.1.value ≠ .null ∧ r.2 ≠ .null) (p : List (Option Scalar)) :
    ∃ W, WindowOrder flags (rows.map Prod.fst) p W ∧ ∀ (b e : Boundary), Grammatical b e →
      ∀ (i j : Nat), W[i]? = some j → ¬ Reversed W.length i b e →
        CovarSpec rows W b e i (winCovar S text .rows b e (pairInput flags rows) ((j : Int) + 1)) := by
  obtain ⟨W, hW, h⟩ := winPair_frame Approx.covariance (fun q => by rw [Approx.covariance_eq (by simp)]; rfl) S text flags rows hg hk hp hn p
  refine ⟨W, hW, fun b e hge i j hi ho => ?_⟩
  unfold CovarSpec winCovar
  rw [h b e hge i j hi ho, covariance_none]

example : ∀ r ∈ ([(⟨[], [], .int 1⟩, .int 2), (⟨[], [], .int 3⟩, .int 5)] : List PSRow), r.1.value ≠ .null ∧ r.2 ≠ .null := by simp

/-! COVAR_SAMP(x, y) OVER () does not use the current row, so skipped rows do no harm. -/

theorem sum_perm {xs ys : List Rat} (h : xs.Perm ys) : xs.sum = ys.sum := by
  induction h with
  | nil => rfl
  | cons x _ ih => simp [ih]
  | swap x y l => simp only [List.sum_cons]; grind
  | trans _ _ h1 h2 => exact h1.trans h2

theorem sampCov_perm {ps qs : List (Rat × Rat)} (h : ps.Perm qs) : sampCov ps = sampCov qs := by
  unfold sampCov sumXY sumX sumY
  rw [h.length_eq, sum_perm (h.map _), sum_perm (h.map (·.1)), sum_perm (h.map (·.2))]

/-- The pairs of all rows in which neither argument is NULL. -/
def pairsOf (rows : List PSRow) : List (Rat × Rat) :=
  rows.filterMap fun r => (number r.1.value).bind fun x => (number r.2).map fun y => (x, y)

theorem pairFloats_perm {vs ws : List Val} (h : vs.Perm ws) : ∀ {ps}, pairFloats vs = .ok ps → ∃ qs, pairFloats ws = .ok qs ∧ ps.Perm qs := by
  induction h with
  | nil => intro ps h; exact ⟨ps, h, .refl _⟩
  | cons v _ ih =>
    intro ps h
    rw [pairFloats] at h ⊢
    rename_i l l' _
    generalize pairOf v = o at *
    cases o with
    | err => cases h
    | panic => cases h
    | ok p =>
      rw [Res.bind'_ok] at h ⊢
      cases hl : pairFloats l with
      | err => rw [hl] at h; cases h
      | panic => rw [hl] at h; cases h
      | ok xs =>
        rw [hl, Res.bind'_ok] at h
        injection h with h
        obtain ⟨qs, h1, h2⟩ := ih hl
        exact ⟨p :: qs, by rw [h1, Res.bind'_ok], h ▸ h2.cons p⟩
  | swap v w l =>
    intro ps h
    simp only [pairFloats] at h ⊢
    generalize pairOf v = o at *
    generalize pairOf w = o' at *
    cases o' with
    | err => cases h
    | panic => cases h
    | ok p =>
      cases o with
      | err => cases h
      | panic => cases h
      | ok q =>
        cases hl : pairFloats l with
        | err => rw [hl] at h; cases h
        | panic => rw [hl] at h; cases h
        | ok xs =>
          simp only [hl, Res.bind'_ok] at h ⊢
          injection h with h
          exact ⟨_, rfl, h ▸ .swap _ _ _⟩
  | trans _ _ h1 h2 =>
    intro ps h
    obtain ⟨qs, hq, hp⟩ := h1 h
    obtain ⟨rs, hr, hp'⟩ := h2 hq
    exact ⟨rs, hr, hp.trans hp'⟩

theorem pairFloats_rows (flags : List Bool) (rows : List PSRow) (hp : PairColumn rows) :
    pairFloats ((pairRows (pairInput flags rows)).map WRow.value) = .ok (pairsOf rows) ∧
    ((pairRows (pairInput flags rows)) = [] ↔ pairsOf rows = []) := by
  induction rows with
  | nil => exact ⟨rfl, by simp [pairRows, pairInput, pairsOf]⟩
  | cons r rows ih =>
    have ih := ih fun r hr => hp r (List.mem_cons_of_mem _ hr)
    obtain ⟨hx, hy⟩ := hp r List.mem_cons_self
    have hv : (r.1.row flags).value = r.1.value := rfl
    unfold pairRows pairInput pairsOf at *
    rw [List.map_cons]
    rcases hx with hx | ⟨x, hx⟩
    · rw [List.filterMap_cons_none (by simp [hv, hx]), List.filterMap_cons_none (by simp [hx, number])]; exact ih
    · have hxn : r.1.value.isNull = false := by cases h : r.1.value <;> rw [h] at hx <;> first | rfl | simp [number] at hx
      rcases hy with hy | ⟨y, hy⟩
      · rw [List.filterMap_cons_none (by simp [hy]), List.filterMap_cons_none (by simp [hy, number])]; exact ih
      · have hyn : r.2.isNull = false := by cases h : r.2 <;> rw [h] at hy <;> first | rfl | simp [number] at hy
        rw [List.filterMap_cons_some (b := { r.1.row flags with value := .arr [r.1.value, r.2] }) (by simp [hv, hxn, hyn]),
          List.filterMap_cons_some (b := (x, y)) (by simp [hx, hy])]
        refine ⟨?_, by simp⟩
        rw [List.map_cons, pairFloats]
        simp only [pairOf, toRat_number hx, toRat_number hy, Res.bind'_ok]
        rw [ih.1, Res.bind'_ok]

/-- Over the whole input NULLs are ignored: the statistic is that of the pairs, in some order. -/
theorem winPair_whole {β} (stat : List (Rat × Rat) → Option β) (hst : ∀ q, stat [q] = none) (S : Sorter) (text : Val → Res (List Char))
    (flags : List Bool) (rows : List PSRow) (hg : ∀ r ∈ rows, r.1.parts = []) (hp : PairColumn rows) (hne : pairsOf rows ≠ [])
    (rowId : Int) (hid : 1 ≤ rowId) :
    ∃ qs, (pairsOf rows).Perm qs ∧ winPair stat S text .rows .unboundedPreceding .unboundedFollowing (pairInput flags rows) rowId = .ok (stat qs) := by
  obtain ⟨h1, h2⟩ := pairFloats_rows flags rows hp
  have hparts : ∀ w ∈ pairRows (pairInput flags rows), w.parts = [] := by
    intro w hw
    unfold pairRows pairInput at hw
    simp only [List.filterMap_map, List.mem_filterMap] at hw
    obtain ⟨r, hr, h⟩ := hw
    simp only [Function.comp] at h
    split at h
    · cases h
    · injection h with h; subst h; simp [SRow.row, hg r hr]
  unfold winPair doneSkip
  generalize pairRows (pairInput flags rows) = ws at *
  have hws : ws ≠ [] := fun h => hne (h2.mp h)
  rw [if_neg (by simp [hws]; omega)]
  have hpo : partitionOf text ws (rowId - 1).toNat = .ok (index ws) := by
    unfold partitionOf
    rw [if_pos (by simpa using hparts)]
  rw [hpo, Res.bind'_ok]
  have hperm := S.perm lessRow (index ws)
  have hlen : (S.sort lessRow (index ws)).length = ws.length := by rw [hperm.length_eq]; simp [index]
  generalize S.sort lessRow (index ws) = sorted at *
  have hpos : 0 < ws.length := List.length_pos_iff.mpr hws
  simp only [boundaryOf, Res.bind'_ok]
  rw [if_neg (by omega)]
  simp only [Res.bind'_ok, Int.lt_irrefl, if_false]
  rw [if_neg (show ¬ ((sorted.length : Int) - 1 ≥ sorted.length) by omega)]
  have hsl : slice sorted 0 ((sorted.length : Int) - 1) = .ok sorted := by
    unfold slice
    rw [if_neg (by omega)]
    have : ((sorted.length : Int) - 1 + 1 - 0).toNat = sorted.length := by omega
    rw [this]; simp
  have hvals : (sorted.map fun q => q.2.value).Perm (ws.map WRow.value) := by
    have : (index ws).map (fun q => q.2.value) = ws.map WRow.value := by
      unfold index
      rw [List.map_map, show ((fun q : IRow => q.2.value) ∘ fun p : WRow × Nat => (p.2, p.1)) = WRow.value ∘ Prod.fst from rfl,
        ← List.map_map, List.zipIdx_map_fst]
    rw [← this]; exact hperm.map _
  obtain ⟨qs, hq, hpq⟩ := pairFloats_perm hvals.symm h1
  refine ⟨qs, hpq, ?_⟩
  rw [hsl, Res.bind'_ok, hq, Res.bind'_ok]
  have hqs : qs ≠ [] := fun h => hne (List.perm_nil.1 (h ▸ hpq))
  rw [if_neg hqs]
  split
  · rename_i hlt
    have hl : (pairsOf rows).length = ws.length := by
      have hlen : ∀ (vs : List Val) ps, pairFloats vs = .ok ps → ps.length = vs.length := by
        intro vs
        induction vs with
        | nil => intro ps h; cases h; rfl
        | cons v vs ih =>
          intro ps h
          rw [pairFloats] at h
          generalize pairOf v = o at *
          cases o with
          | err => cases h
          | panic => cases h
          | ok p =>
            cases hl : pairFloats vs with
            | err => rw [hl] at h; cases h
            | panic => rw [hl] at h; cases h
            | ok xs =>
              rw [hl] at h
              injection h with h
              rw [← h, List.length_cons, ih _ hl, List.length_cons]
      rw [hlen _ _ h1, List.length_map]
    have h1 : qs.length = 1 := by rw [← hpq.length_eq]; omega
    obtain ⟨q, rfl⟩ := List.length_eq_one_iff.1 h1
    rw [hst]
  · rfl

/-- Over the whole input NULLs are ignored: COVAR_SAMP(x, y) OVER () in every row, if some row has both arguments. -/
theorem C208_whole_partial (S : Sorter) (text : Val → Res (List Char)) (flags : List Bool) (rows : List PSRow)
    (hg : ∀ r ∈ rows, r.1.parts = []) (hp : PairColumn rows) (hne : pairsOf rows ≠ []) (rowId : Int) (hid : 1 ≤ rowId) :
    winCovar S text .rows .unboundedPreceding .unboundedFollowing (pairInput flags rows) rowId = .ok (sampCov (pairsOf rows)) := by
  have hst : ∀ q, Approx.covariance [q] = none := fun q => by
    have := covariance_none [q]
    rw [if_neg (by simp)] at this
    rw [this, sampCov, if_pos (by simp)]
  obtain ⟨qs, hpq, h⟩ := winPair_whole Approx.covariance hst S text flags rows hg hp hne rowId hid
  unfold winCovar
  have hqs : qs ≠ [] := fun h => hne (List.perm_nil.1 (h ▸ hpq))
  have := covariance_none qs
  rw [if_neg hqs] at this
  rw [h, this, sampCov_perm hpq]

/-- Two rows and a NULL between them. -/
example (S : Sorter) (text : Val → Res (List Char)) :
    winCovar S text .rows .unboundedPreceding .unboundedFollowing
      (pairInput [] [(⟨[], [], .int 1⟩, .int 2), (⟨[], [], .null⟩, .int 9), (⟨[], [], .int 3⟩, .int 6)]) 3 = .ok (some 4) := by
  have := C208_whole_partial S text [] [(⟨[], [], .int 1⟩, .int 2), (⟨[], [], .null⟩, .int 9), (⟨[], [], .int 3⟩, .int 6)]
    (by simp) (by intro r hr; simp at hr; rcases hr with rfl | rfl | rfl <;> simp [number]) (by simp [pairsOf, number]) 3 (by decide)
  rw [this]
  decide +kernel

end Verif.WindowAgg
