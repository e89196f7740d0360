import Verif.Model.WindowStddev
import Verif.Props.WindowVar
import Verif.Props.Corr

/-! # C291 and C292: standard deviations and CORR as analytic functions -/

namespace Verif.WindowAgg

open Go Verif.Val Verif.Window Verif.Aggregate Verif.Approx

/-- The root of the variance of the values of a frame, NULLs ignored. -/
def DevSpec (pop : Bool) (vs : List Val) (out : Res (Option Root)) : Prop :=
  ∃ r, out = .ok r ∧ r.map Root.sq = if pop then popCov (doubled vs) else sampCov (doubled vs)

/-- **C291** in full: every ROWS frame with bounds in order. -/
def C291_full (S : Sorter) (text : Val → Res (List Char)) : Prop :=
  ∀ flags rows, GoodParts text rows → GoodKeys flags rows → NumColumn (rows.map SRow.value) →
    ∀ p, ∃ W, WindowOrder flags rows p W ∧ ∀ (b e : Boundary), Grammatical b e → Ordered b e →
      ∀ (pop : Bool) (i j : Nat), W[i]? = some j →
        DevSpec pop (vals rows W b e i) (winStddev pop S text .rows b e (input flags rows) ((j : Int) + 1))

theorem stddev_var (pop : Bool) (S : Sorter) (text : Val → Res (List Char)) (u : FrameUnit) (b e : Boundary) (rows : List WRow) (rowId : Int) :
    winStddev pop S text u b e rows rowId = (winVar pop S text u b e rows rowId).bind fun v => .ok (v.map Root.mk) := by
  unfold winStddev winVar
  cases done S text u b e rows rowId with
  | err => rfl
  | panic => rfl
  | ok r =>
    simp only [Res.bind'_ok]
    cases r with
    | none => rfl
    | some t =>
      obtain ⟨sorted, start, stop⟩ := t
      simp only
      by_cases h : sorted.length < 2
      · rw [if_pos h, if_pos h]; rfl
      · rw [if_neg h, if_neg h]
        cases slice sorted start stop with
        | err => rfl
        | panic => rfl
        | ok qs =>
          simp only [Res.bind'_ok]
          cases floats (qs.map fun q => q.2.value) with
          | err => rfl
          | panic => rfl
          | ok xs =>
            simp only [Res.bind'_ok]
            by_cases hx : xs = []
            · rw [if_pos hx, if_pos hx]; rfl
            · rw [if_neg hx, if_neg hx]

theorem dev_var (pop : Bool) (vs : List Val) (out : Res (Option Rat)) :
    DevSpec pop vs (out.bind fun v => .ok (v.map Root.mk)) ↔ VarSpec pop vs out := by
  unfold DevSpec VarSpec
  have hm : ∀ v : Option Rat, (v.map Root.mk).map Root.sq = v := by intro v; cases v <;> rfl
  cases out with
  | err => exact ⟨fun ⟨r, h, _⟩ => (by cases h), fun h => (by cases h)⟩
  | panic => exact ⟨fun ⟨r, h, _⟩ => (by cases h), fun h => (by cases h)⟩
  | ok v =>
    simp only [Res.bind'_ok, Res.ok.injEq]
    constructor
    · rintro ⟨r, rfl, h⟩; rw [← h, hm]
    · intro h; exact ⟨_, rfl, by rw [hm, h]⟩

/-- **C291**, the part that holds: exactly if the frame has no NULL, and for STDDEV_POP the partition is not a single row with a value; a
partition of one row gives NULL, a NULL in the frame of a larger one a panic. -/
theorem C291_partial (S : Sorter) (text : Val → Res (List Char)) (flags : List Bool) (rows : List SRow)
    (hg : GoodParts text rows) (hk : GoodKeys flags rows) (hc : NumColumn (rows.map SRow.value)) (p : List (Option Sql.Scalar)) :
    ∃ W, WindowOrder flags rows p W ∧ ∀ (b e : Boundary), Grammatical b e →
      ∀ (pop : Bool) (i j : Nat), W[i]? = some j → ¬ Reversed W.length i b e →
        (W.length = 1 → winStddev pop S text .rows b e (input flags rows) ((j : Int) + 1) = .ok none) ∧
        (2 ≤ W.length → (∃ v ∈ vals rows W b e i, v = .null) →
          winStddev pop S text .rows b e (input flags rows) ((j : Int) + 1) = .panic) ∧
        (DevSpec pop (vals rows W b e i) (winStddev pop S text .rows b e (input flags rows) ((j : Int) + 1)) ↔
          if W.length = 1 then pop = true → ∀ v ∈ vals rows W b e i, v = .null
          else ∀ v ∈ vals rows W b e i, v ≠ .null) := by
  obtain ⟨W, hW, h⟩ := C207_partial S text flags rows hg hk hc p
  refine ⟨W, hW, fun b e hge pop i j hi ho => ?_⟩
  obtain ⟨h1, h2, h3⟩ := h b e hge pop i j hi ho
  rw [stddev_var]
  refine ⟨fun hl => by rw [h1 hl]; rfl, fun hl hv => by rw [h2 hl hv]; rfl, ?_⟩
  rw [dev_var]; exact h3

theorem C291_full_false (S : Sorter) (text : Val → Res (List Char)) : ¬ C291_full S text := by
  intro h
  refine C207_full_false S text ?_
  intro flags rows hg hk hc p
  obtain ⟨W, hW, h⟩ := h flags rows hg hk hc p
  refine ⟨W, hW, fun b e hge ho pop i j hi => ?_⟩
  have := h b e hge ho pop i j hi
  rwa [stddev_var, dev_var] at this

/-- Four rows that meet the hypotheses. -/
example (text : Val → Res (List Char)) : GoodParts text (four (.int 3)) ∧ GoodKeys [] (four (.int 3)) ∧ NumColumn ((four (.int 3)).map SRow.value) :=
  ⟨(four_good text _).1, (four_good text _).2, by simp [four, NumColumn, number]⟩

/-! ## C292: CORR over a frame -/

/-- Pearson's coefficient of the pairs `ps`, if both columns vary. -/
def CorrSpec (ps : List (Rat × Rat)) (out : Res (Option Root)) : Prop :=
  ∃ r, out = .ok r ∧ (r = none ↔ ¬ Vary ps) ∧ ∀ q, r = some q → ∃ c vx vy, popCov ps = some c ∧ popCov (ps.map fun p => (p.1, p.1)) = some vx ∧
    popCov (ps.map fun p => (p.2, p.2)) = some vy ∧ 0 < vx ∧ 0 < vy ∧ q.sq * (vx * vy) = signed c

/-- **C292** in full: every ROWS frame with bounds in order. -/
def C292_full (S : Sorter) (text : Val → Res (List Char)) : Prop :=
  ∀ flags (rows : List PSRow), GoodParts text (rows.map Prod.fst) → GoodKeys flags (rows.map Prod.fst) → PairColumn rows →
    ∀ p, ∃ W, WindowOrder flags (rows.map Prod.fst) p W ∧ ∀ (b e : Boundary), Grammatical b e → Ordered b e →
      ∀ (i j : Nat), W[i]? = some j →
        CorrSpec ((rowsFrame W b e i).filterMap (pairAt rows)) (winCorr S text .rows b e (pairInput flags rows) ((j : Int) + 1))

theorem corr_pairs (ps : List (Rat × Rat)) : CorrSpec ps (.ok (if ps = [] then none else correlation ps)) := by
  have hc : complete (ps.map fun p => (some p.1, some p.2)) = ps := by
    induction ps with
    | nil => rfl
    | cons p ps ih => unfold complete at ih ⊢; rw [List.map_cons, List.filterMap_cons_some (b := p) (by rfl), ih]
  have e : (if ps = [] then none else correlation ps) = corr (ps.map fun p => (some p.1, some p.2)) := by
    rw [corr, pairs_complete, hc]
  rw [e]
  have hn := C289_null (ps.map fun p => (some p.1, some p.2))
  rw [hc] at hn
  refine ⟨_, rfl, hn, fun q hq => ?_⟩
  have hv : Vary ps := Classical.not_not.1 fun h => by rw [hn.2 h] at hq; cases hq
  obtain ⟨r, c, vx, vy, hr, h⟩ := C289 (ps.map fun p => (some p.1, some p.2)) (by rw [hc]; exact hv)
  rw [hc] at h
  rw [hr] at hq; cases hq
  exact ⟨c, vx, vy, h⟩

theorem correlation_one (q : Rat × Rat) : correlation [q] = none := by
  obtain ⟨r, hr, hr', -⟩ := corr_pairs [q]
  rw [if_neg (by simp)] at hr
  injection hr with hr
  rw [hr]
  exact hr'.2 fun hv => hv.1 ⟨q.1, by simp⟩

/-- **C292**, the part that holds: without NULLs in the input. -/
theorem C292_partial (S : Sorter) (text : Val → Res (List Char)) (flags : List Bool) (rows : List PSRow)
    (hg : GoodParts text (rows.map Prod.fst)) (hk : GoodKeys flags (rows.map Prod.fst)) (hp : PairColumn rows)
    (hn : ∀ r ∈ rows, r.1.value ≠ .null ∧ r.2 ≠ .null) (p : List (Option Sql.Scalar)) :
    ∃ W, WindowOrder flags (rows.map Prod.fst) p W ∧ ∀ (b e : Boundary), Grammatical b e →
      ∀ (i j : Nat), W[i]? = some j → ¬ Reversed W.length i b e →
        CorrSpec ((rowsFrame W b e i).filterMap (pairAt rows)) (winCorr S text .rows b e (pairInput flags rows) ((j : Int) + 1)) := by
  obtain ⟨W, hW, h⟩ := winPair_frame correlation correlation_one S text flags rows hg hk hp hn p
  refine ⟨W, hW, fun b e hge i j hi ho => ?_⟩
  unfold winCorr
  rw [h b e hge i j hi ho]
  exact corr_pairs _

/-- A NULL in the first of two rows: the second is looked up at an index that does not exist. -/
theorem C292_skipped (S : Sorter) (text : Val → Res (List Char)) :
    winCorr S text .rows .unboundedPreceding .current (pairInput [] [(⟨[], [], .null⟩, .int 1), (⟨[], [], .int 1⟩, .int 1)]) 2 = .panic := by
  rfl

theorem C292_full_false (S : Sorter) (text : Val → Res (List Char)) : ¬ C292_full S text := by
  intro h
  let rows : List PSRow := [(⟨[], [], .null⟩, .int 1), (⟨[], [], .int 1⟩, .int 1)]
  have hp : PairColumn rows := by intro r hr; simp [rows] at hr; rcases hr with rfl | rfl <;> simp [number]
  obtain ⟨W, hW, h⟩ := h [] rows (.inl (by simp [rows])) ⟨by simp [rows], by simp [rows], fun r hr s hs => by
    simp [rows] at hr hs
    rcases hr with rfl | rfl <;> rcases hs with rfl | rfl <;> exact .nil⟩ hp []
  have hmem : 1 ∈ W := hW.perm.mem_iff.mpr (mem_members.mpr ⟨_, rfl, rfl⟩)
  obtain ⟨i, hi⟩ := List.getElem?_of_mem hmem
  obtain ⟨r, hr, -⟩ := h .unboundedPreceding .current ⟨by simp, by simp⟩ (by intro x y hx; cases hx) i 1 hi
  rw [show ((1 : Nat) : Int) + 1 = 2 from rfl, C292_skipped S text] at hr
  cases hr

theorem popCov_perm {ps qs : List (Rat × Rat)} (h : ps.Perm qs) : popCov ps = popCov qs := by
  unfold popCov Approx.sumXY Approx.sumX Approx.sumY
  rw [h.length_eq, sum_perm (h.map _), sum_perm (h.map (·.1)), sum_perm (h.map (·.2))]

/-- **C292**, the part that holds over the whole input: CORR(x, y) OVER () ignores NULLs, if some row has both arguments. -/
theorem C292_whole_partial (S : Sorter) (text : Val → Res (List Char)) (flags : List Bool) (rows : List PSRow)
    (hg : ∀ r ∈ rows, r.1.parts = []) (hp : PairColumn rows) (hne : pairsOf rows ≠ []) (rowId : Int) (hid : 1 ≤ rowId) :
    CorrSpec (pairsOf rows) (winCorr S text .rows .unboundedPreceding .unboundedFollowing (pairInput flags rows) rowId) := by
  obtain ⟨qs, hpq, h⟩ := winPair_whole correlation correlation_one S text flags rows hg hp hne rowId hid
  have hqs : qs ≠ [] := fun h => hne (List.perm_nil.1 (h ▸ hpq))
  obtain ⟨r, hr, h1, h2⟩ := corr_pairs qs
  rw [if_neg hqs] at hr
  have hv : Vary qs ↔ Vary (pairsOf rows) := by
    unfold Vary; simp only [hpq.mem_iff]
  unfold winCorr
  refine ⟨r, h.trans hr, by rw [h1, hv], fun q hq => ?_⟩
  obtain ⟨c, vx, vy, h⟩ := h2 q hq
  rw [← popCov_perm hpq, ← popCov_perm (hpq.map _), ← popCov_perm (hpq.map _)] at h
  exact ⟨c, vx, vy, h⟩

/-- Two rows and a NULL between them. -/
example : pairsOf [(⟨[], [], .int 1⟩, .int 2), (⟨[], [], .null⟩, .int 9), (⟨[], [], .int 3⟩, .int 6)] = [(1, 2), (3, 6)] := by
  simp [pairsOf, number]

example : ∀ r ∈ ([(⟨[], [], .int 1⟩, .int 2), (⟨[], [], .int 3⟩, .int 5)] : List PSRow), r.1.value ≠ .null ∧ r.2 ≠ .null := by simp

end Verif.WindowAgg
