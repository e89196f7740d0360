import Verif.Props.Query

/-!
# Queries: LEFT JOIN UNNEST, HAVING, set operations, WITH, scalar subqueries
-/

namespace Verif.Query

set_option linter.unusedSectionVars false

/-! ### C137: LEFT JOIN UNNEST -/

/-- `SELECT cols FROM s [LEFT] JOIN UNNEST(e) AS elem [WITH OFFSET AS off] [ON on]` -/
def selUnnest (cols : List Col) (s : Scan) (e : Expr) (elem : Col) (off : Option Col) (on : OExpr) (outer : Bool) : Scan :=
  .project (.array s e elem off on outer) .nil cols

structure UnnestParts (cols : List Col) (s : Scan) (e : Expr) (elem : Col) (off : Option Col) (on : OExpr) : Prop where
  input : okS uid (fun _ => none) s
  array : okE uid (fun _ => none) e
  cond : okO uid (fun _ => none) on
  leftOk : leftOk s = true
  ne : cols ≠ []
  sub : ∀ c ∈ cols, c ∈ s.cols ++ elem :: off.toList

/-- C137: a join with the elements of an array is translated faithfully; a LEFT JOIN keeps the rows whose array is empty or
NULL. -/
def C137_full : Prop := ∀ cols s e elem off on outer, Resolved (selUnnest cols s e elem off on outer) →
  UnnestParts cols s e elem off on → Faithful (selUnnest cols s e elem off on outer)

theorem unnest_ok {cols : List Col} {s : Scan} {e : Expr} {elem : Col} {off : Option Col} {on : OExpr} {outer : Bool}
    (hp : UnnestParts cols s e elem off on) (ho : outer = true → on.isNone = false) :
    okS uid (fun _ => none) (selUnnest cols s e elem off on outer) := by
  rw [selUnnest, okS.eq_8]
  refine ⟨Or.inr ?_, trivial, hp.ne, fun c hc => Or.inr (hp.sub c hc)⟩
  rw [okS.eq_6]
  exact ⟨hp.input, hp.leftOk, hp.array, hp.cond, ho⟩

/-- C137, what is proved: an inner join, and a LEFT JOIN with a condition. -/
theorem C137_partial (cols : List Col) (s : Scan) (e : Expr) (elem : Col) (off : Option Col) (on : OExpr) (outer : Bool)
    (hr : Resolved (selUnnest cols s e elem off on outer)) (hp : UnnestParts cols s e elem off on)
    (ho : outer = true → on.isNone = false) : Faithful (selUnnest cols s e elem off on outer) :=
  C134_partial _ hr (unnest_ok hp ho)

/-- A LEFT JOIN without condition is an inner join: rows without elements are lost, in every database. -/
theorem C137_inner {V : Type} [DecidableEq V] (S : Sem V) (db : Db V) (out : List (Col × List Char)) (cols : List Col) (s : Scan)
    (e : Expr) (elem : Col) (off : Option Col) (rows R : List (List V)) (hout : out ≠ [])
    (hr : Resolved (selUnnest cols s e elem off .none true)) (hp : UnnestParts cols s e elem off .none)
    (he : evalS S db (fun _ => none) (fun _ => none) (selUnnest cols s e elem off .none false) = some rows)
    (hpick : mapO (fun a => pick cols a (out.map (·.1))) rows = some R) :
    ∃ t, fmtQuery out (selUnnest cols s e elem off .none true) = some t ∧ Yields S db t (out.map fun x => .raw x.2, R) := by
  have hr' : Resolved (selUnnest cols s e elem off .none false) := ⟨hr.ids, hr.inScope, rfl⟩
  obtain ⟨t, h1, h2⟩ := C137_partial cols s e elem off .none false hr' hp (by simp) V inferInstance S db out rows R hout he hpick
  refine ⟨t, ?_, h2⟩
  rw [← h1]
  simp only [fmtQuery, selUnnest, fmtS.eq_7, fmtS.eq_5]
  cases fmtE uid (fun _ => none) e with
  | none => rfl
  | some x =>
    cases fmtS uid (fun _ => none) s with
    | none => rfl
    | some t => rfl

theorem filtO_true {α : Type} : ∀ l : List α, filtO (fun _ => some true) l = some l
  | [] => rfl
  | a :: l => by
    simp only [filtO, filtO_true l, if_true]

/-- A LEFT JOIN without condition is right in a database where no row has an empty array. -/
theorem C137_nonempty {V : Type} [DecidableEq V] (S : Sem V) (db : Db V) (out : List (Col × List Char)) (cols : List Col)
    (s : Scan) (e : Expr) (elem : Col) (off : Option Col) (rows R : List (List V)) (hout : out ≠ [])
    (hr : Resolved (selUnnest cols s e elem off .none true)) (hp : UnnestParts cols s e elem off .none)
    (hne : ∀ L, evalS S db (fun _ => none) (fun _ => none) s = some L → ∀ a ∈ L, ∀ v,
      evalE S db (fun _ => none) (bindR s.cols a fun _ => none) e = some v → S.elems v ≠ [])
    (he : evalS S db (fun _ => none) (fun _ => none) (selUnnest cols s e elem off .none true) = some rows)
    (hpick : mapO (fun a => pick cols a (out.map (·.1))) rows = some R) :
    ∃ t, fmtQuery out (selUnnest cols s e elem off .none true) = some t ∧ Yields S db t (out.map fun x => .raw x.2, R) := by
  refine C137_inner S db out cols s e elem off rows R hout hr hp ?_ hpick
  rw [← he]
  simp only [selUnnest, evalS.eq_7, evalS.eq_5]
  cases hL : evalS S db (fun _ => none) (fun _ => none) s with
  | none => rfl
  | some L =>
    simp only [eachRows, evalO, filtO_true, Option.map_some]
    cases hm : mapO (fun l => match (evalE S db (fun _ => none) (bindR s.cols l fun _ => none) e).map (elemRows S off.isSome) with
        | none => none
        | some es => some (l, es)) L with
    | none => rfl
    | some pairs =>
      have : ∀ x ∈ pairs, x.2 ≠ [] := by
        intro x hx
        obtain ⟨a, ha, h⟩ := mapO_mem hm x hx
        cases hv : evalE S db (fun _ => none) (bindR s.cols a fun _ => none) e with
        | none => simp [hv] at h
        | some v =>
          simp only [hv, Option.map_some, Option.some.injEq] at h
          subst h
          have := hne L hL a ha v hv
          simpa [elemRows] using this
      have hf : (pairs.flatMap fun x => if (false && decide (x.2 = [])) = true then
            [x.1 ++ List.replicate (elem :: off.toList).length S.null] else x.2.map fun r => x.1 ++ r) =
          pairs.flatMap fun x => if (true && decide (x.2 = [])) = true then
            [x.1 ++ List.replicate (elem :: off.toList).length S.null] else x.2.map fun r => x.1 ++ r := by
        clear hm
        induction pairs with
        | nil => rfl
        | cons x xs ih =>
          rw [List.flatMap_cons, List.flatMap_cons, ih fun y hy => this y (List.mem_cons_of_mem _ hy)]
          simp [this x (List.mem_cons_self ..)]
      simp only [hf]
      rfl

/-- `SELECT c, d FROM e0 LEFT JOIN UNNEST(c) AS d`, where the array of one row is empty. -/
def db1 : Db (Option Int) := fun n => if n = ['n'] then some ([['c']], [[some 0], [some 1]]) else none

theorem C137_full_false : ¬ C137_full := by
  intro h
  have hR : Resolved (selUnnest [cc, cd] (.table ['n'] [cc]) (.col cc) cd none .none true) :=
    ⟨by decide, by simp [selUnnest, scopedS, scopedE, scopedCs, scopedO], rfl⟩
  have hP : UnnestParts [cc, cd] (.table ['n'] [cc]) (.col cc) cd none .none :=
    ⟨by simp [okS], by simp [okE], by simp [okO], rfl, by simp, by simp [Scan.cols]⟩
  obtain ⟨t, h1, h2⟩ := h _ _ _ _ _ _ _ hR hP (Option Int) inferInstance S0 db1 [(cc, ['c']), (cd, ['d'])]
    [[some 0, none], [some 1, some 0]] [[some 0, none], [some 1, some 0]] (by simp) (by decide +kernel) (by decide +kernel)
  obtain ⟨t', h3, h4⟩ := C137_inner S0 db1 [(cc, ['c']), (cd, ['d'])] _ _ _ _ _ [[some 1, some 0]] [[some 1, some 0]] (by simp) hR hP
    (by decide +kernel) (by decide +kernel)
  have ht : t = t' := Option.some.inj (h1.symm.trans h3)
  subst ht
  have := h2.unique h4
  simp at this

/-! ### C138: HAVING -/

/-- `SELECT cols FROM s GROUP BY groups HAVING e`: a filter on the grouped rows. -/
def having (cols : List Col) (s : Scan) (groups : CExprs) (aggs : Aggs) (acols : List Col) (e : Expr) : Scan :=
  sel cols (.agg s groups aggs acols) e

/-- C138: HAVING is translated faithfully. -/
def C138_full : Prop := ∀ cols s groups aggs acols e, Resolved (having cols s groups aggs acols e) →
  Parts cols (.agg s groups aggs acols) e → Faithful (having cols s groups aggs acols e)

/-- C138, what is proved: HAVING with GROUP BY, on a table, a join or a subquery, with or without a WHERE clause. -/
theorem C138_partial (cols : List Col) (s : Scan) (groups : CExprs) (aggs : Aggs) (acols : List Col) (e : Expr)
    (hr : Resolved (having cols s groups aggs acols e)) (hp : Parts cols (.agg s groups aggs acols) e)
    (hg : groups.cols ≠ []) (hs : (leftOk s = true ∧ calm s = true) ∨ ∃ s' c, s = .filter s' c ∧ isQuery s' = false ∧ calm s' = true) :
    Faithful (having cols s groups aggs acols e) := by
  rcases hs with ⟨h1, h2⟩ | ⟨s', c, rfl, h1, h2⟩
  · exact C135_partial _ _ _ hr hp (.group h1 h2 hg)
  · exact C135_partial _ _ _ hr hp (.groupWhere h1 h2)

/-- `SELECT c, d FROM u WHERE b > 1 GROUP BY b AS c HAVING COUNT(*) AS d > 1` meets the hypotheses. -/
example : Faithful (having [cc, cd] (.filter U (gt cb 1)) (.cons cc (.col cb) .nil) (.cons cd 1 .nil .nil) [cc, cd] (gt cd 1)) := by
  refine C138_partial _ _ _ _ _ _ ⟨by decide, ?_, rfl⟩ ⟨?_, ?_, by simp, ?_⟩ (by simp [CExprs.cols])
    (Or.inr ⟨U, gt cb 1, rfl, rfl, rfl⟩)
  · simp [having, sel, U, gt, scopedS, scopedE, scopedEs, scopedCs, scopedAs]
  · simp [U, gt, okS, okE, okEs, okCs, okAs, ownAs, fmtEs, owned, nmEs, leftOk, isQuery, CExprs.cols, Aggs.cols]
  · simp [gt, okE, okEs]
  · simp [Scan.cols]

/-- `SELECT d FROM (t) HAVING COUNT(*) AS d > 0`, without GROUP BY: the condition becomes WHERE on the aggregate. -/
theorem C138_full_false : ¬ C138_full := by
  intro h
  obtain ⟨t, h1, h2⟩ := h [cd] T .nil (.cons cd 1 .nil .nil) [cd] (gt cd 0)
    ⟨by decide, by simp [having, sel, T, gt, scopedS, scopedE, scopedEs, scopedCs, scopedAs], rfl⟩
    ⟨by simp [T, okS, okEs, okCs, okAs, ownAs, fmtEs, owned, nmEs, CExprs.cols, Aggs.cols], by simp [gt, okE, okEs], by simp, by simp [Scan.cols]⟩
    (Option Int) inferInstance S0 db0 [(cd, ['d'])] [[some 3]] [[some 3]] (by simp) (by decide +kernel) (by decide +kernel)
  cases h1
  obtain ⟨N, hN⟩ := h2
  have h3 := hN (N + 10) (by omega)
  have h4 : ∀ m, evalQ S0 db0 (m + 10) (fun _ => none) (fun _ => none)
      [.sel [.ex (.name (uid cd)) (some (.raw ['d']))], .from, .grp [.sel [.ex (.name (uid cd)) none], .from,
        .grp [.sel [.agg (.fn 1) [] (some (uid cd))], .from, .grp [.sel [.ex (.name (.raw ['a'])) (some (uid ca))], .from, .tbl ['t']],
          .whr (.call 1 [.name (uid cd), .lit 0])]]] = none := fun m => rfl
  have h5 := (h4 N).symm.trans h3
  simp at h5

/-- HAVING without GROUP BY on an aggregate of a non-empty input: the text, unless it is put in parentheses, compares the
aggregate in WHERE and has no value, for all inputs, functions and databases.  (The condition is a call whose first argument
is the aggregate.) -/
theorem C138_no_group {V : Type} [DecidableEq V] (S : Sem V) (db : Db V) (s : Scan) (aggs : Aggs) (acols : List Col) (f : Nat)
    (c : Col) (args : Exprs) (hids : ((intS (.agg s .nil aggs acols)).map (·.id)).Nodup)
    (hs : scopedS (fun _ => none) (.agg s .nil aggs acols)) (ha : scopedEs (fun _ => none) args)
    (hok : okS uid (fun _ => none) (.agg s .nil aggs acols)) (hl : leftOk s = true) (hc : c ∈ aggs.cols) (a : List V) (L : List (List V))
    (he : evalS S db (fun _ => none) (fun _ => none) s = some (a :: L))
    (hw : ∀ t, fmtS uid (fun _ => none) (.agg s .nil aggs acols) = some t → wraps t = false) :
    ∃ t, fmtS uid (fun _ => none) (.filter (.agg s .nil aggs acols) (.call f (.cons (.col c) args))) = some t ∧
      ∃ N, ∀ n, N ≤ n → evalQ S db n (fun _ => none) (fun _ => none) t = none := by
  obtain ⟨t, ht⟩ := hasS uid (fun _ => none) _ hs
  obtain ⟨xs, hxs⟩ := hasEs uid (fun _ => none) args ha
  have hw' := hw t ht
  refine ⟨t ++ [.whr (.call f (.name (uid c) :: xs))], ?_, ?_⟩
  · rw [fmtS.eq_6, ht]
    simp only [fmtE, fmtEs, hxs, Option.map_some, hw', Bool.false_eq_true, if_false]
  · simp only [fmtS] at ht
    split at ht
    case h_2 => simp at ht
    rename_i as ts gs has hts hgs
    simp only [CExprs.cols, List.append_nil, Option.some.injEq] at ht
    subst ht
    cases hgs
    simp only [okS] at hok
    obtain ⟨hoks, _, hoka, hne, hsub, _⟩ := hok
    obtain ⟨ys, hl', hits, _⟩ := soundAs S db uid starred_uid aggs (fun _ => none) as has hoka
    obtain ⟨N, hN⟩ := soundS S db uid starred_uid s (fun _ => none) ts hts hoks
    refine ⟨N + 1, fun n hn => ?_⟩
    obtain ⟨m, rfl⟩ : ∃ m, n = m + 1 := ⟨n - 1, by omega⟩
    have hd := ids_dist hids
    have hd' : Dist uid (intS s ++ (intCs .nil ++ intAs aggs)) := hd
    have hfin := hN m (by omega) (fun _ => none) (fun _ => none) (fun _ => none) (fun _ => none)
      ⟨fun n r h => by simp at h, fun t h => rfl, fun c v h => by simp at h, fun d h => by simp at h, (Dist.append hd').1⟩ _ he
    obtain ⟨wh, hwh, pt, t0, htj, hpc, hev⟩ := hfin.den.from
    have hwh' := hwh hl
    subst hwh'
    simp only [Option.map_none, Option.toList_none, List.append_nil] at htj
    have hne' : selList uid ([] ++ as) acols ≠ [] := selList_ne hne
    have hpcore := pCore_from hne' (some (.call f (.name (uid c) :: xs))) hpc (tl := [])
      ⟨by simp, by simp, by simp⟩
    rw [hfin.den.formatInput, htj]
    simp only [Option.map_some, Option.toList_some, List.append_nil, pGroup] at hpcore
    rw [List.cons_append, List.cons_append, evalQ_core (o := []) (l := none) hpcore (by intro es r; simp)]
    have hal : ∀ cols', alias (selList uid ([] ++ as) cols') (uid c) = none := by
      intro cols'
      have hmem : ∀ e n, Item.ex e (some n) ∉ selList uid ([] ++ as) cols' := by
        intro e n hm
        simp only [selList, List.mem_map] at hm
        obtain ⟨d, _, hd⟩ := hm
        cases hf : findItem ([] ++ as) d with
        | none => rw [hf] at hd; simp at hd
        | some i =>
          simp only [hf, Option.getD_some] at hd
          subst hd
          rw [List.nil_append, hits] at hf
          obtain ⟨_, y, hy⟩ := shapeA_mem (findItem_mem hf)
          simp at hy
      generalize selList uid ([] ++ as) cols' = l at hmem
      induction l with
      | nil => rfl
      | cons i is ih =>
        have ih' := ih fun e n h => hmem e n (List.mem_cons_of_mem _ h)
        cases i with
        | star => simpa [alias] using ih'
        | agg f args n => simpa [alias] using ih'
        | ex e n =>
          cases n with
          | none => simpa [alias] using ih'
          | some n => exact absurd (List.mem_cons_self ..) (hmem e n)
    have hlk : lk (s.cols.map uid) a (uid c) = none := by
      refine lk_none a fun hm => ?_
      obtain ⟨d, hd1, hd2⟩ := List.mem_map.1 hm
      have := (Dist.append hd').2.2 d (cols_sub uid (fun _ => none) s hoks d hd1) c
        (List.mem_append_right _ (acols_sub aggs c hc))
      exact this hd2
    have hpt := hev (selList uid ([] ++ as) acols) (fun d h => by simp at h)
    simp only [evalFW] at hpt
    split at hpt
    · simp at hpt
    rename_i h0 L0 hpt0
    simp only [Option.some.injEq, Prod.mk.injEq] at hpt
    obtain ⟨rfl, rfl⟩ := hpt
    simp only [evalCore, evalFW, hpt0]
    have : filtO (fun vs => (evalX S (evalQ S db m fun _ => none) (Query.scope S (evalQ S db m fun _ => none)
        (selList uid ([] ++ as) acols) (fun _ => none) (s.cols.map uid) vs) (.call f (.name (uid c) :: xs))).map S.truth) (a :: L) = none := by
      simp only [filtO, evalX, evalXs, Query.scope, hlk, hal, Option.map_none]
    simp only [this, Option.map_none, finish]

/-- `SELECT COUNT(*) AS d FROM t HAVING d > 0` in the database `db0`, where `t` has three rows. -/
example : ∃ t, fmtS uid (fun _ => none) (.filter (.agg T .nil (.cons cd 1 .nil .nil) [cd]) (.call 1 (.cons (.col cd) (.cons (.lit 0) .nil)))) =
    some t ∧ ∃ N, ∀ n, N ≤ n → evalQ S0 db0 n (fun _ => none) (fun _ => none) t = none :=
  C138_no_group S0 db0 T (.cons cd 1 .nil .nil) [cd] 1 cd (.cons (.lit 0) .nil) (by decide)
    (by simp [T, scopedS, scopedE, scopedEs, scopedCs, scopedAs]) (by simp [scopedE, scopedEs])
    (by simp [T, okS, okEs, okCs, okAs, ownAs, fmtEs, owned, nmEs, CExprs.cols, Aggs.cols]) rfl (by simp [Aggs.cols]) [some 1] [[some 2], [some 3]]
    (by decide +kernel) (by intro t ht; cases ht; decide +kernel)

end Verif.Query
