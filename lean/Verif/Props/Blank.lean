import Verif.Model.Blank
import Verif.Props.QueryRows

/-!
# C250: TABLESAMPLE, PIVOT and UNPIVOT
-/

namespace Verif.Blank

open Verif.Query

/-- Full C250: a query on a sampled, pivoted or unpivoted table yields what it yields on a table `t` with the rows of it, or fails. -/
def C250_full : Prop :=
  ∀ (V : Type) (_ : DecidableEq V) (S : Sem V) (db : Db V) (top : Top) (t : TName) (cols : List Col) (out : List (Col × List Char))
    (rows R : List (List V)), out ≠ [] → Resolved (top.on (.table t cols)) →
    evalS S db (fun _ => none) (fun _ => none) (top.on (.table t cols)) = some rows →
    mapO (fun a => pick (top.on (.table t cols)).cols a (out.map (·.1))) rows = some R →
    ∃ q, text out top = some q ∧ (Yields S db q (out.map fun x => .raw x.2, R) ∨ Fails S db q)

section
variable {V : Type} [DecidableEq V]

theorem mapO_none {α β : Type} {f : α → Option β} : ∀ {xs : List α} {x : α}, x ∈ xs → f x = none → mapO f xs = none
  | [], _, h, _ => by simp at h
  | a :: xs, x, h, hx => by
    simp only [List.mem_cons] at h
    rcases h with rfl | h
    · simp [mapO, hx]
    · simp only [mapO, mapO_none h hx]
      cases f a <;> rfl

/-- A SELECT without FROM that names a column has no value. -/
theorem fails_name (S : Sem V) (db : Db V) (items : List Item) (c : Nm) (hc : Item.ex (.name c) none ∈ items) (n : Nat) (cte : CTE V) :
    evalQ S db n cte (fun _ => none) [.sel items] = none := by
  cases n with
  | zero => rfl
  | succ n =>
    have hi : items.isEmpty = false := by cases items <;> simp_all
    simp only [evalQ, evalBody, pQuery, pBody, pCore, hi, Bool.false_eq_true, if_false, pFrom, pWhere, pGroup, List.length_nil, pMore, pOrder,
      pLimit, List.foldl_nil, evalCtes, evalCore, evalFW, evalRows, List.isEmpty_nil, Bool.true_and]
    have h1 : mapO (itemVal S (evalQ S db n cte) (fun _ => none) [] []) items = none := mapO_none hc rfl
    have h2 : mapO (itemAgg S (evalQ S db n cte) (fun _ => none) [] [[]]) items = none := mapO_none hc rfl
    by_cases ha : items.any isAgg = true
    · by_cases ho : items.all (ownedI []) = true
      · simp [ha, ho, mapO, grouped, h2]
      · simp [ha, ho]
    · simp [ha, mapO, h1]

theorem fmtCs_cols (nm : Col → Nm) (w : WMap) : ∀ (es : CExprs) (its : List (Col × Item)), fmtCs nm w es = some its → its.map (·.1) = es.cols
  | .nil, its, h => by cases h; rfl
  | .cons c e es, its, h => by
    simp only [fmtCs] at h
    cases hx : fmtE nm w e with
    | none => rw [hx] at h; simp at h
    | some x => cases hy : fmtCs nm w es with
      | none => rw [hx, hy] at h; simp at h
      | some ys =>
        rw [hx, hy] at h
        simp only [Option.some.injEq] at h
        subst h
        simp [CExprs.cols, fmtCs_cols nm w es ys hy]

theorem findItem_none {c : Col} : ∀ {its : List (Col × Item)}, c ∉ its.map (·.1) → findItem its c = none
  | [], _ => rfl
  | (d, i) :: r, h => by
    simp only [List.map_cons, List.mem_cons, not_or] at h
    rw [findItem, if_neg (fun e => h.1 e.symm)]
    exact findItem_none h.2

/-- **C250** a query that selects a column of the scan fails. -/
theorem C250_select (S : Sem V) (db : Db V) (exprs : CExprs) (cols : List Col) (out : List (Col × List Char)) (c : Col)
    (hs : scopedCs (fun _ => none) exprs) (hc : c ∈ cols) (hn : c ∉ exprs.cols) :
    ∃ q, text out (.select exprs cols) = some q ∧ Fails S db q := by
  obtain ⟨its, hi⟩ := hasCs uid (fun _ => none) exprs hs
  refine fails_query (t := [.sel (selList uid its cols)]) ?_ rfl fun n => fails_name S db _ (uid c) ?_ n _
  · simp only [Top.on, fmtS, hi, formatInput]
  · unfold selList
    rw [List.mem_map]
    refine ⟨c, hc, ?_⟩
    rw [findItem_none (by rw [fmtCs_cols _ _ _ _ hi]; exact hn)]
    rfl

/-- **C250** a query with WHERE fails: its text has WHERE directly after FROM. -/
theorem C250_where (S : Sem V) (db : Db V) (e : Expr) (exprs : CExprs) (cols : List Col) (out : List (Col × List Char))
    (he : scopedE (fun _ => none) e) (hs : scopedCs (fun _ => none) exprs) :
    ∃ q, text out (.filtered e exprs cols) = some q ∧ Fails S db q := by
  obtain ⟨its, hi⟩ := hasCs uid (fun _ => none) exprs hs
  obtain ⟨x, hx⟩ := hasE uid (fun _ => none) e he
  refine fails_query (t := [.sel (selList uid its cols), .from, .whr x]) ?_ rfl fun n => fails_text ?_ n _ _
  · have hw : wraps [] = false := by decide
    simp only [Top.on, fmtS, hi, hx, hw, Bool.false_eq_true, if_false, List.nil_append, formatInput, startsSel]
  · simp only [pQuery, pBody, pCore, pFrom, pChain, trefOf, Option.map_none, ite_self]

/-- **C250** an aggregate of an expression with a column fails. -/
theorem C250_agg (S : Sem V) (db : Db V) (c : Col) (f : Nat) (args : Exprs) (xs : List SExpr) (out : List (Col × List Char))
    (hx : fmtEs uid (fun _ => none) args = some xs) (hn : nmEs xs ≠ []) :
    ∃ q, text out (.aggregate .nil (.cons c f args .nil) [c]) = some q ∧ Fails S db q := by
  refine fails_query (t := [.sel [.agg (.fn f) xs (some (uid c))]]) ?_ rfl fun n => ?_
  · simp [Top.on, fmtS, fmtAs, fmtCs, hx, formatInput, selList, findItem, CExprs.cols]
  · cases n with
    | zero => rfl
    | succ n =>
      have ho : owned [] xs = false := by
        unfold owned
        simp only [List.not_mem_nil, decide_false, Bool.or_eq_false_iff]
        exact ⟨by simpa using hn, by simp⟩
      simp [evalQ, evalBody, pQuery, pBody, pCore, pFrom, pWhere, pGroup, pMore, pOrder, pLimit, evalCtes, evalCore, evalFW, evalRows, isAgg,
        ownedI, ho]

/-- Literal arguments. -/
def lits : List Nat → Exprs
  | [] => .nil
  | k :: ks => .cons (.lit k) (lits ks)

theorem fmt_lits (ks : List Nat) : fmtEs uid (fun _ => none) (lits ks) = some (ks.map SExpr.lit) := by
  induction ks with
  | nil => rfl
  | cons k ks ih => simp only [lits, fmtEs, fmtE, ih, List.map_cons]

omit [DecidableEq V] in
theorem eval_lits (S : Sem V) (q : SEnv V → List Tok → Option (Rel V)) (env : SEnv V) (ks : List Nat) :
    evalXs S q env (ks.map SExpr.lit) = some (ks.map S.lit) := by
  induction ks with
  | nil => rfl
  | cons k ks ih => simp only [List.map_cons, evalXs, evalX, ih]

theorem nm_lits (ks : List Nat) : nmEs (ks.map SExpr.lit) = [] := by
  induction ks with
  | nil => rfl
  | cons k ks ih => simp only [List.map_cons, nmEs, nmE, ih, List.append_nil]

/-- **C250** an aggregate without columns, such as COUNT(*), is computed as if the scan had one row. -/
theorem C250_partial (S : Sem V) (db : Db V) (c : Col) (f : Nat) (ks : List Nat) (name : List Char) :
    ∃ q, text [(c, name)] (.aggregate .nil (.cons c f (lits ks) .nil) [c]) = some q ∧
      Yields S db q ([.raw name], [[S.agg (.fn f) [ks.map S.lit]]]) := by
  refine ⟨[.sel [.ex (.name (uid c)) (some (.raw name))], .from, .grp [.sel [.agg (.fn f) (ks.map .lit) (some (uid c))]]], ?_, 2, fun n hn => ?_⟩
  · simp [text, fmtQuery, Top.on, fmtS, fmtAs, fmtCs, fmt_lits, formatInput, selList, findItem, CExprs.cols]
  · obtain ⟨m, rfl⟩ : ∃ m, n = m + 2 := ⟨n - 2, by omega⟩
    have h1 : evalQ S db (m + 1) (fun _ => none) (fun _ => none) [.sel [.agg (.fn f) (ks.map .lit) (some (uid c))]] =
        some ([uid c], [[S.agg (.fn f) [ks.map S.lit]]]) := by
      simp [evalQ, evalBody, pQuery, pBody, pCore, pFrom, pWhere, pGroup, pMore, pOrder, pLimit, evalCtes, evalCore, evalFW, evalRows, isAgg,
        ownedI, owned, nm_lits, mapO, grouped, itemAgg, eval_lits, itemHdr, evalOrder, limited]
    rw [show m + 2 = (m + 1) + 1 from rfl, evalQ]
    simp only [evalBody, pQuery, pBody, pCore, pFrom, pChain, trefOf, pLoop, Option.map_some, pWhere, pGroup, List.isEmpty_cons, Bool.false_eq_true,
      if_false, List.length_nil, pMore, pOrder, pLimit, List.foldl_nil, evalCtes, evalCore, evalFW, evalPT, evalTref, startsSel, if_true, h1]
    simp [evalRows, isAgg, mapO, itemVal, evalX, bindR, lk, itemHdr, evalOrder, limited]

end

/-- SELECT COUNT(*) FROM t TABLESAMPLE … is 1, whatever `t` holds. -/
theorem C250_wrong (db : Db (Option Int)) : ∃ q, text [(cd, ['d'])] (.aggregate .nil (.cons cd 1 .nil .nil) [cd]) = some q ∧
    Yields S0 db q ([.raw ['d']], [[some 1]]) := C250_partial S0 db cd 1 [] ['d']

theorem C250_full_false : ¬ C250_full := by
  intro h
  obtain ⟨q, h1, h2⟩ := h (Option Int) inferInstance S0 db0 (.aggregate .nil (.cons cd 1 .nil .nil) [cd]) "e".toList [] [(cd, ['d'])]
    [[some 0]] [[some 0]] (by simp) ⟨by decide, by simp [Top.on, scopedS, scopedEs, scopedCs, scopedAs], rfl⟩ (by decide +kernel) (by decide +kernel)
  obtain ⟨q', h3, h4⟩ := C250_wrong db0
  have : q = q' := Option.some.inj (h1.symm.trans h3)
  subst this
  rcases h2 with h2 | h2
  · have := h2.unique h4
    simp at this
  · exact h4.not_fails h2

/-- SELECT a FROM t TABLESAMPLE … meets the hypotheses. -/
example : ∃ q, text [(ca, ['a'])] (.select .nil [ca]) = some q ∧ Fails S0 db0 q :=
  C250_select S0 db0 .nil [ca] _ ca trivial (by simp) (by simp [CExprs.cols])

end Verif.Blank
