import Verif.Props.QueryMore

/-!
# Queries: set operations, WITH, scalar subqueries
-/

namespace Verif.Query

set_option linter.unusedSectionVars false

/-! ### C139: set operations -/

structure SetParts (items : Items) (cols : List Col) : Prop where
  some : items.isNil = false
  inputs : okIs uid (fun _ => none) items
  ne : cols ≠ []
  width : items.outsLen cols.length

/-- C139: UNION, INTERSECT and EXCEPT, ALL or DISTINCT, of any queries are translated faithfully. -/
def C139_full : Prop := ∀ o items cols, Resolved (.setop o items cols) → SetParts items cols → Faithful (.setop o items cols)

/-- C139, what is proved: UNION ALL and the DISTINCT operations if no column is twice in the output of the first query. -/
theorem C139_partial (o : SetOp) (items : Items) (cols : List Col) (hr : Resolved (.setop o items cols)) (hp : SetParts items cols)
    (ho : o ≠ .intersectAll ∧ o ≠ .exceptAll) (hd : items.firstOuts.Nodup) : Faithful (.setop o items cols) := by
  refine C134_partial _ hr ?_
  unfold okS
  refine ⟨?_, hp.some, hp.inputs, hp.ne, hp.width, hd⟩
  cases o <;> simp_all [sqliteHas]

/-- `SELECT a FROM t EXCEPT DISTINCT SELECT b FROM u` meets the hypotheses. -/
example : Faithful (.setop .except (.cons (pr T [ca]) [ca] (.cons (pr U [cb]) [cb] .nil)) [cc]) := by
  refine C139_partial _ _ _ ⟨by decide, ?_, rfl⟩ ⟨rfl, ?_, by simp, ?_⟩ (by simp) (by simp [Items.firstOuts])
  · simp [pr, T, U, scopedS, scopedIs, scopedCs]
  · simp [pr, T, U, okIs, okS, okCs, Scan.cols]
  · simp [Items.outsLen]

theorem fromTok_setop_end {r : List Tok} {n m : Option Nat} (h : pLimit (pOrder r).2 = (n, m, [])) : fromTok isSetop r = [] := by
  have h1 : fromTok isSetop (pOrder r).2 = fromTok isSetop r := by
    unfold pOrder
    split <;> simp [fromTok, isSetop]
  rw [← h1]
  generalize (pOrder r).2 = r at h
  unfold pLimit at h
  split at h
  · cases h; simp [fromTok, isSetop]
  · cases h; simp [fromTok, isSetop]
  · cases h; rfl

/-- A query in which INTERSECT ALL or EXCEPT ALL follows its first SELECT is a syntax error. -/
theorem pQuery_setop {items : List Item} {a q : List Tok} (ha : ∀ x ∈ a, isSetop x = false) {o : SetOp}
    (ho : sqliteHas o = false) : pQuery (.sel items :: (a ++ .setop o :: q)) = none := by
  have hq : pQuery (.sel items :: (a ++ .setop o :: q)) = pBody [] (.sel items :: (a ++ .setop o :: q)) := rfl
  rw [hq]
  unfold pBody
  split
  · rfl
  rename_i c r hc
  have hr : fromTok isSetop r = .setop o :: q := by
    rw [pCore_fromTok (p := isSetop) (by intro x; cases x <;> simp [isSetop, isEnd]) hc]
    have : fromTok isSetop (.sel items :: (a ++ .setop o :: q)) = fromTok isSetop (a ++ .setop o :: q) := by simp [fromTok, isSetop]
    rw [this, fromTok_append ha]
    simp [fromTok, isSetop]
  cases r with
  | nil => simp [fromTok] at hr
  | cons x r =>
    cases hx : isSetop x with
    | true =>
      cases x <;> simp [isSetop] at hx
      simp only [fromTok, isSetop, if_true, List.cons.injEq, Tok.setop.injEq] at hr
      obtain ⟨rfl, rfl⟩ := hr
      simp [pMore, ho]
    | false =>
      have hm : pMore (x :: r).length (x :: r) = some ([], x :: r) := by
        cases x <;> first | rfl | simp [isSetop] at hx
      rw [hm]
      simp only
      split
      · rename_i n m h
        have := fromTok_setop_end h
        rw [hr] at this
        simp at this
      · rfl

/-- INTERSECT ALL and EXCEPT ALL of two or more queries are a syntax error of SQLite, for all queries and databases. -/
theorem C139_all {V : Type} [DecidableEq V] (S : Sem V) (db : Db V) (out : List (Col × List Char)) (o : SetOp)
    (ho : o = .intersectAll ∨ o = .exceptAll) (s s' : Scan) (outs outs' : List Col) (is : Items) (cols : List Col)
    (hs : scopedIs (fun _ => none) (.cons s outs (.cons s' outs' is))) :
    ∃ q, fmtQuery out (.setop o (.cons s outs (.cons s' outs' is)) cols) = some q ∧ Fails S db q := by
  obtain ⟨t, ht⟩ := hasS uid _ s hs.1
  obtain ⟨t', ht'⟩ := hasS uid _ s' hs.2.1
  obtain ⟨x, y, hxy⟩ := hasIs uid _ o is hs.2.2
  have ho' : sqliteHas o = false := by rcases ho with rfl | rfl <;> rfl
  have h' : ∃ q', fmtIs uid (fun _ => none) o (.cons s' outs' is) = some (outs', .sel (outs'.map fun c => .ex (.name (uid c)) none) :: q') :=
    ⟨_, by rw [fmtIs.eq_2, ht', hxy]; rfl⟩
  obtain ⟨q', h'⟩ := h'
  have h : fmtIs uid (fun _ => none) o (.cons s outs (.cons s' outs' is)) = some (outs, .sel (outs.map fun c => .ex (.name (uid c)) none) ::
      (formatInput t ++ .setop o :: .sel (outs'.map fun c => .ex (.name (uid c)) none) :: q')) := by
    rw [fmtIs.eq_2, ht, h']
    rfl
  have hp := pQuery_setop (items := outs.map fun c => .ex (.name (uid c)) none) (a := formatInput t)
    (q := .sel (outs'.map fun c => .ex (.name (uid c)) none) :: q') (fun x hx => by
      have := formatInput_top ht x hx
      cases x <;> simp_all [isTail, isSetop]) ho'
  refine fails_query (t := [.sel ((outs.zip cols).map fun x => .ex (.name (uid x.1)) (some (uid x.2))), .from,
    .grp (.sel (outs.map fun c => .ex (.name (uid c)) none) ::
      (formatInput t ++ .setop o :: .sel (outs'.map fun c => .ex (.name (uid c)) none) :: q'))]) ?_ rfl fun n => ?_
  · simp only [fmtS, h]
  · cases n with
    | zero => rfl
    | succ n => exact fails_from rfl (fails_text hp n _ _)

/-- `SELECT a FROM t EXCEPT ALL SELECT b FROM u` meets the hypotheses. -/
example : ∃ q, fmtQuery [(cc, ['c'])] (.setop .exceptAll (.cons (pr T [ca]) [ca] (.cons (pr U [cb]) [cb] .nil)) [cc]) = some q ∧ Fails S0 db0 q :=
  C139_all S0 db0 _ _ (Or.inr rfl) _ _ _ _ _ _ (by simp [pr, T, U, scopedS, scopedIs, scopedCs])

theorem C139_full_false : ¬ C139_full := by
  intro h
  obtain ⟨t, h1, h2⟩ := h .exceptAll (.cons (pr T [ca]) [ca] (.cons (pr U [cb]) [cb] .nil)) [cc]
    ⟨by decide, by simp [pr, T, U, scopedS, scopedIs, scopedCs], rfl⟩
    ⟨rfl, by simp [pr, T, U, okIs, okS, okCs, Scan.cols], by simp, by simp [Items.outsLen]⟩
    (Option Int) inferInstance S0 db0 [(cc, ['c'])] [[some 1], [some 3]] [[some 1], [some 3]] (by simp) (by decide +kernel) (by decide +kernel)
  obtain ⟨q, h3, h4⟩ := C139_all S0 db0 [(cc, ['c'])] .exceptAll (Or.inr rfl) (pr T [ca]) (pr U [cb]) [ca] [cb] .nil [cc]
    (by simp [pr, T, U, scopedS, scopedIs, scopedCs])
  have ht : t = q := Option.some.inj (h1.symm.trans h3)
  subst ht
  exact h2.not_fails h4

/-- `v(b, c)` with other columns, which a query may read a second time. -/
def ce : Col := ⟨['b'], 5⟩
def cf : Col := ⟨['c'], 6⟩
def cg : Col := ⟨['x'], 7⟩
def ch : Col := ⟨['y'], 8⟩

/-- `SELECT a, a FROM t UNION ALL SELECT b, c FROM v`: the second column of the result repeats the first, so the row (5, 6)
becomes (5, 5). -/
theorem C139_twice : ¬ ∀ o items cols, Resolved (.setop o items cols) → SetParts items cols →
    o ≠ .intersectAll ∧ o ≠ .exceptAll → Faithful (.setop o items cols) := by
  intro h
  obtain ⟨t, h1, h2⟩ := h .unionAll (.cons (pr T [ca]) [ca, ca] (.cons (pr (.table ['v'] [ce, cf]) [ce, cf]) [ce, cf] .nil)) [cg, ch]
    ⟨by decide, by simp [pr, T, scopedS, scopedIs, scopedCs], rfl⟩
    ⟨rfl, by simp [pr, T, okIs, okS, okCs, Scan.cols], by simp, by simp [Items.outsLen]⟩ (by simp)
    (Option Int) inferInstance S0 db0 [(cg, ['x']), (ch, ['y'])] [[some 1, some 1], [some 2, some 2], [some 3, some 3], [some 5, some 6]]
    [[some 1, some 1], [some 2, some 2], [some 3, some 3], [some 5, some 6]] (by simp) (by decide +kernel) (by decide +kernel)
  have h3 : Yields S0 db0 t ([.raw ['x'], .raw ['y']], [[some 1, some 1], [some 2, some 2], [some 3, some 3], [some 5, some 5]]) := by
    cases h1
    refine ⟨10, fun n hn => ?_⟩
    obtain ⟨m, rfl⟩ : ∃ m, n = m + 10 := ⟨n - 10, by omega⟩
    rfl
  have := h2.unique h3
  simp at this

/-! ### C140: WITH -/

structure WithParts (es : Entries) (body : Scan) : Prop where
  some : es.isNil = false
  names : es.names.Nodup
  queries : okWs uid (fun _ => none) es
  query : isQuery body = true
  body : okS uid (wAfter (fun _ => none) es) body

/-- C140: a query with a WITH clause is translated faithfully, whatever the names of the WITH queries; the query may have a
WITH clause itself. -/
def C140_full : Prop := ∀ es body, Resolved (.with_ es body) → WithParts es body → Faithful (.with_ es body)

/-- C140, what is proved: if no WITH query has the name of a table that is read in the statement, and the WITH clause is not
followed directly by another. -/
theorem C140_partial (es : Entries) (body : Scan) (hr : Resolved (.with_ es body)) (hp : WithParts es body)
    (hn : ∀ n ∈ es.names, n ∉ tabWs es ++ tabS body) (hw : isWith body = false) : Faithful (.with_ es body) := by
  refine C134_partial _ hr ?_
  unfold okS
  exact ⟨hp.some, hp.names, fun n h => ⟨hn n h, rfl⟩, hp.queries, hp.query, hw, hp.body⟩

/-- `WITH w AS (SELECT a FROM t) SELECT b FROM w WHERE b > 1` (where `b` names the column of `w`) meets the hypotheses. -/
example : Faithful (.with_ (.cons ['w'] (pr T [ca]) .nil) (pr (.filter (.ref ['w'] [cb]) (gt cb 1)) [cb])) := by
  refine C140_partial _ _ ⟨by decide, ?_, rfl⟩ ⟨rfl, by simp [Entries.names], ?_, rfl, ?_⟩ (by decide) rfl
  · simp [pr, T, gt, scopedS, scopedWs, scopedE, scopedEs, scopedCs, wAfter, upd, Scan.cols]
  · simp [pr, T, okWs, okS, okCs, isQuery, Scan.cols]
  · simp [pr, gt, okS, okE, okEs, okCs, leftOk, isQuery, Scan.cols]

/-- A WITH query that reads the table with its own name is a circular reference, for all tables, queries and databases. -/
theorem C140_self {V : Type} [DecidableEq V] (S : Sem V) (db : Db V) (out : List (Col × List Char)) (n : TName)
    (tcols cols : List Col) (exprs : CExprs) (es : Entries) (body : Scan)
    (hs : scopedS (fun _ => none) (.with_ (.cons n (.project (.table n tcols) exprs cols) es) body)) :
    ∃ q, fmtQuery out (.with_ (.cons n (.project (.table n tcols) exprs cols) es) body) = some q ∧ Fails S db q := by
  obtain ⟨its, hits⟩ := hasCs uid _ exprs hs.1.1.2
  obtain ⟨qs, hqs⟩ := hasWs uid _ es hs.1.2
  obtain ⟨t, ht⟩ := hasS uid _ body hs.2
  have hent : fmtS uid (fun _ => none) (.project (.table n tcols) exprs cols) = some [.sel (selList uid its cols), .from,
      .grp [.sel (tcols.map fun c => .ex (.name (.raw c.name)) (some (uid c))), .from, .tbl n]] := by
    rw [fmtS.eq_7, hits]
    simp only [fmtS]
    rfl
  have ht' : fmtS uid (wAfter (upd (fun _ => none) n cols) es) body = some t := ht
  have hqs' : fmtWs uid (upd (fun _ => none) n cols) es = some (qs, wAfter (upd (fun _ => none) n cols) es) := hqs
  have hf : ∀ (m : Nat) (cte : CTE V) (envs : SEnv V) (i j : List Item), cte n = some none →
      evalQ S db m cte envs [.sel i, .from, .grp [.sel j, .from, .tbl n]] = none := by
    intro m cte envs i j hc
    cases m with
    | zero => rfl
    | succ m =>
      refine fails_from rfl ?_
      cases m with
      | zero => rfl
      | succ m =>
        simp only [evalQ, evalBody, pQuery, pBody, pCore, pFrom, pChain, trefOf, pLoop, Option.map_some, pWhere, pGroup]
        cases j with
        | nil => rfl
        | cons a j =>
          simp only [List.isEmpty_cons, Bool.false_eq_true, if_false, List.length_nil, pMore, pOrder, pLimit, evalCtes,
            List.foldl_nil, evalCore, evalFW, evalPT, evalTref, hc]
  refine fails_query (t := .withs ((n, [.sel (selList uid its cols), .from,
      .grp [.sel (tcols.map fun c => .ex (.name (.raw c.name)) (some (uid c))), .from, .tbl n]]) :: qs) :: t) ?_ rfl fun m => ?_
  · have hc : (Scan.project (.table n tcols) exprs cols).cols = cols := rfl
    simp only [fmtS.eq_12, fmtWs.eq_2, hent, hc, hqs', ht']
  · cases m with
    | zero => rfl
    | succ m =>
      simp only [evalQ, evalBody, pQuery]
      split
      · rfl
      rename_i p hp
      have hpc : p.ctes = (n, [.sel (selList uid its cols), .from,
          .grp [.sel (tcols.map fun c => .ex (.name (.raw c.name)) (some (uid c))), .from, .tbl n]]) :: qs := by
        unfold pBody at hp
        repeat' split at hp
        all_goals first | (cases hp; rfl) | simp at hp
      rw [hpc]
      have hfold : ∀ (l : List (TName × List Tok)) (c : CTE V), c n = some none →
          (l.foldl (fun c e => upd c e.1 none) c) n = some none := by
        intro l
        induction l with
        | nil => intro c h; exact h
        | cons e l ih =>
          intro c h
          refine ih _ ?_
          show (if n = e.1 then some none else c n) = some none
          split
          · rfl
          · exact h
      have h0 := hf m ((((n, [Tok.sel (selList uid its cols), .from,
          .grp [.sel (tcols.map fun c => .ex (.name (.raw c.name)) (some (uid c))), .from, .tbl n]]) :: qs)).foldl
            (fun c e => upd c e.1 none) (fun _ => none)) (fun _ => none) (selList uid its cols)
          (tcols.map fun c => .ex (.name (.raw c.name)) (some (uid c))) (by
            rw [List.foldl_cons]
            exact hfold _ _ (by simp [upd]))
      simp only [evalCtes, h0]

/-- `WITH t AS (SELECT a FROM t) SELECT b FROM t` meets the hypotheses. -/
example : ∃ q, fmtQuery [(cb, ['b'])] (.with_ (.cons ['t'] (pr T [ca]) .nil) (pr (.ref ['t'] [cb]) [cb])) = some q ∧ Fails S0 db0 q :=
  C140_self S0 db0 _ ['t'] [ca] [ca] .nil .nil _ (by simp [pr, scopedS, scopedWs, scopedCs, wAfter, upd, Scan.cols])

/-- A WITH clause directly after another is a syntax error, for all queries and databases. -/
theorem C140_nested {V : Type} [DecidableEq V] (S : Sem V) (db : Db V) (out : List (Col × List Char)) (es es' : Entries) (body : Scan)
    (hs : scopedS (fun _ => none) (.with_ es (.with_ es' body))) :
    ∃ q, fmtQuery out (.with_ es (.with_ es' body)) = some q ∧ Fails S db q := by
  obtain ⟨qs, hqs⟩ := hasWs uid _ es hs.1
  obtain ⟨qs', hqs'⟩ := hasWs uid _ es' hs.2.1
  obtain ⟨t, ht⟩ := hasS uid _ body hs.2.2
  refine fails_query (t := .withs qs :: .withs qs' :: t) ?_ rfl fun m => fails_text ?_ m _ _
  · simp only [fmtS.eq_12, hqs, hqs', ht]
  · simp only [pQuery, pBody, pCore]

/-- `WITH w AS (SELECT a FROM t) (WITH x AS (SELECT b FROM u) SELECT c FROM x)` meets the hypotheses. -/
example : ∃ q, fmtQuery [(cc, ['c'])] (.with_ (.cons ['w'] (pr T [ca]) .nil) (.with_ (.cons ['x'] (pr U [cb]) .nil)
    (pr (.ref ['x'] [cc]) [cc]))) = some q ∧ Fails S0 db0 q :=
  C140_nested S0 db0 _ _ _ _ (by simp [pr, T, U, scopedS, scopedWs, scopedCs, wAfter, upd, Scan.cols])

theorem C140_full_false : ¬ C140_full := by
  intro h
  have hs : scopedS (fun _ => none) (.with_ (.cons ['t'] (pr T [ca]) .nil) (pr (.ref ['t'] [cb]) [cb])) := by
    simp [pr, T, scopedS, scopedWs, scopedCs, wAfter, upd, Scan.cols]
  obtain ⟨t, h1, h2⟩ := h (.cons ['t'] (pr T [ca]) .nil) (pr (.ref ['t'] [cb]) [cb]) ⟨by decide, hs, rfl⟩
    ⟨rfl, by simp [Entries.names], by simp [pr, T, okWs, okS, okCs, isQuery, Scan.cols], rfl, by simp [pr, okS, okCs, Scan.cols]⟩
    (Option Int) inferInstance S0 db0 [(cb, ['b'])] [[some 1], [some 2], [some 3]] [[some 1], [some 2], [some 3]] (by simp)
    (by decide +kernel) (by decide +kernel)
  obtain ⟨q, h3, h4⟩ := C140_self S0 db0 [(cb, ['b'])] ['t'] [ca] [ca] .nil .nil (pr (.ref ['t'] [cb]) [cb]) hs
  have ht : t = q := Option.some.inj (h1.symm.trans h3)
  subst ht
  exact h2.not_fails h4

/-! ### C141: scalar subqueries -/

/-- `SELECT (s) AS c` -/
def selScalar (c : Col) (s : Scan) : Scan := .project .single (.cons c (.scalar s) .nil) [c]

structure ScalarParts (s : Scan) : Prop where
  input : okS uid (fun _ => none) s
  query : isQuery s = true

/-- C141: a scalar subquery with more than one row is an error. -/
def C141_full : Prop := ∀ (V : Type) (_ : DecidableEq V) (S : Sem V) (db : Db V) (c : Col) (name : List Char) (s : Scan)
    (r r' : List V) (L : List (List V)), Resolved (selScalar c s) → ScalarParts s →
  evalS S db (fun _ => none) (fun _ => none) s = some (r :: r' :: L) →
  ∀ t, fmtQuery [(c, name)] (selScalar c s) = some t → ∀ R, ¬ Yields S db t R

/-- C141, what is proved: a scalar subquery with no row is NULL, and one with one row has its value. -/
theorem C141_partial {V : Type} [DecidableEq V] (S : Sem V) (db : Db V) (c : Col) (name : List Char) (s : Scan) (L : List (List V))
    (v : V) (hr : Resolved (selScalar c s)) (hp : ScalarParts s) (he : evalS S db (fun _ => none) (fun _ => none) s = some L)
    (hv : (L = [] ∧ v = S.null) ∨ ∃ r, L = [v :: r]) :
    ∃ t, fmtQuery [(c, name)] (selScalar c s) = some t ∧ Yields S db t ([.raw name], [[v]]) := by
  refine C134_partial (selScalar c s) hr ?_ V inferInstance S db [(c, name)] [[v]] [[v]] (by simp) ?_ ?_
  · rw [selScalar, okS.eq_8]
    exact ⟨Or.inl rfl, ⟨⟨hp.query, hp.input⟩, trivial⟩, by simp, by simp [CExprs.cols]⟩
  · have h0 : bindR (V := V) ([] : List Col) [] (fun _ => none) = fun _ => none := by
      funext n
      simp [bindR, lk]
    simp only [selScalar, evalS, Scan.cols, mapO, evalCs, evalE, h0, he]
    rcases hv with ⟨rfl, rfl⟩ | ⟨r, rfl⟩
    · simp [CExprs.cols, pick, mapO, lk]
    · simp [CExprs.cols, pick, mapO, lk]
  · simp [selScalar, Scan.cols, pick, mapO, lk]

/-- A scalar subquery with any rows has the value of its first row: no error is reported for several, in all databases. -/
theorem C141_first {V : Type} [DecidableEq V] (S : Sem V) (db : Db V) (c : Col) (name : List Char) (s : Scan) (v : V) (r : List V)
    (L : List (List V)) (hr : Resolved (selScalar c s)) (hp : ScalarParts s)
    (he : evalS S db (fun _ => none) (fun _ => none) s = some ((v :: r) :: L)) :
    ∃ t, fmtQuery [(c, name)] (selScalar c s) = some t ∧ Yields S db t ([.raw name], [[v]]) := by
  obtain ⟨t, ht⟩ := hasS uid _ s hr.inScope.2.1
  have hts : fmtS uid (fun _ => none) (selScalar c s) = some [.sel [.ex (.scalar t) (some (uid c))]] := by
    simp only [selScalar, fmtS, fmtCs, fmtE, ht, Option.map_some, selList, List.map_cons, List.map_nil, findItem, if_true,
      Option.getD_some, formatInput]
  refine ⟨_, by simp only [fmtQuery, hts]; rfl, ?_⟩
  obtain ⟨N, hN⟩ := soundS S db uid starred_uid s (fun _ => none) t ht hp.input
  have hids : ((intS s).map (·.id)).Nodup := by
    have := hr.ids
    simp only [selScalar, intS, intCs, intE, List.nil_append, List.append_nil, List.map_cons, List.nodup_cons] at this
    exact this.2
  refine ⟨N + 2, fun n hn => ?_⟩
  obtain ⟨m, rfl⟩ : ∃ m, n = m + 2 := ⟨n - 2, by omega⟩
  have hfin := hN m (by omega) (fun _ => none) (fun _ => none) (fun _ => none) (fun _ => none)
    ⟨fun n r h => by simp at h, fun t h => rfl, fun c v h => by simp at h, fun d h => by simp at h, ids_dist hids⟩ _ he
  have hq := hfin.den.1 (isQuery_sel ht hp.query)
  have h0 : bindR (V := V) ([] : List Nm) [] (fun _ => none) = fun _ => none := by
    funext n
    simp [bindR, lk]
  have h1 : evalQ S db (m + 1) (fun _ => none) (fun _ => none) [.sel [.ex (.scalar t) (some (uid c))]] = some ([uid c], [[v]]) := by
    simp only [evalQ, evalBody, pQuery, pBody, pCore, pFrom, pWhere, pGroup, List.isEmpty_cons, Bool.false_eq_true, if_false,
      List.length_nil, pMore, pOrder, pLimit, evalCtes, List.foldl_nil, evalCore, evalFW, evalRows, List.isEmpty_nil, List.any_cons,
      List.any_nil, isAgg, Bool.or_self, Bool.not_false, Bool.and_self, if_true, mapO, itemVal, evalX, h0]
    rw [hq]
    rfl
  have hst : startsSel [Tok.sel [.ex (.scalar t) (some (uid c))]] = true := rfl
  rw [evalQ]
  simp only [evalBody, pQuery, pBody, pCore, pFrom, pWhere, pGroup, pChain, trefOf, pLoop, Option.map_some, List.isEmpty_cons, Bool.false_eq_true, if_false,
    List.length_nil, pMore, pOrder, pLimit, evalCtes, List.foldl_nil, evalCore, evalFW, evalPT, evalTref, hst, evalRows, List.isEmpty_nil, List.any_cons,
    List.any_nil, isAgg, Bool.or_self, Bool.not_false, Bool.and_self, if_true, mapO, itemVal, h1, List.map_cons, List.map_nil]
  simp [mapO, itemVal, evalX, bindR, lk, evalOrder, itemHdr, limited]

/-- `SELECT (SELECT a FROM t) AS d`, where `t` has three rows. -/
theorem C141_full_false : ¬ C141_full := by
  intro h
  have hr : Resolved (selScalar cd (pr T [ca])) := ⟨by decide, by simp [selScalar, pr, T, scopedS, scopedE, scopedCs], rfl⟩
  have hp : ScalarParts (pr T [ca]) := ⟨by simp [pr, T, okS, okCs, Scan.cols], rfl⟩
  obtain ⟨t, h1, h2⟩ := C141_first S0 db0 cd ['d'] (pr T [ca]) (some 1) [] [[some 2], [some 3]] hr hp (by decide +kernel)
  exact h (Option Int) inferInstance S0 db0 cd ['d'] (pr T [ca]) [some 1] [some 2] [[some 3]] hr hp (by decide +kernel) t h1 _ h2

/-- `SELECT (SELECT c FROM e) AS d`, where `e` is empty, meets the hypotheses of `C141_partial`. -/
example : ∃ t, fmtQuery [(cd, ['d'])] (selScalar cd (pr E [cc])) = some t ∧ Yields S0 db0 t ([.raw ['d']], [[none]]) :=
  C141_partial S0 db0 cd ['d'] (pr E [cc]) [] none ⟨by decide, by simp [selScalar, pr, E, scopedS, scopedE, scopedCs], rfl⟩
    ⟨by simp [pr, E, okS, okCs, Scan.cols], rfl⟩ (by decide +kernel) (Or.inl ⟨rfl, rfl⟩)

end Verif.Query
