import Verif.Lemmas.QueryText

/-!
# Queries

C134: the SQLite text of a query yields the query's rows.  C135 to C141: WHERE on a subquery, nested joins, LEFT JOIN UNNEST,
HAVING, set operations, WITH, scalar subqueries.  C142: the names of columns.
-/

namespace Verif.Query

set_option linter.unusedSectionVars false

/-! ### What a translation should do -/

/-- What the analyzer guarantees of the query of a statement: every column it introduces has its own identifier, every WITH
query it refers to is in scope, and it is no bare table, join or filter. -/
structure Resolved (s : Scan) : Prop where
  ids : ((intS s).map (·.id)).Nodup
  inScope : scopedS (fun _ => none) s
  query : isQuery s = true

/-- The translation of the query, with any output columns, yields the query's rows, in every database and for all meanings
of functions and literals. -/
def Faithful (s : Scan) : Prop :=
  ∀ (V : Type) (_ : DecidableEq V) (S : Sem V) (db : Db V) (out : List (Col × List Char)) (rows R : List (List V)), out ≠ [] →
    evalS S db (fun _ => none) (fun _ => none) s = some rows →
    mapO (fun a => pick s.cols a (out.map (·.1))) rows = some R →
    ∃ t, fmtQuery out s = some t ∧ Yields S db t (out.map fun x => .raw x.2, R)

/-- C134: every query is translated faithfully. -/
def C134_full : Prop := ∀ s, Resolved s → Faithful s

theorem uid_inj {a b : Col} (h : uid a = uid b) : a = b := by
  cases a
  cases b
  simp only [uid, Nm.uid.injEq] at h
  simp [h.1, h.2]

theorem starred_uid (c : Col) : starred (uid c) = true := by simp [starred, uid]

theorem ids_dist {cs : List Col} (h : (cs.map (·.id)).Nodup) : Dist uid cs := by
  induction cs with
  | nil => exact List.nodup_nil
  | cons c cs ih =>
    simp only [List.map_cons, List.nodup_cons] at h
    simp only [Dist, List.map_cons, List.nodup_cons]
    refine ⟨fun hm => h.1 ?_, ih h.2⟩
    obtain ⟨d, hd, he⟩ := List.mem_map.1 hm
    rw [← uid_inj he]
    exact List.mem_map_of_mem hd

section
variable {V : Type} [DecidableEq V] {S : Sem V} {db : Db V}

theorem out_val {q : SEnv V → List Tok → Option (Rel V)} {envs : SEnv V} {h : List Col} {a : List V} :
    ∀ {out : List (Col × List Char)} {r : List V}, pick h a (out.map (·.1)) = some r →
    mapO (itemVal S q envs (h.map uid) a) (out.map fun x => .ex (.name (uid x.1)) (some (.raw x.2))) =
      some (r.map fun v => [v])
  | [], r, hp => by
    simp only [pick, List.map_nil, mapO, Option.some.injEq] at hp
    subst hp
    rfl
  | x :: out, r, hp => by
    obtain ⟨v, vs, h1, h2, rfl⟩ := mapO_cons hp
    refine mapO_cons' ?_ (out_val h2)
    simp only [itemVal, evalX, bindR, lk_map h1 fun c _ d _ e => uid_inj e, Option.map_some]

theorem out_hdr (h : List Nm) : ∀ out : List (Col × List Char),
    (out.map fun x => Item.ex (.name (uid x.1)) (some (.raw x.2))).flatMap (itemHdr h) = out.map fun x => Nm.raw x.2
  | [] => rfl
  | x :: out => by
    rw [List.map_cons, List.flatMap_cons, out_hdr h out]
    rfl

/-- The translation of a right scan yields its rows. -/
theorem query_sound {s : Scan} (hr : Resolved s) (hok : okS uid (fun _ => none) s) {out : List (Col × List Char)}
    {rows R : List (List V)} (ho : out ≠ []) (he : evalS S db (fun _ => none) (fun _ => none) s = some rows)
    (hp : mapO (fun a => pick s.cols a (out.map (·.1))) rows = some R) :
    ∃ t, fmtQuery out s = some t ∧ Yields S db t (out.map fun x => .raw x.2, R) := by
  obtain ⟨t, ht⟩ := hasS uid (fun _ => none) s hr.inScope
  refine ⟨_, by simp only [fmtQuery, ht]; rfl, ?_⟩
  obtain ⟨N, hN⟩ := soundS S db uid starred_uid s (fun _ => none) t ht hok
  refine ⟨N + 1, fun n hn => ?_⟩
  obtain ⟨m, rfl⟩ : ∃ m, n = m + 1 := ⟨n - 1, by omega⟩
  have hfin := hN m (by omega) (fun _ => none) (fun _ => none) (fun _ => none) (fun _ => none)
    ⟨fun n r h => by simp at h, fun t h => rfl, fun c v h => by simp at h, fun d h => by simp at h, ids_dist hr.ids⟩ rows he
  have hs := isQuery_sel ht hr.query
  have hf : FromF S db uid (evalQ S db m (fun _ => none)) (fun _ => none) (fun _ => none) (fun _ => none) none [.grp t]
      (s.cols.map uid) rows := by
    refine ⟨.leaf (.grp t), [.grp t], rfl, fun rest _ => by simp [pChain, trefOf], fun its _ => ?_⟩
    simp only [evalFW, evalPT, evalTref, hs, if_true, hfin.den.1 hs]
  have hm : mapO (fun a => (mapO (itemVal S (evalQ S db m (fun _ => none)) (fun _ => none) (s.cols.map uid) a)
      (out.map fun x => Item.ex (.name (uid x.1)) (some (.raw x.2)))).map List.flatten) rows = some R :=
    mapO_mono hp fun a ha b hb => map_flatten (out_val hb)
  have := sel_query hf (items := out.map fun x => Item.ex (.name (uid x.1)) (some (.raw x.2))) (by simpa using ho)
    (fun d h => by simp at h) (map_noAgg (fun x : Col × List Char => SExpr.name (uid x.1)) _ _) hm none
  rw [tail_none, limited_none, out_hdr] at this
  exact this

theorem Yields.unique {t : List Tok} {r r' : Rel V} (h : Yields S db t r) (h' : Yields S db t r') : r = r' := by
  obtain ⟨N, hN⟩ := h
  obtain ⟨M, hM⟩ := h'
  have h1 := hN (N + M) (by omega)
  rw [hM (N + M) (by omega)] at h1
  exact (Option.some.inj h1).symm

theorem Yields.not_fails {t : List Tok} {r : Rel V} (h : Yields S db t r) (h' : Fails S db t) : False := by
  obtain ⟨N, hN⟩ := h
  have h1 := hN N (by omega)
  rw [h' N] at h1
  simp at h1
end

/-- C134, what is proved: a query all of whose parts are right is translated faithfully.  `okS` excludes: a join with a
filter as input or a join as right input, an outer join without condition, WHERE on a subquery whose text goes on after FROM
(and is not put in parentheses), INTERSECT ALL and EXCEPT ALL, a set operation whose first query has a column twice, WITH
directly after WITH, a WITH query which has the name of a table that is read, an aggregate function which refers to columns
but to none of its own FROM clause, an analytic function whose arguments and OVER clause refer to no column of its input,
NULLS FIRST and LAST in an OVER clause where they are not the default, a grouping column that is not selected, and an empty
grouping set without a selected aggregate. -/
theorem C134_partial (s : Scan) (hr : Resolved s) (hok : okS uid (fun _ => none) s) : Faithful s :=
  fun _ _ _ _ _ _ _ ho he hp => query_sound hr hok ho he hp

/-! ### A small database -/

/-- The analytic functions of the example: 1 the number of rows of the partition, 2 the value of the first argument for its
first row in the order of the first ORDER BY item, and else the sum of the first arguments. -/
def win0 (f k : Nat) (ords : List (Bool × Bool)) (rows : List (List (Option Int))) : Option Int :=
  let opts (r : List (Option Int)) := r.reverse.drop (1 + ords.length)
  let part (r : List (Option Int)) := (opts r).take k
  let key (r : List (Option Int)) : Option Int := (r.drop (r.length - 1 - ords.length)).head?.join
  let before (a b : Option Int) : Bool := match ords, a, b with
    | (desc, _) :: _, some x, some y => if desc then x > y else x < y
    | (_, nullsFirst) :: _, none, some _ => nullsFirst
    | (_, nullsFirst) :: _, some _, none => !nullsFirst
    | _, _, _ => false
  match rows.head?.bind (·.getLast?) with
  | some (some i) =>
    let here := rows.filter fun r => part r == part (rows.getD (i.toNat - 1) [])
    match f with
    | 1 => some here.length
    | 2 => (here.find? fun r => here.all fun r' => !before (key r') (key r)).bind fun r => r.head?.join
    | _ => some (here.map fun r => (r.head?.join.getD 0)).sum
  | _ => none

/-- Integers with NULL; functions: 0 equality, 1 greater, 2 sum; aggregates: 0 the sum of the first arguments, 1 the number of
rows.  An integer as an array has the integers below it as elements. -/
def S0 : Sem (Option Int) where
  null := none
  lit k := some k
  fn f as := match f, as with
    | 0, [some a, some b] => some (if a = b then 1 else 0)
    | 1, [some a, some b] => some (if a > b then 1 else 0)
    | 2, [some a, some b] => some (a + b)
    | _, _ => none
  agg f rows := match f with
    | .win f k ords => win0 f k ords rows
    | .fn 1 => some rows.length
    | .fn _ => some (rows.map fun r => (r.head?.join.getD 0)).sum
  truth v := match v with
    | some x => x != 0
    | none => false
  elems v := match v with
    | some x => (List.range x.toNat).map fun (i : Nat) => some (Int.ofNat i)
    | none => []
  ofNat n := some n
  ofBool b := some (if b then 1 else 0)
  isIn v vs := some (if v ∈ vs then 1 else 0)
  cmp a b := compare (a.getD 0) (b.getD 0)
  count k := k

def ca : Col := ⟨['a'], 1⟩
def cb : Col := ⟨['b'], 2⟩
def cc : Col := ⟨['c'], 3⟩
def cd : Col := ⟨['d'], 4⟩

/-- `t(a)` with 1, 2, 3; `u(b)` with 2 twice; `e(c)` without rows; `v(b, c)` with one row. -/
def db0 : Db (Option Int) := fun n =>
  if n = ['t'] then some ([['a']], [[some 1], [some 2], [some 3]])
  else if n = ['u'] then some ([['b']], [[some 2], [some 2]])
  else if n = ['e'] then some ([['c']], [])
  else if n = ['v'] then some ([['b'], ['c']], [[some 5, some 6]])
  else none

def T : Scan := .table ['t'] [ca]
def U : Scan := .table ['u'] [cb]
def E : Scan := .table ['e'] [cc]
def pr (s : Scan) (cols : List Col) : Scan := .project s .nil cols
def gt (c : Col) (k : Nat) : Expr := .call 1 (.cons (.col c) (.cons (.lit k) .nil))
def eq (c d : Col) : Expr := .call 0 (.cons (.col c) (.cons (.col d) .nil))

/-- `SELECT a FROM t WHERE EXISTS (SELECT b FROM u WHERE a = b)` -/
def q1 : Scan := pr (.filter T (.exists_ (pr (.filter U (eq ca cb)) [cb]))) [ca]

theorem q1_ok : Resolved q1 ∧ okS uid (fun _ => none) q1 := by
  refine ⟨⟨by decide, ?_, rfl⟩, ?_⟩
  · simp [q1, pr, T, U, eq, scopedS, scopedE, scopedEs, scopedCs]
  · simp [q1, pr, T, U, eq, okS, okE, okEs, okCs, isQuery, leftOk, CExprs.cols, Scan.cols]

/-- The query of a small database meets the hypotheses; it yields the row 2. -/
example : ∃ t, fmtQuery [(ca, ['x'])] q1 = some t ∧ Yields S0 db0 t ([.raw ['x']], [[some 2]]) :=
  C134_partial q1 q1_ok.1 q1_ok.2 (Option Int) inferInstance S0 db0 [(ca, ['x'])] [[some 2]] [[some 2]] (by simp) (by decide +kernel)
    (by decide +kernel)

/-! ### C135: WHERE on a subquery -/

/-- `SELECT cols FROM s WHERE e` -/
def sel (cols : List Col) (s : Scan) (e : Expr) : Scan := .project (.filter s e) .nil cols

/-- The parts of `sel` are right. -/
structure Parts (cols : List Col) (s : Scan) (e : Expr) : Prop where
  input : okS uid (fun _ => none) s
  cond : okE uid (fun _ => none) e
  ne : cols ≠ []
  sub : ∀ c ∈ cols, c ∈ s.cols

/-- C135: WHERE on a table, a join or a subquery is translated faithfully. -/
def C135_full : Prop := ∀ cols s e, Resolved (sel cols s e) → Parts cols s e → leftOk s = true → Faithful (sel cols s e)

/-- Inputs to which WHERE may be appended, or which it puts in parentheses: tables, WITH queries and joins; subqueries that
end with FROM; subqueries with GROUP BY, ORDER BY or WHERE; subqueries with analytic functions whose OVER clause names a
column.  (A join condition without arguments in a subquery that follows is
excluded.) -/
inductive WhereOk : Scan → Prop
  | flat {s} : leftOk s = true → isQuery s = false → WhereOk s
  | bare {s} : bare s = true → WhereOk s
  | group {s groups aggs cols} : leftOk s = true → calm s = true → groups.cols ≠ [] → WhereOk (.agg s groups aggs cols)
  | groupWhere {s e groups aggs cols} : isQuery s = false → calm s = true → WhereOk (.agg (.filter s e) groups aggs cols)
  | order {s items cols} : leftOk s = true → calm s = true → WhereOk (.order s items cols)
  | whr {s e exprs cols} : isQuery s = false → calm s = true → WhereOk (.project (.filter s e) exprs cols)
  | sets {s groups aggs set sets cols} : leftOk s = true → calm s = true → WhereOk (.gsets s groups aggs set sets cols)
  | win {s ws cols} : ws.order ≠ [] → WhereOk (.win s ws cols)

theorem WhereOk.left {s : Scan} (h : WhereOk s) : leftOk s = true := by
  cases h with
  | flat h _ => exact h
  | bare h => cases s <;> simp_all [Query.bare, leftOk]
  | group _ _ _ => rfl
  | groupWhere _ _ => rfl
  | order _ _ => rfl
  | whr _ _ => rfl
  | sets _ _ => rfl
  | win _ => rfl

theorem WhereOk.ok {s : Scan} {e : Expr} (h : WhereOk s) (hs : okS uid (fun _ => none) s) (he : okE uid (fun _ => none) e) :
    okS uid (fun _ => none) (.filter s e) := by
  refine ⟨hs, h.left, he, fun hq => ?_⟩
  cases h with
  | flat _ h' => rw [h'] at hq; simp at hq
  | bare h => exact Or.inl h
  | group hl hc hg =>
    refine Or.inr fun t ht => wraps_agg ht ?_ hl hc hg
    simp only [okS] at hs
    exact hs.1
  | groupWhere hq' hc =>
    refine Or.inr fun t ht => wraps_agg_filter ht ?_ hc hq'
    rw [okS.eq_9] at hs
    exact hs.1
  | order hl hc =>
    refine Or.inr fun t ht => wraps_order ht ?_ hl hc
    simp only [okS] at hs
    exact hs.1
  | whr hq' hc =>
    refine Or.inr fun t ht => wraps_project ht ?_ hc hq'
    rw [okS.eq_8] at hs
    rcases hs.1 with h | h
    · simp at h
    · exact h
  | sets hl hc =>
    refine Or.inr fun t ht => wraps_gsets ht ?_ hl hc
    simp only [okS] at hs
    exact hs.1
  | win ho => exact Or.inr fun t ht => wraps_win ht ho

/-- C135, what is proved. -/
theorem C135_partial (cols : List Col) (s : Scan) (e : Expr) (hr : Resolved (sel cols s e)) (hp : Parts cols s e)
    (hw : WhereOk s) : Faithful (sel cols s e) := by
  refine C134_partial _ hr ?_
  rw [sel, okS.eq_8]
  exact ⟨Or.inr (hw.ok hp.input hp.cond), trivial, hp.ne, fun c hc => Or.inr (hp.sub c hc)⟩

/-- `SELECT b FROM (SELECT b FROM u ORDER BY b) WHERE b > 1` meets the hypotheses. -/
example : Faithful (sel [cb] (.order U [⟨cb, false, .unspecified⟩] [cb]) (gt cb 1)) := by
  refine C135_partial _ _ _ ⟨by decide, ?_, rfl⟩ ⟨?_, ?_, by simp, by simp [Scan.cols]⟩ (.order rfl rfl)
  · simp [sel, U, gt, scopedS, scopedE, scopedEs, scopedCs]
  · simp [U, okS, Scan.cols]
  · simp [gt, okE, okEs]

/-- The text of WHERE on a subquery with LIMIT which is not put in parentheses is no query of SQLite. -/
theorem limit_where_text {s : Scan} {n : Nat} {off : Option Nat} {lcols : List Col} {e : Expr} {t : List Tok}
    (ht : fmtS uid (fun _ => none) (.limit s n off lcols) = some t) (hw : wraps t = false) {x : SExpr}
    (hx : fmtE uid (fun _ => none) e = some x) :
    ∃ q, fmtS uid (fun _ => none) (.filter (.limit s n off lcols) e) = some q ∧ startsSel q = true ∧ pQuery q = none := by
  refine ⟨t ++ [.whr x], ?_, ?_, ?_⟩
  · rw [fmtS.eq_6, ht, hx]
    simp [hw]
  · have := isQuery_sel ht rfl
    rw [startsSel_append (by rintro rfl; simp [startsSel] at this)]
    exact this
  · simp only [fmtS] at ht
    split at ht
    · simp at ht
    · rename_i t0 ht0
      cases ht
      have htop := formatInput_top ht0
      have := pQuery_limit_where (items := selList uid [] lcols) (a := formatInput t0) (k := n) (off := off) (e := x)
        fun y hy => by have := htop y hy; cases y <;> simp_all [isTail, isLimit]
      simpa using this

/-- WHERE on a subquery with LIMIT: unless some word of a clause makes the filter put the subquery in parentheses, SQLite
reports a syntax error, for all inputs, conditions and databases. -/
theorem C135_limit {V : Type} [DecidableEq V] (S : Sem V) (db : Db V) (out : List (Col × List Char)) (cols lcols : List Col)
    (s : Scan) (n : Nat) (off : Option Nat) (e : Expr) (hs : scopedS (fun _ => none) s) (he : scopedE (fun _ => none) e)
    (hw : ∀ t, fmtS uid (fun _ => none) (.limit s n off lcols) = some t → wraps t = false) :
    ∃ q, fmtQuery out (sel cols (.limit s n off lcols) e) = some q ∧ Fails S db q := by
  obtain ⟨t, ht⟩ := hasS uid (fun _ => none) (.limit s n off lcols) hs
  obtain ⟨x, hx⟩ := hasE uid (fun _ => none) e he
  obtain ⟨q, h1, h2, h3⟩ := limit_where_text ht (hw t ht) hx
  exact fails_project h1 h2 fun n => fails_text h3 n _ _

/-- `SELECT a FROM (SELECT a FROM t LIMIT 2) WHERE a > 1` is a syntax error; it should yield the row 2. -/
theorem C135_full_false : ¬ C135_full := by
  intro h
  have hok : okS uid (fun _ => none) (.limit T 2 none [ca]) := by simp [T, okS, Scan.cols]
  have hF := h [ca] (.limit T 2 none [ca]) (gt ca 1)
    ⟨by decide, by simp [sel, T, gt, scopedS, scopedE, scopedEs, scopedCs], rfl⟩
    ⟨hok, by simp [gt, okE, okEs], by simp, by simp [Scan.cols]⟩ rfl
  obtain ⟨t, h1, h2⟩ := hF (Option Int) inferInstance S0 db0 [(ca, ['a'])] [[some 2]] [[some 2]] (by simp) (by decide +kernel) (by decide +kernel)
  obtain ⟨t', h3, h4⟩ := C135_limit S0 db0 [(ca, ['a'])] [ca] [ca] T 2 none (gt ca 1) (by simp [T, scopedS])
    (by simp [gt, scopedE, scopedEs]) (by
      intro t ht
      cases ht
      decide +kernel)
  have ht : t = t' := Option.some.inj (h1.symm.trans h3)
  subst ht
  exact h2.not_fails h4

/-- So not every query is translated faithfully. -/
theorem C134_full_false : ¬ C134_full := fun h => C135_full_false fun _ _ _ hr _ _ => h _ hr

/-! ### C136: joins -/

/-- `SELECT cols FROM l JOIN r ON …` -/
def selJoin (cols : List Col) (k : JK) (l r : Scan) (on : OExpr) : Scan := .project (.join k l r on) .nil cols

structure JoinParts (cols : List Col) (k : JK) (l r : Scan) (on : OExpr) : Prop where
  left : okS uid (fun _ => none) l
  right : okS uid (fun _ => none) r
  cond : okO uid (fun _ => none) on
  leftOk : leftOk l = true
  ne : cols ≠ []
  sub : ∀ c ∈ cols, c ∈ l.cols ++ r.cols
  outer : on.isNone = true → k = .inner ∨ k = .cross

/-- C136: joins are translated faithfully, also if an operand is a join. -/
def C136_full : Prop := ∀ cols k l r on, Resolved (selJoin cols k l r on) → JoinParts cols k l r on →
  Faithful (selJoin cols k l r on)

/-- C136, what is proved: joins of all kinds whose right operand is a table, a WITH query or a subquery; the left operand may
be a join. -/
theorem C136_partial (cols : List Col) (k : JK) (l r : Scan) (on : OExpr) (hr : Resolved (selJoin cols k l r on))
    (hp : JoinParts cols k l r on) (hright : rightOk r = true) : Faithful (selJoin cols k l r on) := by
  refine C134_partial _ hr ?_
  rw [selJoin, okS.eq_8]
  refine ⟨Or.inr ?_, trivial, hp.ne, fun c hc => Or.inr (hp.sub c hc)⟩
  rw [okS.eq_4]
  exact ⟨hp.left, hp.right, hp.leftOk, hright, hp.cond, hp.outer⟩

/-- `SELECT a, b, c FROM t JOIN u ON a = b LEFT JOIN e ON b = c` meets the hypotheses. -/
example : Faithful (selJoin [ca, cb, cc] .left (.join .inner T U (.some (eq ca cb))) E (.some (eq cb cc))) := by
  refine C136_partial _ _ _ _ _ ⟨by decide, ?_, rfl⟩ ⟨?_, ?_, ?_, rfl, by simp, ?_, by simp [OExpr.isNone]⟩ rfl
  · simp [selJoin, T, U, E, eq, scopedS, scopedE, scopedEs, scopedCs, scopedO, OExpr.isNone]
  · simp [T, U, eq, okS, okO, okE, okEs, leftOk, rightOk, OExpr.isNone]
  · simp [E, okS]
  · simp [eq, okO, okE, okEs]
  · simp [T, U, E, Scan.cols]

/-- `SELECT a, b, c FROM t LEFT JOIN (u CROSS JOIN e) ON a = b`: as `e` has no rows, every row of `t` is padded with NULLs.
The text has no parentheses, and yields nothing. -/
def q2 : Scan := selJoin [ca, cb, cc] .left T (.join .cross U E .none) (.some (eq ca cb))

theorem C136_full_false : ¬ C136_full := by
  intro h
  have hF := h [ca, cb, cc] .left T (.join .cross U E .none) (.some (eq ca cb))
    ⟨by decide, by simp [selJoin, T, U, E, eq, scopedS, scopedE, scopedEs, scopedCs, scopedO, OExpr.isNone], rfl⟩
    ⟨by simp [T, okS], by simp [U, E, okS, okO, leftOk, rightOk], by simp [eq, okO, okE, okEs], rfl, by simp,
      by simp [T, U, E, Scan.cols], by simp [OExpr.isNone]⟩
  obtain ⟨t, h1, h2⟩ := hF (Option Int) inferInstance S0 db0 [(ca, ['a'])] [[some 1, none, none], [some 2, none, none], [some 3, none, none]]
    [[some 1], [some 2], [some 3]] (by simp) (by decide +kernel) (by decide +kernel)
  have h3 : Yields S0 db0 t ([.raw ['a']], []) := by
    cases h1
    refine ⟨10, fun n hn => ?_⟩
    obtain ⟨m, rfl⟩ : ∃ m, n = m + 10 := ⟨n - 10, by omega⟩
    rfl
  have := h2.unique h3
  simp at this

/-- If the right operand is itself a join with a condition, the text has two ON after one another: a syntax error, for all
tables, conditions and databases. -/
theorem C136_nested {V : Type} [DecidableEq V] (S : Sem V) (db : Db V) (out : List (Col × List Char)) (cols : List Col)
    (k k' : JK) (l r r' : Scan) (on on' : Expr) (hk : k ≠ .cross) (hk' : k' ≠ .cross) (hl : rightOk l = true)
    (hr : rightOk r = true) (hr' : rightOk r' = true) (h1 : scopedS (fun _ => none) l) (h2 : scopedS (fun _ => none) r)
    (h3 : scopedS (fun _ => none) r') (h4 : scopedE (fun _ => none) on) (h5 : scopedE (fun _ => none) on') :
    ∃ q, fmtQuery out (selJoin cols k l (.join k' r r' (.some on')) (.some on)) = some q ∧ Fails S db q := by
  obtain ⟨tl, htl⟩ := hasS uid _ _ h1
  obtain ⟨tr, htr⟩ := hasS uid _ _ h2
  obtain ⟨tr', htr'⟩ := hasS uid _ _ h3
  obtain ⟨x, hx⟩ := hasE uid _ _ h4
  obtain ⟨x', hx'⟩ := hasE uid _ _ h5
  have hone : ∀ {s t}, fmtS uid (fun _ => none) s = some t → rightOk s = true → ∃ ts, joinInput t = [.grp ts] := by
    intro s t ht hs
    by_cases hq : isQuery s = true
    · exact ⟨t, by simp [joinInput, isQuery_sel ht hq]⟩
    · cases s with
      | table t' cols => cases ht; exact ⟨_, rfl⟩
      | ref n cols => simp [fmtS] at ht
      | single => simp [rightOk] at hs
      | filter s e => simp [rightOk] at hs
      | join k l r on => simp [rightOk] at hs
      | _ => simp [isQuery] at hq
  obtain ⟨a, ha⟩ := hone htl hl
  obtain ⟨b, hb⟩ := hone htr hr
  obtain ⟨c, hc⟩ := hone htr' hr'
  have hj' : fmtS uid (fun _ => none) (.join k' r r' (.some on')) = some [.grp b, .join k', .grp c, .on x'] := by
    cases k' with
    | cross => exact absurd rfl hk'
    | _ => simp only [fmtS, htr, htr', fmtO, hx', Option.map_some, hb, hc]; rfl
  have hj : fmtS uid (fun _ => none) (.join k l (.join k' r r' (.some on')) (.some on)) =
      some [.grp a, .join k, .grp b, .join k', .grp c, .on x', .on x] := by
    cases k with
    | cross => exact absurd rfl hk
    | _ =>
      rw [fmtS.eq_3, htl, hj', fmtO, hx]
      simp only [Option.map_some, ha]
      rfl
  refine fails_query (t := .sel (selList uid [] cols) :: .from :: [.grp a, .join k, .grp b, .join k', .grp c, .on x', .on x])
    ?_ rfl fun n => fails_text ?_ n _ _
  · rw [selJoin, fmtS.eq_7, hj, fmtCs]
    rfl
  · simp only [pQuery, pBody, pCore, pFrom, pChain, trefOf, pLoop, Option.map_some, pWhere, pGroup]
    split
    · rfl
    · rename_i c r h
      split at h
      · simp at h
      · cases h
        simp [pMore, pOrder, pLimit]

/-- `t JOIN (u JOIN e ON b = c) ON a = b` meets the hypotheses. -/
example : ∃ q, fmtQuery [(ca, ['a'])] (selJoin [ca] .inner T (.join .inner U E (.some (eq cb cc))) (.some (eq ca cb))) = some q ∧
    Fails S0 db0 q :=
  C136_nested S0 db0 _ _ _ _ _ _ _ _ _ (by simp) (by simp) rfl rfl rfl (by simp [T, scopedS]) (by simp [U, scopedS])
    (by simp [E, scopedS]) (by simp [eq, scopedE, scopedEs]) (by simp [eq, scopedE, scopedEs])

end Verif.Query
