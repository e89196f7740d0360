import Verif.Lemmas.Dml
import Verif.Props.Query

/-!
# Statements that change rows

C154 to C158: DELETE, UPDATE, INSERT … SELECT, INSERT … VALUES and CREATE TABLE … AS SELECT do what they say.
-/

namespace Verif.Query

set_option linter.unusedSectionVars false

/-- The SQLite statement does what the statement should do, in every database and for all meanings of functions and
literals. -/
def Does (d : Dml) : Prop :=
  ∀ (V : Type) (_ : DecidableEq V) (S : Sem V) (db db' : Db V), runDml S db d = some db' →
    ∃ t, fmtDml d = some t ∧ ∃ N, ∀ n, N ≤ n → evalDml S db n t = some db'

/-! ### C154: DELETE -/

/-- C154: `DELETE FROM t WHERE wh` removes exactly the rows for which the condition is true. -/
def C154_full : Prop := ∀ t tcols wh, ((tcols ++ intE wh).map (·.id)).Nodup → scopedE (fun _ => none) wh →
  Does (.delete t tcols wh)

/-- C154, what is proved: this holds if no subquery has two columns of one name or a column with the name of a column of the
target which it refers to, and all subqueries are translated faithfully. -/
theorem C154_partial (t : TName) (tcols : List Col) (wh : Expr) (hs : scopedE (fun _ => none) wh)
    (hok : okE plain (fun _ => none) wh) (hc : clearE tcols wh) : Does (.delete t tcols wh) := by
  intro V _ S db db' h
  obtain ⟨x, hx⟩ := hasE plain (fun _ => none) wh hs
  refine ⟨.delete t x, by simp only [fmtDml, hx, Option.map_some], ?_⟩
  obtain ⟨N, hN⟩ := plainE S db tcols wh hx hok hc
  refine ⟨N, fun n hn => ?_⟩
  simp only [runDml] at h
  simp only [evalDml]
  split at h
  · simp at h
  rename_i names rows hdb
  simp only [Option.map_eq_some_iff] at h
  obtain ⟨rows', hr, rfl⟩ := h
  rw [filtO_mono hr fun r _ b hb => ?_, Option.map_some]
  simp only [Option.map_eq_some_iff] at hb ⊢
  obtain ⟨v, hv, rfl⟩ := hb
  exact ⟨v, hN n hn names r v hv, rfl⟩

/-! ### C155: UPDATE -/

/-- C155: `UPDATE t SET … FROM … WHERE wh` changes exactly the columns of SET, in exactly the rows for which the condition is
true, to the values of the expressions for the row. -/
def C155_full : Prop := ∀ t tcols sets src wh,
  ((tcols ++ sets.flatMap (fun x => intE x.2) ++ intE wh ++ src.toList.flatMap intS).map (·.id)).Nodup →
  (∀ x ∈ sets, scopedE (fun _ => none) x.2) → scopedE (fun _ => none) wh → Does (.update t tcols sets src wh)

/-- FROM of UPDATE has no effect on the SQLite statement. -/
theorem C155_from (t : TName) (tcols : List Col) (sets : List (Col × Expr)) (src : Option Scan) (wh : Expr) :
    fmtDml (.update t tcols sets src wh) = fmtDml (.update t tcols sets none wh) := rfl

section
variable {V : Type} [DecidableEq V]

theorem has_sets : ∀ {sets : List (Col × Expr)}, (∀ x ∈ sets, scopedE (fun _ => none) x.2) → ∃ xs, fmtSets sets = some xs
  | [], _ => ⟨[], rfl⟩
  | x :: sets, h => by
    obtain ⟨e, he⟩ := hasE plain (fun _ => none) x.2 (h x (by simp))
    obtain ⟨xs, hxs⟩ := has_sets fun y hy => h y (List.mem_cons_of_mem _ hy)
    exact ⟨(plain x.1, e) :: xs, mapO_cons' (by rw [he]; rfl) hxs⟩

theorem plainSets (S : Sem V) (db : Db V) (tcols : List Col) : ∀ {sets : List (Col × Expr)} {xs : List (Nm × SExpr)},
    fmtSets sets = some xs → (∀ x ∈ sets, okE plain (fun _ => none) x.2 ∧ clearE tcols x.2) →
    mapO (fun x => x.1.target) xs = some (sets.map (·.1.name)) ∧
    ∃ N, ∀ n, N ≤ n → ∀ names r vals, evalSets S db (tenv names tcols r) sets = some vals →
      mapO (fun x => evalX S (evalQ S db n (fun _ => none)) (rowEnv names r) x.2) xs = some vals
  | [], xs, h, _ => by
    cases h
    exact ⟨rfl, 0, fun n _ names r vals hv => hv⟩
  | x :: sets, xs, h, hok => by
    obtain ⟨y, ys, h1, h2, rfl⟩ := mapO_cons h
    simp only [Option.map_eq_some_iff] at h1
    obtain ⟨e, he, rfl⟩ := h1
    obtain ⟨ht, N2, hN2⟩ := plainSets S db tcols h2 fun z hz => hok z (List.mem_cons_of_mem _ hz)
    obtain ⟨N1, hN1⟩ := plainE S db tcols x.2 he (hok x (by simp)).1 (hok x (by simp)).2
    refine ⟨mapO_cons' rfl ht, N1 + N2, fun n hn names r vals hv => ?_⟩
    obtain ⟨v, vs, h3, h4, rfl⟩ := mapO_cons hv
    exact mapO_cons' (hN1 n (by omega) names r v h3) (hN2 n (by omega) names r vs h4)
end

/-- C155, what is proved: UPDATE without FROM, if no subquery has two columns of one name or a column with the name of a
column of the target which it refers to, and all subqueries are translated faithfully. -/
theorem C155_partial (t : TName) (tcols : List Col) (sets : List (Col × Expr)) (wh : Expr)
    (hs : ∀ x ∈ sets, scopedE (fun _ => none) x.2) (hw : scopedE (fun _ => none) wh)
    (hok : ∀ x ∈ sets, okE plain (fun _ => none) x.2 ∧ clearE tcols x.2)
    (hwok : okE plain (fun _ => none) wh ∧ clearE tcols wh) : Does (.update t tcols sets none wh) := by
  intro V _ S db db' h
  obtain ⟨x, hx⟩ := hasE plain (fun _ => none) wh hw
  obtain ⟨xs, hxs⟩ := has_sets hs
  refine ⟨.update t xs x, by simp only [fmtDml, hx, hxs], ?_⟩
  obtain ⟨N1, hN1⟩ := plainE S db tcols wh hx hwok.1 hwok.2
  obtain ⟨ht, N2, hN2⟩ := plainSets S db tcols hxs hok
  refine ⟨N1 + N2, fun n hn => ?_⟩
  simp only [runDml] at h
  split at h
  · simp at h
  rename_i names rows hdb
  split at h
  case isFalse => simp at h
  rename_i hall
  simp only [Option.map_eq_some_iff] at h
  obtain ⟨rows', hr, rfl⟩ := h
  simp only [evalDml, hdb, ht]
  rw [if_pos (by simpa [List.all_eq_true] using hall), mapO_mono hr, Option.map_some]
  intro r _ r' he
  split at he
  · simp at he
  rename_i v hv
  rw [hN1 n (by omega) names r v hv]
  simp only
  split at he
  · rename_i htr
    rw [if_pos htr]
    split at he
    · simp at he
    rename_i vals hvals
    rw [hN2 n (by omega) names r vals hvals]
    exact he
  · rename_i htr
    rw [if_neg htr]
    exact he

/-! ### C156: INSERT … SELECT -/

/-- C156: `INSERT INTO t (cols) SELECT …` appends the rows of the query; columns that are not mentioned are NULL. -/
def C156_full : Prop := ∀ t cols s, Resolved s → Does (.insertQuery t cols s)

/-- C156, what is proved: this holds for queries all of whose parts are right (see `C134_partial`). -/
theorem C156_partial (t : TName) (cols : List (List Char)) (s : Scan) (hr : Resolved s) (hok : okS uid (fun _ => none) s) :
    Does (.insertQuery t cols s) := by
  intro V _ S db db' h
  obtain ⟨q, hq⟩ := hasS uid (fun _ => none) s hr.inScope
  refine ⟨.insertQuery t cols q, by simp only [fmtDml, hq, Option.map_some], ?_⟩
  obtain ⟨N, hN⟩ := soundS S db uid starred_uid s (fun _ => none) q hq hok
  refine ⟨N, fun n hn => ?_⟩
  simp only [runDml] at h
  split at h
  · simp at h
  rename_i rows he
  have := (hN n hn (fun _ => none) (fun _ => none) (fun _ => none) (fun _ => none)
    ⟨fun n r h => by simp at h, fun t h => rfl, fun c v h => by simp at h, fun d h => by simp at h, ids_dist hr.ids⟩ rows
    he).den.1 (isQuery_sel hq hr.query)
  simp only [evalDml, this]
  exact h

/-! ### C157: INSERT … VALUES -/

/-- C157: `INSERT INTO t (cols) VALUES …` appends the rows of values. -/
def C157_full : Prop := ∀ t cols rows, ((rows.flatMap intEs).map (·.id)).Nodup → (∀ r ∈ rows, scopedEs (fun _ => none) r) →
  Does (.insertRows t cols rows)

section
variable {V : Type} [DecidableEq V]

theorem has_rows : ∀ {rows : List Exprs}, (∀ r ∈ rows, scopedEs (fun _ => none) r) →
    ∃ xs, mapO (fmtEs plain (fun _ => none)) rows = some xs
  | [], _ => ⟨[], rfl⟩
  | r :: rows, h => by
    obtain ⟨e, he⟩ := hasEs plain (fun _ => none) r (h r (by simp))
    obtain ⟨xs, hxs⟩ := has_rows fun y hy => h y (List.mem_cons_of_mem _ hy)
    exact ⟨e :: xs, mapO_cons' he hxs⟩

theorem plainRows (S : Sem V) (db : Db V) : ∀ {rows : List Exprs} {xs : List (List SExpr)},
    mapO (fmtEs plain (fun _ => none)) rows = some xs → (∀ r ∈ rows, okEs plain (fun _ => none) r ∧ clearEs [] r) →
    ∃ N, ∀ n, N ≤ n → ∀ vals, mapO (evalEs S db (fun _ => none) (fun _ => none)) rows = some vals →
      mapO (evalXs S (evalQ S db n (fun _ => none)) (fun _ => none)) xs = some vals
  | [], xs, h, _ => by
    cases h
    exact ⟨0, fun n _ vals hv => by cases hv; rfl⟩
  | r :: rows, xs, h, hok => by
    obtain ⟨y, ys, h1, h2, rfl⟩ := mapO_cons h
    obtain ⟨N2, hN2⟩ := plainRows S db h2 fun z hz => hok z (List.mem_cons_of_mem _ hz)
    obtain ⟨N1, hN1⟩ := plainEs S db [] r h1 (hok r (by simp)).1 (hok r (by simp)).2
    refine ⟨N1 + N2, fun n hn vals hv => ?_⟩
    obtain ⟨v, vs, h3, h4, rfl⟩ := mapO_cons hv
    refine mapO_cons' ?_ (hN2 n (by omega) vs h4)
    have := hN1 n (by omega) [] [] v (by
      have e : tenv [] [] ([] : List V) = fun _ => none := by funext c; simp [tenv]
      rw [e]; exact h3)
    have e : rowEnv [] ([] : List V) = fun _ => none := by funext c; simp [rowEnv, bindR, lk]
    rw [e] at this
    exact this
end

/-- C157, what is proved: this holds if no subquery has two columns of one name, and all subqueries are translated
faithfully. -/
theorem C157_partial (t : TName) (cols : List (List Char)) (rows : List Exprs) (hs : ∀ r ∈ rows, scopedEs (fun _ => none) r)
    (hok : ∀ r ∈ rows, okEs plain (fun _ => none) r ∧ clearEs [] r) : Does (.insertRows t cols rows) := by
  intro V _ S db db' h
  obtain ⟨xs, hxs⟩ := has_rows hs
  refine ⟨.insertRows t cols xs, by simp only [fmtDml, hxs, Option.map_some], ?_⟩
  obtain ⟨N, hN⟩ := plainRows S db hxs hok
  refine ⟨N, fun n hn => ?_⟩
  simp only [runDml] at h
  split at h
  · simp at h
  rename_i vals hv
  simp only [evalDml, hN n hn vals hv]
  exact h

/-! ### C158: CREATE TABLE … AS SELECT -/

/-- C158: `CREATE [OR REPLACE] TABLE [IF NOT EXISTS] t AS SELECT …` makes a table with the names and rows of the query; if the
table exists, it is replaced, left alone or an error, as the statement says. -/
def C158_full : Prop := ∀ (mode : CMode) (t : TName) (out : List (Col × List Char)) (s : Scan), Resolved s → out ≠ [] →
  ∀ (V : Type) (_ : DecidableEq V) (S : Sem V) (db : Db V) (rows R : List (List V)),
    evalS S db (fun _ => none) (fun _ => none) s = some rows → mapO (fun a => pick s.cols a (out.map (·.1))) rows = some R →
    ∃ N, ∀ n, N ≤ n → execCtas S db n mode t out s = ctas db mode t (out.map (·.2)) R

theorem targets : ∀ out : List (Col × List Char), mapO Nm.target (out.map fun x => Nm.raw x.2) = some (out.map (·.2))
  | [] => rfl
  | _ :: out => mapO_cons' rfl (targets out)

/-- C158, what is proved: this holds for queries all of whose parts are right, unless IF NOT EXISTS or OR REPLACE meets a
table that exists and, for OR REPLACE, is read by the query. -/
theorem C158_partial (mode : CMode) (t : TName) (out : List (Col × List Char)) (s : Scan) (hr : Resolved s)
    (hok : okS uid (fun _ => none) s) (ho : out ≠ []) {V : Type} [DecidableEq V] (S : Sem V) (db : Db V)
    (rows R : List (List V)) (he : evalS S db (fun _ => none) (fun _ => none) s = some rows)
    (hp : mapO (fun a => pick s.cols a (out.map (·.1))) rows = some R)
    (hm : db t = none ∨ mode = .default ∨ mode = .orReplace ∧ t ∉ tabS s) :
    ∃ N, ∀ n, N ≤ n → execCtas S db n mode t out s = ctas db mode t (out.map (·.2)) R := by
  have key : ∀ db0 : Db V, (∀ u ∈ tabS s, db u = db0 u) → db0 t = none → ∃ q, fmtQuery out s = some q ∧ ∃ N, ∀ n, N ≤ n →
      createAs S db0 n t q = (upd db0 t (out.map (·.2), R), true) := by
    intro db0 h1 h2
    rw [congrS (fun _ => none) s (env' := fun _ => none) ⟨h1, fun _ _ => rfl⟩] at he
    obtain ⟨q, hq, N, hN⟩ := query_sound hr hok ho he hp
    refine ⟨q, hq, N, fun n hn => ?_⟩
    simp only [createAs, h2, hN n hn, targets]
  by_cases hrep : mode = .orReplace
  · subst hrep
    have hd : dropT db t t = none := by simp [dropT]
    have hu : upd (dropT db t) t (out.map (·.2), R) = upd db t (out.map (·.2), R) := by
      funext m
      simp only [upd, dropT]
      split <;> rfl
    obtain ⟨q, hq, N, hN⟩ := key (dropT db t) (fun u hmem => by
      simp only [dropT]
      split
      · rename_i e
        subst e
        rcases hm with h | h | h
        · exact h
        · simp at h
        · exact absurd hmem h.2
      · rfl) hd
    refine ⟨N, fun n hn => ?_⟩
    simp only [execCtas, hq, if_true, hN n hn, hu, ctas]
    split <;> simp_all
  · cases hdb : db t with
    | none =>
      obtain ⟨q, hq, N, hN⟩ := key db (fun _ _ => rfl) hdb
      refine ⟨N, fun n hn => ?_⟩
      simp only [execCtas, hq, if_neg hrep, hN n hn, ctas, hdb]
    | some x =>
      have hmode : mode = .default := by
        rcases hm with h | h | h
        · rw [hdb] at h; simp at h
        · exact h
        · exact absurd h.1 hrep
      subst hmode
      obtain ⟨q, hq, _⟩ := query_sound hr hok ho he hp
      refine ⟨0, fun n _ => ?_⟩
      simp [execCtas, hq, createAs, ctas, hdb]

/-- CREATE TABLE IF NOT EXISTS … AS SELECT of a table that exists is an error, for all queries. -/
theorem C158_ifNotExists {V : Type} [DecidableEq V] (S : Sem V) (db : Db V) (n : Nat) (t : TName) (out : List (Col × List Char))
    (s : Scan) (h : db t ≠ none) : execCtas S db n .ifNotExists t out s = (db, false) := by
  unfold execCtas createAs
  split
  · rfl
  · cases hdb : db t with
    | none => exact absurd hdb h
    | some x => simp [hdb]

/-- So this is never what the statement should do, which is nothing and no error. -/
theorem C158_ifNotExists_wrong {V : Type} [DecidableEq V] (S : Sem V) (db : Db V) (n : Nat) (t : TName) (out : List (Col × List Char))
    (s : Scan) (R : List (List V)) (h : db t ≠ none) : ctas db .ifNotExists t (out.map (·.2)) R = (db, true) ∧
      execCtas S db n .ifNotExists t out s ≠ ctas db .ifNotExists t (out.map (·.2)) R := by
  have e : ctas db .ifNotExists t (out.map (·.2)) R = (db, true) := by
    unfold ctas
    cases hdb : db t with
    | none => exact absurd hdb h
    | some x => rfl
  refine ⟨e, ?_⟩
  rw [C158_ifNotExists S db n t out s h, e]
  simp

section
variable {V : Type} [DecidableEq V] {S : Sem V} {db : Db V}

/-- A SELECT from a table without value has no value. -/
theorem fails_tref {x : Tok} {r : Tref} (hx : trefOf x = some r) (he : ∀ e, r ≠ .each e) (hn : ∀ ts, r ≠ .num ts) {items : List Item} {w : List Tok}
    (hw : w = [] ∨ ∃ e, w = [.whr e]) (h : ∀ n, evalTref db (evalQ S db n (fun _ => none)) (fun _ => none) (fun _ => none) r = none) :
    ∀ n, evalQ S db n (fun _ => none) (fun _ => none) (.sel items :: .from :: x :: w) = none
  | 0 => rfl
  | n + 1 => by
    have hpt : ∀ sc, evalPT S db (evalQ S db n (fun _ => none)) (fun _ => none) (fun _ => none) sc (.leaf r) = none := by
      intro sc
      cases r with
      | tbl m => exact h n
      | grp ts => exact h n
      | num ts => exact absurd rfl (hn ts)
      | each e => exact absurd rfl (he e)
    simp only [evalQ, evalBody]
    cases hp : pQuery (.sel items :: .from :: x :: w) with
    | none => rfl
    | some p =>
      have hcore : ∃ wh, p.core = ⟨items, some (.leaf r), wh, []⟩ ∧ p.ctes = [] := by
        rcases hw with rfl | ⟨e, rfl⟩ <;>
        · simp only [pQuery, pBody, pCore, pFrom, pChain, hx, pLoop, Option.map_some, pWhere, pGroup] at hp
          split at hp
          · simp at hp
          · rename_i c r hc
            split at hc
            · simp at hc
            · cases hc
              simp only [List.length_nil, pMore, pOrder, pLimit, Option.some.injEq] at hp
              subst hp
              exact ⟨_, rfl, rfl⟩
      obtain ⟨wh, h1, h2⟩ := hcore
      simp only [h1, h2, List.foldl_nil, evalCtes, evalCore, evalFW, hpt]
end

/-- CREATE OR REPLACE TABLE t AS SELECT … FROM t [WHERE …] loses the table: it is dropped first, and then the query fails. -/
theorem C158_self {V : Type} [DecidableEq V] (S : Sem V) (db : Db V) (n : Nat) (t : TName) (out : List (Col × List Char))
    (tcols cols : List Col) (exprs : CExprs) (wh : Option Expr) (hs : scopedCs (fun _ => none) exprs)
    (hw : ∀ e, wh = some e → scopedE (fun _ => none) e) :
    execCtas S db n .orReplace t out (.project (match wh with
      | none => .table t tcols
      | some e => .filter (.table t tcols) e) exprs cols) = (dropT db t, false) := by
  obtain ⟨its, hits⟩ := hasCs uid (fun _ => none) exprs hs
  have hd : dropT db t t = none := by simp [dropT]
  let q : List Tok := [.sel (tcols.map fun c => .ex (.name (.raw c.name)) (some (uid c))), .from, .tbl t]
  have hq : ∀ n, evalQ S (dropT db t) n (fun _ => none) (fun _ => none) q = none :=
    fails_tref (S := S) (x := .tbl t) (r := .tbl t) (w := []) rfl (by simp) (by simp) (Or.inl rfl) fun n => by simp [evalTref, hd]
  have hq1 : ∀ n, evalTref (dropT db t) (evalQ S (dropT db t) n (fun _ => none)) (fun _ => none) (fun _ => none) (.grp q) = none :=
    fun n => by simp only [evalTref]; exact hq n
  have hq2 : ∀ n, evalTref (dropT db t) (evalQ S (dropT db t) n (fun _ => none)) (fun _ => none) (fun _ => none)
      (.grp [.grp q]) = none := fun n => by
    simp only [evalTref, startsSel, pChain, trefOf, pLoop]
    exact fails_tref (S := S) (x := .grp q) (r := .grp q) (w := []) rfl (by simp) (by simp) (Or.inl rfl) hq1 n
  have key : ∀ s t', fmtS uid (fun _ => none) s = some t' → startsSel t' = true →
      (∀ n, evalQ S (dropT db t) n (fun _ => none) (fun _ => none) t' = none) →
      execCtas S db n .orReplace t out s = (dropT db t, false) := by
    intro s t' h1 h2 h3
    simp only [execCtas, fmtQuery, h1, if_true, createAs, hd]
    cases n with
    | zero => rfl
    | succ n => rw [fails_from h2 (h3 n)]
  cases wh with
  | none =>
    refine key _ (.sel (selList uid its cols) :: .from :: .grp q :: []) ?_ rfl
      (fails_tref (r := .grp q) rfl (by simp) (by simp) (Or.inl rfl) hq1)
    simp only [fmtS, hits]
    rfl
  | some e =>
    obtain ⟨x, hx⟩ := hasE uid (fun _ => none) e (hw e rfl)
    by_cases hwr : wraps [.grp q] = true
    · refine key _ (.sel (selList uid its cols) :: .from :: .grp [.grp q] :: [.whr x]) ?_ rfl
        (fails_tref (r := .grp [.grp q]) rfl (by simp) (by simp) (Or.inr ⟨x, rfl⟩) hq2)
      simp only [fmtS, hits, hx]
      rw [if_pos hwr]
      rfl
    · refine key _ (.sel (selList uid its cols) :: .from :: .grp q :: [.whr x]) ?_ rfl
        (fails_tref (r := .grp q) rfl (by simp) (by simp) (Or.inr ⟨x, rfl⟩) hq1)
      simp only [fmtS, hits, hx]
      rw [if_neg hwr]
      rfl

/-! ### What the statements mean -/

section
variable {V : Type} [DecidableEq V] {S : Sem V} {db db' : Db V}

/-- What DELETE means: the rows for which the condition is not true stay, in their order, and other tables are left alone. -/
theorem C154_rows {t : TName} {tcols : List Col} {wh : Expr} (h : runDml S db (.delete t tcols wh) = some db') :
    ∃ names rows, db t = some (names, rows) ∧
      db' t = some (names, rows.filter fun r =>
        !decide ((evalE S db (fun _ => none) (tenv names tcols r) wh).map S.truth = some true)) ∧
      ∀ u, u ≠ t → db' u = db u := by
  simp only [runDml] at h
  split at h
  · simp at h
  rename_i names rows hdb
  simp only [Option.map_eq_some_iff] at h
  obtain ⟨rows', hr, rfl⟩ := h
  refine ⟨names, rows, hdb, ?_, fun u hu => by simp [upd, hu]⟩
  simp only [upd, if_true, Option.some.injEq, Prod.mk.injEq, true_and]
  clear hdb
  induction rows generalizing rows' with
  | nil => simp only [filtO, Option.some.injEq] at hr; subst hr; rfl
  | cons r rows ih =>
    obtain ⟨b, bs, h1, h2, rfl⟩ := filtO_cons hr
    rw [ih bs h2]
    simp only [Option.map_eq_some_iff] at h1
    obtain ⟨v, hv, rfl⟩ := h1
    cases hb : S.truth v <;> simp [hv, hb]

/-- The value of a column after SET. -/
def setVal (S : Sem V) (db : Db V) (env : Env V) (sets : List (Col × Expr)) (n : List Char) (old : Option V) : Option V :=
  match sets.find? (fun x => x.1.name == n) with
  | some x => evalE S db (fun _ => none) env x.2
  | none => old

theorem lk_sets {env : Env V} {n : List Char} {old : Option V} : ∀ {sets : List (Col × Expr)} {vals : List V},
    evalSets S db env sets = some vals → (lk (sets.map (·.1.name)) vals n).or old = setVal S db env sets n old
  | [], vals, h => by simp [lk, setVal]
  | x :: sets, vals, h => by
    obtain ⟨v, vs, h1, h2, rfl⟩ := mapO_cons h
    have := lk_sets (n := n) (old := old) h2
    simp only [List.map_cons, lk, setVal, List.find?_cons]
    by_cases e : x.1.name = n
    · simp [e, h1]
    · have hb : (x.1.name == n) = false := by simpa using e
      rw [if_neg e, this, hb]
      rfl

theorem lk_mapO {f : List Char → Option V} {n : List Char} : ∀ {names : List (List Char)} {r : List V}, mapO f names = some r →
    n ∈ names → lk names r n = f n
  | [], _, _, hn => by simp at hn
  | m :: names, r, h, hn => by
    obtain ⟨v, vs, h1, h2, rfl⟩ := mapO_cons h
    simp only [lk]
    by_cases e : m = n
    · subst e
      rw [if_pos rfl, h1]
    · rw [if_neg e]
      exact lk_mapO h2 (by simpa [Ne.symm e] using hn)

/-- The row after an UPDATE without FROM: the columns of SET have their new values if the condition is true. -/
def Updated (S : Sem V) (db : Db V) (names : List (List Char)) (tcols : List Col) (sets : List (Col × Expr)) (wh : Expr)
    (r r' : List V) : Prop :=
  ((evalE S db (fun _ => none) (tenv names tcols r) wh).map S.truth = some true →
    ∀ n ∈ names, lk names r' n = setVal S db (tenv names tcols r) sets n (lk names r n)) ∧
  ((evalE S db (fun _ => none) (tenv names tcols r) wh).map S.truth ≠ some true → r' = r)

/-- What UPDATE without FROM means: row by row, and other tables are left alone. -/
theorem C155_rows {t : TName} {tcols : List Col} {sets : List (Col × Expr)} {wh : Expr}
    (h : runDml S db (.update t tcols sets none wh) = some db') :
    ∃ names rows rows', db t = some (names, rows) ∧ db' t = some (names, rows') ∧ rows'.length = rows.length ∧
      (∀ x ∈ rows.zip rows', Updated S db names tcols sets wh x.1 x.2) ∧ ∀ u, u ≠ t → db' u = db u := by
  simp only [runDml] at h
  split at h
  · simp at h
  rename_i names rows hdb
  split at h
  case isFalse => simp at h
  simp only [Option.map_eq_some_iff] at h
  obtain ⟨rows', hr, rfl⟩ := h
  refine ⟨names, rows, rows', hdb, by simp [upd], ?_, ?_, fun u hu => by simp [upd, hu]⟩
  · exact mapO_length hr
  · clear hdb
    induction rows generalizing rows' with
    | nil => simp
    | cons r rows ih =>
      obtain ⟨r', bs, h1, h2, rfl⟩ := mapO_cons hr
      intro x hx
      rcases List.mem_cons.1 hx with rfl | hx
      · split at h1
        · simp at h1
        rename_i v hv
        split at h1
        · rename_i htr
          split at h1
          · simp at h1
          rename_i vals hvals
          refine ⟨fun _ n hn => ?_, fun hne => absurd (by simp [hv, htr]) hne⟩
          rw [lk_mapO h1 hn, lk_sets hvals]
        · rename_i htr
          cases h1
          exact ⟨fun he => absurd (by simpa [hv] using he) htr, fun _ => rfl⟩
      · exact ih _ h2 x hx

/-- The values of a new row: those given, and NULL for the other columns. -/
def IsNew (null : V) (names cols : List (List Char)) (vals r : List V) : Prop :=
  r.length = names.length ∧
  (∀ i (h : i < cols.length), cols.Nodup → cols[i] ∈ names → lk names r cols[i] = vals[i]?) ∧
  ∀ n ∈ names, n ∉ cols → lk names r n = some null

theorem newRow_isNew {null : V} {names cols : List (List Char)} {vals : List V} (hl : vals.length = cols.length) :
    IsNew null names cols vals (newRow null names cols vals) := by
  have key : ∀ n ∈ names, lk names (newRow null names cols vals) n = some ((lk cols vals n).getD null) := by
    intro n hn
    refine lk_mapO (f := fun n => some ((lk cols vals n).getD null)) ?_ hn
    clear hn
    induction names with
    | nil => rfl
    | cons m names ih => exact mapO_cons' rfl ih
  refine ⟨by simp [newRow], fun i hi hd hm => ?_, fun n hn hc => ?_⟩
  · rw [key _ hm]
    have : lk cols vals cols[i] = vals[i]? := by
      clear key hm
      induction cols generalizing vals i with
      | nil => simp at hi
      | cons c cols ih =>
        cases vals with
        | nil => simp at hl
        | cons v vs =>
          simp only [lk]
          cases i with
          | zero => simp
          | succ i =>
            have hi' : i < cols.length := by simpa using hi
            have hne : c ≠ cols[i] := fun e => (List.nodup_cons.1 hd).1 (e ▸ List.getElem_mem hi')
            simp only [List.getElem_cons_succ, if_neg hne, List.getElem?_cons_succ]
            exact ih (by simpa using hl) i hi' (List.nodup_cons.1 hd).2
    rw [this]
    have : i < vals.length := by omega
    simp [this]
  · rw [key n hn]
    cases hl : lk cols vals n with
    | none => rfl
    | some v => exact absurd (lk_mem hl) hc

theorem insertInto_rows {null : V} {t : TName} {cols : List (List Char)} {vals : List (List V)}
    (h : insertInto null db t cols vals = some db') :
    ∃ names old new, db t = some (names, old) ∧ db' t = some (names, old ++ new) ∧ new.length = vals.length ∧
      (∀ x ∈ vals.zip new, IsNew null names cols x.1 x.2) ∧ (∀ c ∈ cols, c ∈ names) ∧ ∀ u, u ≠ t → db' u = db u := by
  simp only [insertInto] at h
  split at h
  · simp at h
  rename_i names old hdb
  split at h
  case isFalse => simp at h
  rename_i hall
  simp only [Bool.and_eq_true, List.all_eq_true, decide_eq_true_eq, beq_iff_eq] at hall
  cases h
  refine ⟨names, old, vals.map (newRow null names cols), hdb, by simp [upd], by simp, ?_, hall.1, fun u hu => by simp [upd, hu]⟩
  intro x hx
  rw [List.zip_map_right] at hx
  simp only [List.mem_map] at hx
  obtain ⟨y, hy, rfl⟩ := hx
  have : ∀ (l : List (List V)) (y : List V × List V), y ∈ l.zip l → y.1 = y.2 ∧ y.1 ∈ l := by
    intro l
    induction l with
    | nil => simp
    | cons a l ih =>
      intro y hy
      rcases List.mem_cons.1 hy with rfl | hy
      · simp
      · exact ⟨(ih y hy).1, List.mem_cons_of_mem _ (ih y hy).2⟩
  obtain ⟨e, hm⟩ := this _ y hy
  have hlen := hall.2 _ hm
  obtain ⟨a, b⟩ := y
  simp only at e hlen
  subst e
  exact newRow_isNew hlen

/-- What INSERT … SELECT means: the old rows stay, one row per row of the query is appended, with its values and NULL for the
other columns, and other tables are left alone. -/
theorem C156_rows {t : TName} {cols : List (List Char)} {s : Scan} (h : runDml S db (.insertQuery t cols s) = some db') :
    ∃ names old rows new, db t = some (names, old) ∧ evalS S db (fun _ => none) (fun _ => none) s = some rows ∧
      db' t = some (names, old ++ new) ∧ new.length = rows.length ∧
      (∀ x ∈ rows.zip new, IsNew S.null names cols x.1 x.2) ∧ (∀ c ∈ cols, c ∈ names) ∧ ∀ u, u ≠ t → db' u = db u := by
  simp only [runDml] at h
  split at h
  · simp at h
  rename_i rows hs
  obtain ⟨names, old, new, h1, h2⟩ := insertInto_rows h
  exact ⟨names, old, rows, new, h1, hs, h2⟩

/-- What INSERT … VALUES means. -/
theorem C157_rows {t : TName} {cols : List (List Char)} {es : List Exprs} (h : runDml S db (.insertRows t cols es) = some db') :
    ∃ names old rows new, db t = some (names, old) ∧ mapO (evalEs S db (fun _ => none) (fun _ => none)) es = some rows ∧
      db' t = some (names, old ++ new) ∧ new.length = rows.length ∧
      (∀ x ∈ rows.zip new, IsNew S.null names cols x.1 x.2) ∧ (∀ c ∈ cols, c ∈ names) ∧ ∀ u, u ≠ t → db' u = db u := by
  simp only [runDml] at h
  split at h
  · simp at h
  rename_i rows hs
  obtain ⟨names, old, new, h1, h2⟩ := insertInto_rows h
  exact ⟨names, old, rows, new, h1, hs, h2⟩
end

/-! ### A small database -/

def ta : Col := ⟨['a'], 1⟩
def wa : Col := ⟨['a'], 2⟩

/-- `t(a)` with 1, 2, 3; `w(a)` with 2. -/
def dbT : Db (Option Int) := fun n =>
  if n = ['t'] then some ([['a']], [[some 1], [some 2], [some 3]])
  else if n = ['w'] then some ([['a']], [[some 2]])
  else none

theorem dbT_ne {r r' : List (List (Option Int))} (h : r ≠ r') : upd dbT ['t'] ([['a']], r) ≠ upd dbT ['t'] ([['a']], r') := by
  intro e
  have := congrFun e ['t']
  simp only [upd, if_true, Option.some.injEq, Prod.mk.injEq, true_and] at this
  exact h this

/-- `EXISTS (SELECT a FROM w WHERE w.a = t.a)` -/
def exW : Expr := .exists_ (pr (.filter (.table ['w'] [wa]) (eq wa ta)) [wa])

/-- `EXISTS (SELECT a FROM w WHERE w.a = w.a)` -/
def exW' : Expr := .exists_ (pr (.filter (.table ['w'] [wa]) (eq wa wa)) [wa])

/-- `DELETE FROM t WHERE a IN (SELECT a FROM w)` meets the hypotheses, although the columns have one name. -/
example : Does (.delete ['t'] [ta] (.inq (.col ta) (pr (.table ['w'] [wa]) [wa]))) := by
  refine C154_partial _ _ _ ?_ ?_ ?_
  · simp [pr, scopedS, scopedE, scopedCs]
  · simp [pr, okS, okE, okCs, isQuery, leftOk, CExprs.cols, Scan.cols]
  · simp [clearE, clearS, pr, intS, intCs, refS, refCs]

/-- It removes the row 2. -/
example : runDml S0 dbT (.delete ['t'] [ta] (.inq (.col ta) (pr (.table ['w'] [wa]) [wa]))) =
    some (upd dbT ['t'] ([['a']], [[some 1], [some 3]])) := rfl

/-- The SQLite statement does not tell which column of this name is meant. -/
theorem C154_same : fmtDml (.delete ['t'] [ta] exW) = fmtDml (.delete ['t'] [ta] exW') := rfl

theorem exW'_does : Does (.delete ['t'] [ta] exW') := by
  refine C154_partial _ _ _ ?_ ?_ ?_
  · simp [exW', pr, eq, scopedS, scopedE, scopedEs, scopedCs]
  · simp [exW', pr, eq, okS, okE, okEs, okCs, isQuery, leftOk, CExprs.cols, Scan.cols]
  · simp [exW', clearE, clearS, pr, eq, intS, intCs, intE, intEs, refS, refCs, refE, refEs]
    decide

/-- `DELETE FROM t WHERE EXISTS (SELECT a FROM w WHERE w.a = t.a)` removes all rows. -/
theorem C154_full_false : ¬ C154_full := by
  intro h
  have h1 : ((([ta] : List Col) ++ intE exW).map (·.id)).Nodup := by decide
  obtain ⟨t, ht, N, hN⟩ := h ['t'] [ta] exW h1 (by simp [exW, pr, eq, scopedS, scopedE, scopedEs, scopedCs])
    (Option Int) inferInstance S0 dbT (upd dbT ['t'] ([['a']], [[some 1], [some 3]])) rfl
  obtain ⟨t', ht', N', hN'⟩ := exW'_does (Option Int) inferInstance S0 dbT (upd dbT ['t'] ([['a']], [])) rfl
  rw [C154_same, ht'] at ht
  cases ht
  have h2 := hN (N + N') (by omega)
  rw [hN' (N + N') (by omega), Option.some.injEq] at h2
  exact dbT_ne (by simp) h2

/-- `UPDATE t SET a = 5 WHERE a IN (SELECT a FROM w)` meets the hypotheses. -/
example : Does (.update ['t'] [ta] [(ta, .lit 5)] none (.inq (.col ta) (pr (.table ['w'] [wa]) [wa]))) := by
  refine C155_partial _ _ _ _ ?_ ?_ ?_ ⟨?_, ?_⟩
  · simp [scopedE]
  · simp [pr, scopedS, scopedE, scopedCs]
  · simp [okE, clearE]
  · simp [pr, okS, okE, okCs, isQuery, leftOk, CExprs.cols, Scan.cols]
  · simp [clearE, clearS, pr, intS, intCs, refS, refCs]

/-- It changes the row 2. -/
example : runDml S0 dbT (.update ['t'] [ta] [(ta, .lit 5)] none (.inq (.col ta) (pr (.table ['w'] [wa]) [wa]))) =
    some (upd dbT ['t'] ([['a']], [[some 1], [some 5], [some 3]])) := rfl

/-- `UPDATE t SET a = 5 FROM w WHERE w.a = t.a` changes all rows. -/
theorem C155_full_false : ¬ C155_full := by
  intro h
  obtain ⟨t, ht, N, hN⟩ := h ['t'] [ta] [(ta, .lit 5)] (some (.table ['w'] [wa])) (eq wa ta) (by decide) (by simp [scopedE])
    (by simp [eq, scopedE, scopedEs]) (Option Int) inferInstance S0 dbT
    (upd dbT ['t'] ([['a']], [[some 1], [some 5], [some 3]])) rfl
  cases ht
  have h2 : some (upd dbT ['t'] ([['a']], [[some 5], [some 5], [some 5]])) =
    some (upd dbT ['t'] ([['a']], [[some 1], [some 5], [some 3]])) := hN N (by omega)
  exact dbT_ne (by decide) (Option.some.inj h2)

/-- A column of FROM without namesake in the target is an error: `UPDATE t SET a = 5 FROM v WHERE v.b = t.a`. -/
theorem C155_error {V : Type} [DecidableEq V] (S : Sem V) (db : Db V) (n : Nat) (t : TName) (tcols : List Col)
    (sets : List (Col × Expr)) (src : Option Scan) (f : Nat) (c d : Col) (names : List (List Char)) (row : List V)
    (rows : List (List V)) (hdb : db t = some (names, row :: rows)) (hc : c.name ∉ names) (x : DmlText)
    (hx : fmtDml (.update t tcols sets src (.call f (.cons (.col c) (.cons (.col d) .nil)))) = some x) :
    evalDml S db n x = none := by
  simp only [fmtDml, fmtE, fmtEs, Option.map_some] at hx
  split at hx
  · rename_i xs y h1 h2
    cases h2
    cases hx
    have hn : ∀ q, evalX S q (rowEnv names row) (.call f [.name (plain c), .name (plain d)]) = none := fun q => by
      have : lk names row c.name = none := by
        cases hl : lk names row c.name with
        | none => rfl
        | some v => exact absurd (lk_mem hl) hc
      simp [evalX, evalXs, plain, rowEnv_raw, this]
    simp only [evalDml, hdb]
    split
    · rename_i names' rows' cols h3 h4
      cases h3
      split
      · simp only [mapO, hn, Option.map_none]
      · rfl
    · rfl
  · simp at hx

/-- `INSERT INTO t (a) SELECT b FROM u` meets the hypotheses. -/
example : Does (.insertQuery ['t'] [['a']] q1) := C156_partial _ _ _ q1_ok.1 q1_ok.2

example : runDml S0 db0 (.insertQuery ['v'] [['c']] q1) =
    some (upd db0 ['v'] ([['b'], ['c']], [[some 5, some 6], [none, some 2]])) := rfl

/-- `INSERT INTO t (a) SELECT a FROM (SELECT a FROM t LIMIT 2) WHERE a > 1` is a syntax error. -/
theorem C156_full_false : ¬ C156_full := by
  intro h
  obtain ⟨t, ht, N, hN⟩ := h ['t'] [['a']] (sel [ca] (.limit T 2 none [ca]) (gt ca 1))
    ⟨by decide, by simp [sel, T, gt, scopedS, scopedE, scopedEs, scopedCs], rfl⟩ (Option Int) inferInstance S0 db0
    (upd db0 ['t'] ([['a']], [[some 1], [some 2], [some 3], [some 2]])) rfl
  have hl : fmtS uid (fun _ => none) (.limit T 2 none [ca]) = some _ := rfl
  obtain ⟨q, h1, h2, h3⟩ := limit_where_text (e := gt ca 1) hl (by decide +kernel) rfl
  have hf : formatInput q = [.from, .grp q] := by
    cases q with
    | nil => simp [startsSel] at h2
    | cons x r => cases x <;> simp_all [startsSel, formatInput]
  have ht' : fmtDml (.insertQuery ['t'] [['a']] (sel [ca] (.limit T 2 none [ca]) (gt ca 1))) =
      some (.insertQuery ['t'] [['a']] [.sel (selList uid [] [ca]), .from, .grp q]) := by
    simp only [fmtDml, sel, fmtS.eq_7, fmtCs, h1, hf, Option.map_some]
  rw [ht'] at ht
  cases ht
  have h4 := hN (N + 1) (by omega)
  simp only [evalDml, fails_from h2 (fails_text h3 N _ _)] at h4
  simp at h4

/-- `INSERT INTO t (a) VALUES ((SELECT a FROM w)), (7)` meets the hypotheses. -/
example : Does (.insertRows ['t'] [['a']] [.cons (.scalar (pr (.table ['w'] [wa]) [wa])) .nil, .cons (.lit 7) .nil]) := by
  refine C157_partial _ _ _ ?_ ?_
  · simp [pr, scopedS, scopedE, scopedEs, scopedCs]
  · simp [pr, okS, okE, okEs, okCs, isQuery, leftOk, CExprs.cols, Scan.cols, clearEs, clearE, clearS, intS, intCs, refS, refCs]

/-- It appends 2 and 7. -/
example : runDml S0 dbT (.insertRows ['t'] [['a']] [.cons (.scalar (pr (.table ['w'] [wa]) [wa])) .nil, .cons (.lit 7) .nil]) =
    some (upd dbT ['t'] ([['a']], [[some 1], [some 2], [some 3], [some 2], [some 7]])) := rfl

/-- `INSERT INTO t (a) VALUES ((SELECT a FROM t WHERE EXISTS (SELECT a FROM w WHERE w.a = t.a)))` appends 1 instead of 2. -/
theorem C157_full_false : ¬ C157_full := by
  intro h
  obtain ⟨t, ht, N, hN⟩ := h ['t'] [['a']] [.cons (.scalar (pr (.filter (.table ['t'] [ta]) exW) [ta])) .nil] (by decide)
    (by simp [pr, exW, eq, scopedS, scopedE, scopedEs, scopedCs]) (Option Int) inferInstance S0 dbT
    (upd dbT ['t'] ([['a']], [[some 1], [some 2], [some 3], [some 2]])) rfl
  cases ht
  have h2 : some (upd dbT ['t'] ([['a']], [[some 1], [some 2], [some 3], [some 1]])) =
    some (upd dbT ['t'] ([['a']], [[some 1], [some 2], [some 3], [some 2]])) := hN (N + 6) (by omega)
  exact dbT_ne (by decide) (Option.some.inj h2)

/-- `CREATE TABLE x AS SELECT …` meets the hypotheses. -/
example : ∃ N, ∀ n, N ≤ n → execCtas S0 db0 n .default ['x'] [(ca, ['y'])] q1 = ctas db0 .default ['x'] [['y']] [[some 2]] :=
  C158_partial .default ['x'] [(ca, ['y'])] q1 q1_ok.1 q1_ok.2 (by simp) S0 db0 [[some 2]] [[some 2]] (by decide +kernel)
    (by decide +kernel) (Or.inl rfl)

/-- `CREATE OR REPLACE TABLE t AS SELECT a FROM t` loses the table. -/
theorem C158_full_false : ¬ C158_full := by
  intro h
  obtain ⟨N, hN⟩ := h .orReplace ['t'] [(ta, ['a'])] (pr (.table ['t'] [ta]) [ta])
    ⟨by decide, by simp [pr, scopedS, scopedCs], rfl⟩ (by simp) (Option Int) inferInstance S0 dbT
    [[some 1], [some 2], [some 3]] [[some 1], [some 2], [some 3]] (by decide +kernel) (by decide +kernel)
  have h1 := C158_self S0 dbT N ['t'] [(ta, ['a'])] [ta] [ta] .nil none (by simp [scopedCs]) (by simp)
  have h2 := hN N (by omega)
  simp only [pr] at h2
  rw [h1] at h2
  have h3 := congrArg Prod.snd h2
  simp [ctas, dbT] at h3

end Verif.Query
