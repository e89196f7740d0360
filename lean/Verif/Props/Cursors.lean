import Verif.Model.Cursors

/-!
# C254, C255: what a call of Query leaves open, and the rows in explain mode
-/

namespace Verif.Cursors

open Verif.Driver

/-- The statement is a query that is run, not explained. -/
def opens {σ : Type} (a : Action σ) : Bool := a.isQuery && !a.explain

/-- The statement is a query that is explained. -/
def explained {σ : Type} (a : Action σ) : Bool := a.isQuery && a.explain

/-- The statements of the script that have been started successfully one after the other, and the error that ended this. -/
def trace {σ : Type} : List (ActionFunc σ) → σ → List (Action σ) × Option Err
  | [], _ => ([], none)
  | f :: fs, s =>
    match f s with
    | (_, .error e) => ([], some e)
    | (t, .ok a) =>
      match a.exec t with
      | (_, some e) => ([], some e)
      | (t, none) =>
        match opens a, a.late with
        | true, some e => ([a], some e)
        | _, _ => (a :: (trace fs t).1, (trace fs t).2)

/-- What a client does that closes its rows: the state afterwards, `none` if the client panics. -/
def queryAndClose {σ : Type} (fs : List (ActionFunc σ)) (s : State σ) : Option (State σ) :=
  match queryContext fs s with
  | (s, .ok (some r)) => (r.close s).map (·.1)
  | (s, _) => some s

/-- Full C254: a client that closes the rows it is given can close the connection. -/
def C254_full : Prop := ∀ (σ : Type) (fs : List (ActionFunc σ)) (s s' : State σ), s.opened = [] → queryAndClose fs s = some s' → connCloses s'

/-- The number of cursors that the statements have opened. -/
def count {σ : Type} (as : List (Action σ)) : Nat := (as.filter opens).length

/-- The rows of the last statement. -/
def lastRows {σ : Type} (n : Cursor) (as : List (Action σ)) (rows : Option (Rows σ)) : Option (Rows σ) :=
  match as.getLast? with
  | none => rows
  | some a => some ⟨if opens a then some (n + count as - 1) else none, !explained a, []⟩

theorem count_cons {σ : Type} (a : Action σ) (as : List (Action σ)) : count (a :: as) = (if opens a then 1 else 0) + count as := by
  unfold count
  cases h : opens a <;> simp [h, Nat.add_comm]

theorem lastRows_cons {σ : Type} (n : Cursor) (a : Action σ) (as : List (Action σ)) (rows : Option (Rows σ)) :
    lastRows n (a :: as) rows =
      lastRows (n + if opens a then 1 else 0) as (some ⟨if opens a then some n else none, !explained a, []⟩) := by
  cases as with
  | nil =>
    simp only [lastRows, List.getLast?_singleton, List.getLast?_nil, count_cons]
    cases h : opens a <;> simp [count]
  | cons b bs =>
    unfold lastRows
    rw [List.getLast?_cons_cons]
    cases hb : (b :: bs).getLast? with
    | none => simp at hb
    | some c => simp only [count_cons a, Nat.add_assoc]

/-- What a statement does that succeeds up to `rows.Err()`. -/
theorem query_eq {σ : Type} (a : Action σ) (s : State σ) {u : σ} (he : a.exec s.st = (u, none)) :
    (a.query s).1 = ⟨u, (if opens a then [s.next] else []) ++ s.opened, s.next + if opens a then 1 else 0⟩ ∧
    (a.query s).2 = match opens a, a.late with
      | true, some e => .error e
      | _, _ => .ok ⟨if opens a then some s.next else none, !explained a, []⟩ := by
  unfold Action.query opens explained
  rw [he]
  cases hq : a.isQuery <;> cases hx : a.explain <;> cases hl : a.late <;> simp

theorem loop_trace {σ : Type} : ∀ (fs : List (ActionFunc σ)) (s : State σ) (acts : List (Action σ)) (rows : Option (Rows σ)),
    (loop fs s acts rows).1.opened = (List.range' s.next (count (trace fs s.st).1)).reverse ++ s.opened ∧
    (loop fs s acts rows).2 = match (trace fs s.st).2 with
      | some e => .error e
      | none => .ok ((lastRows s.next (trace fs s.st).1 rows).map fun r => { r with actions := acts ++ (trace fs s.st).1 }) := by
  intro fs
  induction fs with
  | nil =>
    intro s acts rows
    simp [loop, trace, count, lastRows]
  | cons f fs ih =>
    intro s acts rows
    unfold loop trace
    cases hf : f s.st with
    | mk t r =>
      cases r with
      | error e => simp [count]
      | ok a =>
        simp only []
        cases he : a.exec t with
        | mk u o =>
          cases o with
          | some e =>
            have : a.query { s with st := t } = ({ s with st := u }, .error e) := by unfold Action.query; simp only [he]
            rw [this]
            simp [count]
          | none =>
            obtain ⟨h1, h2⟩ := query_eq a { s with st := t } he
            cases hq : a.query { s with st := t } with
            | mk s' r =>
              rw [hq] at h1 h2
              simp only at h1 h2
              subst h1
              by_cases hl : opens a = true ∧ ∃ e, a.late = some e
              · obtain ⟨ho, e, hl⟩ := hl
                rw [ho, hl] at h2
                simp only [ho, hl, if_true] at h2 ⊢
                subst h2
                simp [count, ho]
              · have e1 : ∀ {β : Type} (x : Err → β) (y : β), (match opens a, a.late with | true, some e => x e | _, _ => y) = y := by
                  intro β x y
                  cases ho : opens a <;> cases hl' : a.late <;> simp_all
                rw [e1] at h2
                subst h2
                simp only [e1]
                obtain ⟨i1, i2⟩ := ih ⟨u, (if opens a then [s.next] else []) ++ s.opened, s.next + if opens a then 1 else 0⟩ (acts ++ [a])
                  (some ⟨if opens a then some s.next else none, !explained a, []⟩)
                rw [i1, i2]
                constructor
                · rw [count_cons]
                  cases opens a with
                  | false => simp
                  | true =>
                    simp [Nat.add_comm 1, List.range'_succ]
                · rw [lastRows_cons]
                  simp

theorem cleanups_none {σ : Type} (conn : Bool) : ∀ (as : List (Action σ)) (s : σ),
    cleanups conn as s = none ↔ conn = false ∧ ∃ a ∈ as, a.usesConn = true
  | [], s => by simp [cleanups]
  | a :: as, s => by
    have ih := cleanups_none conn as (a.cleanup s).1
    unfold cleanups
    cases hc : cleanups conn as (a.cleanup s).1 with
    | none => rw [hc] at ih; cases hu : a.usesConn <;> cases conn <;> simp_all
    | some r => rw [hc] at ih; cases hu : a.usesConn <;> cases conn <;> simp_all

theorem filter_range' (n k : Nat) : (List.range' n (k + 1)).reverse.filter (· ≠ n + (k + 1) - 1) = (List.range' n k).reverse := by
  have h : n + (k + 1) - 1 = n + k := by omega
  rw [List.range'_1_concat, h]
  simp only [List.reverse_append, List.reverse_cons, List.reverse_nil, List.nil_append, List.singleton_append, List.filter_cons, ne_eq,
    not_true_eq_false, decide_false, Bool.false_eq_true, if_false]
  rw [List.filter_eq_self]
  intro x hx
  rw [List.mem_reverse, List.mem_range'_1] at hx
  simp only [decide_eq_true_eq]
  omega

/-- The cursors that are left open when the client has closed its rows: those of all queries that were started but, if the script has
not failed, that of the last statement. -/
theorem C254_left {σ : Type} (fs : List (ActionFunc σ)) (s s' : State σ) (h0 : s.opened = []) (h : queryAndClose fs s = some s') :
    s'.opened.length = if (trace fs s.st).2 = none then count (trace fs s.st).1.dropLast else count (trace fs s.st).1 := by
  obtain ⟨h1, h2⟩ := loop_trace fs s [] none
  rw [h0, List.append_nil] at h1
  unfold queryAndClose queryContext at h
  cases hl : loop fs s [] none with
  | mk u r =>
    rw [hl] at h h1 h2
    simp only at h1 h2
    cases ht : (trace fs s.st).2 with
    | some e =>
      rw [ht] at h2
      subst h2
      simp only [Option.some.injEq] at h
      subst h
      rw [h1]
      simp
    | none =>
      rw [ht] at h2
      subst h2
      simp only [if_true]
      rcases List.eq_nil_or_concat (trace fs s.st).1 with ha | ⟨as, a, ha⟩
      · rw [ha] at h h1 ⊢
        simp only [lastRows, List.getLast?_nil, Option.map_none, Option.some.injEq] at h
        subst h
        rw [h1]
        rfl
      · rw [List.concat_eq_append] at ha
        rw [ha] at h h1 ⊢
        have hc : count (as ++ [a]) = count as + if opens a then 1 else 0 := by
          unfold count
          rw [List.filter_append]
          cases ho : opens a <;> simp [ho]
        simp only [lastRows, List.getLast?_append, List.getLast?_singleton, Option.some_or, Option.map_some, Rows.close, hc] at h
        rw [hc] at h1
        rw [List.dropLast_concat]
        split at h
        · cases h
        · simp only [Option.map_some, Option.some.injEq] at h
          subst h
          cases ho : opens a with
          | false =>
            simp only [ho, Bool.false_eq_true, if_false] at h1 ⊢
            rw [h1]
            simp
          | true =>
            simp only [ho, if_true] at h1 ⊢
            rw [h1, filter_range']
            simp

theorem count_zero {σ : Type} (as : List (Action σ)) : count as = 0 ↔ ∀ a ∈ as, opens a = false := by
  unfold count
  rw [List.length_eq_zero_iff, List.filter_eq_nil_iff]
  simp

/-- The connection can be closed exactly if no query but the last statement of a script that succeeds was run. -/
theorem C254_iff {σ : Type} (fs : List (ActionFunc σ)) (s s' : State σ) (h0 : s.opened = []) (h : queryAndClose fs s = some s') :
    connCloses s' ↔ ∀ a ∈ (if (trace fs s.st).2 = none then (trace fs s.st).1.dropLast else (trace fs s.st).1), opens a = false := by
  have hl := C254_left fs s s' h0 h
  unfold connCloses
  rw [← List.length_eq_zero_iff, hl]
  split <;> exact count_zero _

/-- A single statement, whatever it is and whether it is explained. -/
theorem C254_partial {σ : Type} (f : ActionFunc σ) (s s' : State σ) (h0 : s.opened = []) (h : queryAndClose [f] s = some s')
    (hl : ∀ t a, f s.st = (t, .ok a) → a.late = none) : connCloses s' := by
  rw [C254_iff [f] s s' h0 h]
  unfold trace
  split
  · simp
  · rename_i t a hf
    split
    · simp
    · rw [hl t a hf]
      simp [trace]

/-- A query that returns rows. -/
def select : Action Unit := ⟨true, false, fun s => (s, none), none, fun s => (s, none), false⟩

/-- After SELECT 1; SELECT 2 the connection is never closed. -/
theorem C254_full_false : ¬ C254_full := by
  intro h
  have := h Unit [fun s => (s, .ok select), fun s => (s, .ok select)] ⟨(), [], 0⟩ ⟨(), [0], 2⟩ rfl rfl
  exact absurd this (by simp [connCloses])

/-- Neither is it after SELECT 1; SELECT x, where the second statement is refused by the analyzer. -/
theorem C254_failed : queryAndClose [fun s => (s, .ok select), fun s => (s, .error 1)] (⟨(), [], 0⟩ : State Unit) = some ⟨(), [0], 1⟩ := rfl

/-- The statements of Exec, queries among them, and prepared queries that are closed leave nothing open. -/
theorem C254_exec {σ : Type} (as : List (Action σ)) (s : State σ) : (as.foldl (fun s a => (a.run s).1) s).opened = s.opened := by
  induction as generalizing s with
  | nil => rfl
  | cons a as ih =>
    rw [List.foldl_cons, ih]
    rfl

theorem C254_prepared {σ : Type} (a : Action σ) (s : State σ) (hs : ∀ c ∈ s.opened, c < s.next) (hl : a.late = none) (u : State σ) :
    (∀ e, preparedQuery a s = (u, .error e) → u.opened = s.opened) ∧
    ∀ r, preparedQuery a s = (u, .ok r) → ∃ u', r.close u = some (u', []) ∧ u'.opened = s.opened := by
  unfold preparedQuery
  rw [hl]
  cases he : a.exec s.st with
  | mk t o =>
    cases o with
    | some e =>
      simp only [Prod.mk.injEq, Except.error.injEq, reduceCtorEq, and_false, false_implies, implies_true, and_true]
      rintro e' ⟨rfl, _⟩
      rfl
    | none =>
      simp only [Prod.mk.injEq, reduceCtorEq, and_false, false_implies, implies_true, true_and, Except.ok.injEq]
      rintro r ⟨rfl, rfl⟩
      refine ⟨_, rfl, ?_⟩
      simp only [List.filter_cons, ne_eq, not_true_eq_false, decide_false, Bool.false_eq_true, if_false]
      rw [List.filter_eq_self]
      intro c hc
      have := hs c hc
      simp only [decide_eq_true_eq]
      exact Nat.ne_of_lt this

/-! ## C255: explain mode -/

/-- Full C255: rows that Query returns can be closed, and can be asked for the changes of the catalog. -/
def C255_full : Prop := ∀ (σ : Type) (fs : List (ActionFunc σ)) (s s' : State σ) (r : Rows σ), queryContext fs s = (s', .ok (some r)) →
  (r.close s').isSome ∧ r.changedCatalog = true

/-- Exactly: the changes of the catalog can be had unless the last statement was explained; the rows can be closed unless, in addition, a
statement before it needs the connection for its cleanup. -/
theorem C255_iff {σ : Type} (fs : List (ActionFunc σ)) (s s' : State σ) (r : Rows σ) (h : queryContext fs s = (s', .ok (some r))) :
    ∃ as a, trace fs s.st = (as ++ [a], none) ∧ (r.changedCatalog = true ↔ explained a = false) ∧
      (r.close s' = none ↔ explained a = true ∧ ∃ b ∈ as ++ [a], b.usesConn = true) := by
  obtain ⟨-, h2⟩ := loop_trace fs s [] none
  unfold queryContext at h
  rw [h] at h2
  simp only at h2
  cases ht : (trace fs s.st).2 with
  | some e => rw [ht] at h2; simp at h2
  | none =>
    rw [ht] at h2
    simp only [Except.ok.injEq] at h2
    rcases List.eq_nil_or_concat (trace fs s.st).1 with ha | ⟨as, a, ha⟩
    · rw [ha] at h2
      simp [lastRows] at h2
    · rw [List.concat_eq_append] at ha
      refine ⟨as, a, by rw [← ha, ← ht], ?_⟩
      rw [ha] at h2
      simp only [lastRows, List.getLast?_append, List.getLast?_singleton, Option.some_or, Option.map_some, Option.some.injEq,
        List.nil_append] at h2
      subst h2
      constructor
      · simp [Rows.changedCatalog]
      · have hc := cleanups_none (!explained a) (as ++ [a]) s'.st
        unfold Rows.close
        simp only
        cases hn : cleanups (!explained a) (as ++ [a]) s'.st with
        | none =>
          rw [hn] at hc
          simpa using hc
        | some q =>
          rw [hn] at hc
          simpa using hc

/-- The cleanups of `as` in order: the state after them and all their errors. -/
def cleaned {σ : Type} (as : List (Action σ)) (s : σ) : σ × List Err :=
  as.foldl (fun r a => ((a.cleanup r.1).1, r.2 ++ (a.cleanup r.1).2.toList)) (s, [])

theorem cleaned_append {σ : Type} : ∀ (as : List (Action σ)) (s : σ) (es : List Err),
    as.foldl (fun r a => ((a.cleanup r.1).1, r.2 ++ (a.cleanup r.1).2.toList)) (s, es) = ((cleaned as s).1, es ++ (cleaned as s).2)
  | [], s, es => by simp [cleaned]
  | a :: as, s, es => by
    unfold cleaned
    rw [List.foldl_cons, List.foldl_cons, cleaned_append as _ _, cleaned_append as _ _]
    simp

theorem cleanups_some {σ : Type} (conn : Bool) : ∀ (as : List (Action σ)) (s t : σ) (es : List Err),
    cleanups conn as s = some (t, es) → cleaned as s = (t, es)
  | [], s, t, es, h => by simpa [cleanups, cleaned] using h
  | a :: as, s, t, es, h => by
    unfold cleanups at h
    split at h
    · simp at h
    · split at h
      · simp at h
      · rename_i t' es' h'
        simp only [Option.some.injEq, Prod.mk.injEq] at h
        obtain ⟨rfl, rfl⟩ := h
        have ih := cleanups_some conn as _ _ _ h'
        unfold cleaned
        rw [List.foldl_cons, cleaned_append, ih]
        simp

/-- Close runs the cleanup of every statement of the call, in their order, each once, and reports all of their errors. -/
theorem C255_cleanup {σ : Type} (fs : List (ActionFunc σ)) (s s' u : State σ) (r : Rows σ) (es : List Err)
    (h : queryContext fs s = (s', .ok (some r))) (hc : r.close s' = some (u, es)) : cleaned (trace fs s.st).1 s'.st = (u.st, es) := by
  obtain ⟨-, h2⟩ := loop_trace fs s [] none
  unfold queryContext at h
  rw [h] at h2
  simp only at h2
  cases ht : (trace fs s.st).2 with
  | some e => rw [ht] at h2; simp at h2
  | none =>
    rw [ht] at h2
    simp only [Except.ok.injEq] at h2
    cases hl : lastRows s.next (trace fs s.st).1 none with
    | none => rw [hl] at h2; simp at h2
    | some q =>
      rw [hl] at h2
      simp only [Option.map_some, Option.some.injEq, List.nil_append] at h2
      subst h2
      unfold Rows.close at hc
      simp only at hc
      split at hc
      · simp at hc
      · rename_i t es' hcl
        simp only [Option.some.injEq, Prod.mk.injEq] at hc
        obtain ⟨rfl, rfl⟩ := hc
        exact cleanups_some _ _ _ _ _ hcl

/-- Without explain mode. -/
theorem C255_partial {σ : Type} (fs : List (ActionFunc σ)) (s s' : State σ) (r : Rows σ) (h : queryContext fs s = (s', .ok (some r)))
    (hx : ∀ a ∈ (trace fs s.st).1, a.explain = false) : (r.close s').isSome ∧ r.changedCatalog = true := by
  obtain ⟨as, a, ht, h1, h2⟩ := C255_iff fs s s' r h
  have ha : explained a = false := by
    have := hx a (by rw [ht]; simp)
    simp [explained, this]
  refine ⟨?_, h1.2 ha⟩
  cases hn : r.close s' with
  | none => rw [ha] at h2; simp [hn] at h2
  | some _ => rfl

/-- CREATE TEMP TABLE; SELECT in explain mode: closing the rows panics. -/
def createTemp : Action Unit := ⟨false, true, fun s => (s, none), none, fun s => (s, none), true⟩
def plan : Action Unit := ⟨true, true, fun s => (s, none), none, fun s => (s, none), false⟩

theorem C255_panics : queryAndClose [fun s => (s, .ok createTemp), fun s => (s, .ok plan)] (⟨(), [], 0⟩ : State Unit) = none := rfl

theorem C255_full_false : ¬ C255_full := by
  intro h
  have := (h Unit [fun s => (s, .ok plan)] ⟨(), [], 0⟩ ⟨(), [], 0⟩ ⟨none, false, [plan]⟩ rfl).2
  exact absurd this (by decide)

/-- The rows of a prepared query can be closed, but not be asked for the changes: the method panics. -/
theorem C255_prepared {σ : Type} (a : Action σ) (s u : State σ) (r : Rows σ) (h : preparedQuery a s = (u, .ok r)) :
    (r.close u).isSome ∧ r.changedCatalog = false := by
  unfold preparedQuery at h
  cases he : a.exec s.st with
  | mk t o =>
    rw [he] at h
    cases o with
    | some e => simp at h
    | none =>
      simp only at h
      cases hl : a.late with
      | some e => rw [hl] at h; simp at h
      | none =>
        rw [hl] at h
        simp only [Prod.mk.injEq, Except.ok.injEq] at h
        obtain ⟨-, rfl⟩ := h
        exact ⟨rfl, rfl⟩

/-- SELECT 1 and rows that are closed: the hypotheses of `C254_partial` and `C255_partial` are met. -/
example : queryAndClose [fun s => (s, .ok select)] (⟨(), [], 0⟩ : State Unit) = some ⟨(), [], 1⟩ := rfl
example : connCloses (⟨(), [], 1⟩ : State Unit) := C254_partial (fun s => (s, .ok select)) ⟨(), [], 0⟩ _ rfl rfl (by rintro _ _ ⟨⟩; rfl)

end Verif.Cursors
