import Verif.Model.Driver

/-!
# The rows of a call of Query (driver.go:200-236, internal/rows.go:16-60, internal/stmt_action.go:98-103, 361-422, internal/stmt.go:217-258)

What a call of Query opens in SQLite, who closes it, and the two pointers of the rows that are given to the client.  A cursor is
a `*sql.Rows` of the connection to SQLite.

Simplified: no transaction is open (database/sql closes the cursors of a transaction when it ends) and the context of the call is never
cancelled.
-/

namespace Verif.Cursors

open Verif.Driver

abbrev Cursor := Nat

/-- The state of a connection: what statements can see and change, the cursors that are open, the number of cursors ever opened. -/
structure State (σ : Type) where
  st : σ
  opened : List Cursor
  next : Cursor

/-- A statement (stmt_action.go:12-18): whether it is a query, whether explain mode was on when it was analysed (analyzer.go:532), what
running it does, the error `rows.Err()` gives after the query was started, and its cleanup.  `conn` says whether the cleanup uses the
connection: temporary objects and views (stmt_action.go:109-125, 178-194, 230-239). -/
structure Action (σ : Type) where
  isQuery : Bool
  explain : Bool
  exec : σ → σ × Option Err
  late : Option Err
  cleanup : σ → σ × Option Err
  usesConn : Bool

/-- analyzer.go:185: analysing the next statement. -/
abbrev ActionFunc (σ : Type) := σ → σ × Except Err (Action σ)

/-- rows.go:16-21 Rows: the cursor, whether `conn` is set, the actions. -/
structure Rows (σ : Type) where
  cursor : Option Cursor
  conn : Bool
  actions : List (Action σ)

/-- `QueryContext` of the actions: stmt_action.go:402-418 of a query, and of the others "exec, then `&Rows{conn: conn}`" (98-103, 171-176,
219-224, 280-285, 336-341, 434-436, 456-458, 493-498, 526-531).  The rows of ExplainQueryPlan are closed before it returns
(stmt_action.go:378-400). -/
def Action.query {σ : Type} (a : Action σ) (s : State σ) : State σ × Except Err (Rows σ) :=
  match a.exec s.st with
  | (t, some e) => ({ s with st := t }, .error e)
  | (t, none) =>
    if a.isQuery then
      if a.explain then ({ s with st := t }, .ok ⟨none, false, []⟩)
      else
        let s' : State σ := ⟨t, s.next :: s.opened, s.next + 1⟩
        match a.late with
        | some e => (s', .error e)
        | none => (s', .ok ⟨some s.next, true, []⟩)
    else ({ s with st := t }, .ok ⟨none, true, []⟩)

/-- driver.go:206-234: the loop of QueryContext; `rows` is the variable of this name.  After an error the rows of earlier statements
are given the actions, but not closed. -/
def loop {σ : Type} : List (ActionFunc σ) → State σ → List (Action σ) → Option (Rows σ) → State σ × Except Err (Option (Rows σ))
  | [], s, acts, rows => (s, .ok (rows.map fun r => { r with actions := acts }))
  | f :: fs, s, acts, rows =>
    match f s.st with
    | (t, .error e) => ({ s with st := t }, .error e)
    | (t, .ok a) =>
      match a.query { s with st := t } with
      | (s, .error e) => (s, .error e)
      | (s, .ok r) => loop fs s (acts ++ [a]) (some r)

/-- driver.go:200-236 QueryContext -/
def queryContext {σ : Type} (fs : List (ActionFunc σ)) (s : State σ) : State σ × Except Err (Option (Rows σ)) := loop fs s [] none

/-- The cleanups of rows.go:48-50; `none` is a panic: the connection is nil (rows.go:49, conn.go:64-69). -/
def cleanups {σ : Type} (conn : Bool) : List (Action σ) → σ → Option (σ × List Err)
  | [], s => some (s, [])
  | a :: as, s =>
    if a.usesConn && !conn then none
    else match cleanups conn as (a.cleanup s).1 with
      | none => none
      | some (t, es) => some (t, (a.cleanup s).2.toList ++ es)

/-- rows.go:44-60 Close: the cursor, then the cleanups.  `none` is a panic. -/
def Rows.close {σ : Type} (r : Rows σ) (s : State σ) : Option (State σ × List Err) :=
  let opened := match r.cursor with
    | some c => s.opened.filter (· ≠ c)
    | none => s.opened
  match cleanups r.conn r.actions s.st with
  | none => none
  | some (t, es) => some (⟨t, opened, s.next⟩, es)

/-- rows.go:23-25 ChangedCatalog, what ChangedCatalogFromRows (catalog.go:24-38) calls; `false` is a panic. -/
def Rows.changedCatalog {σ : Type} (r : Rows σ) : Bool := r.conn

/-- driver.go:238-240 Close, `(*sql.Conn).Close`: it waits until all cursors of the connection are closed. -/
def connCloses {σ : Type} (s : State σ) : Prop := s.opened = []

/-- stmt.go:227-254: the query of a prepared statement gives rows without a connection. -/
def preparedQuery {σ : Type} (a : Action σ) (s : State σ) : State σ × Except Err (Rows σ) :=
  match a.exec s.st with
  | (t, some e) => ({ s with st := t }, .error e)
  | (t, none) =>
    let s' : State σ := ⟨t, s.next :: s.opened, s.next + 1⟩
    match a.late with
    | some e => (s', .error e)
    | none => (s', .ok ⟨some s.next, false, []⟩)

/-- ExecContext of the actions (stmt_action.go:91-96, 371-376 and the others): `ExecContext` of the connection to SQLite opens no cursor. -/
def Action.run {σ : Type} (a : Action σ) (s : State σ) : State σ × Option Err :=
  match a.exec s.st with
  | (t, e) => ({ s with st := t }, e)

end Verif.Cursors
