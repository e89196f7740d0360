import Verif.Model.Dml

/-!
# Views

CREATE VIEW and DROP VIEW (internal/spec.go:159-170 and 529-549, internal/stmt_action.go:148-172 and 253-285,
internal/analyzer.go:360-371), and reading a view.  SQLite stores the text of the query and runs it when the view is read.

Simplified: SQLite refuses a text that is no query when the view is created, in the model when it is read; the specification kept in
the catalog is the subject of `Model/Engine`.
-/

namespace Verif.Query

/-- A view as the statement defines it: its columns with their names, and the query. -/
structure View where
  out : List (Col × List Char)
  scan : Scan

/-- Statements on views, and any statement that changes a table: it leaves these contents (none: the table is dropped). -/
inductive VStmt (V : Type) where
  | createView (mode : CMode) (t : TName) (v : View)
  | dropView (t : TName) (ifExists : Bool)
  | table (t : TName) (x : Option (List (List Char) × List (List V)))

section
variable {V : Type}

/-- The database of SQLite: tables, and views with their texts. -/
structure World (V : Type) where
  tabs : Db V
  views : TName → Option (List Tok)

/-- `DROP VIEW [IF EXISTS] t` in SQLite: an error for a table. -/
def World.dropView (w : World V) (t : TName) (ifExists : Bool) : World V × Bool :=
  if w.tabs t ≠ none then (w, false)
  else if w.views t = none then (w, ifExists)
  else ({ w with views := fun m => if m = t then none else w.views m }, true)

/-- `CREATE VIEW [IF NOT EXISTS] t AS q` in SQLite. -/
def World.createView (w : World V) (t : TName) (q : List Tok) (ifNotExists : Bool) : World V × Bool :=
  if w.tabs t ≠ none ∨ w.views t ≠ none then (w, ifNotExists)
  else ({ w with views := upd w.views t q }, true)

/-- CreateViewStmtAction.exec (stmt_action.go:166-186), DropStmtAction (259-269).  The text of the view is that of `newTableAsViewSpec`
(spec.go:529-549), the same as for a query (`fmtQuery`); OR REPLACE drops the view first.  A statement on a table fails if the name is
that of a view. -/
def World.exec (w : World V) : VStmt V → World V × Bool
  | .createView mode t v => match fmtQuery v.out v.scan with
    | none => (w, false)
    | some q =>
      let d := if mode = .orReplace then w.dropView t true else (w, true)
      if d.2 = false then (w, false) else d.1.createView t q (mode = .ifNotExists)
  | .dropView t ifExists => w.dropView t ifExists
  | .table t x => if w.views t ≠ none then (w, false) else ({ w with tabs := fun m => if m = t then x else w.tabs m }, true)

/-- A history of statements: the database afterwards. -/
def World.run (w : World V) (ss : List (VStmt V)) : World V := ss.foldl (fun w s => (w.exec s).1) w
end

section
variable {V : Type} [DecidableEq V]

open Classical in
/-- The table a query text yields in SQLite. -/
noncomputable def valueQ (S : Sem V) (db : Db V) (ts : List Tok) : Option (Rel V) :=
  if h : ∃ r, Yields S db ts r then some h.choose else none

/-- What SQLite reads under a name; the number bounds how deeply views are nested. -/
noncomputable def World.read (S : Sem V) (w : World V) : Nat → Db V
  | 0 => w.tabs
  | k + 1 => fun t => match w.tabs t with
    | some x => some x
    | none => match w.views t with
      | none => none
      | some q => match valueQ S (w.read S k) q with
        | none => none
        | some (h, rows) => (mapO Nm.target h).map fun names => (names, rows)
end

end Verif.Query
