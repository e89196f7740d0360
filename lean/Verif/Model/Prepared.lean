import Verif.Model.Params
import Verif.Model.Driver

/-!
# Prepared statements and BEGIN/COMMIT in scripts

driver.go:140-164 `PrepareContext`, internal/stmt.go, the `Prepare` methods of internal/stmt_action.go, and what database/sql does
with a prepared statement (trusted: `Stmt.Exec`, `Stmt.Query`, `driverArgsConnLocked`, `ctxDriverStmtExec`).
-/

namespace Verif.Prepared
open Verif.Go Verif.Params

/-- The kinds of statements.  `table` is the table or view of CREATE. -/
inductive Kind where
  | createTable (table : Nat) (orReplace : Bool)
  | createView (table : Nat) (orReplace : Bool)
  | createFunction (temp : Bool)
  | dml
  | query
  | drop
  | truncate
  | merge
  | begin
  | commit
  deriving DecidableEq, Repr

/-- A statement with its parameters. -/
structure PStmt where
  kind : Kind
  expr : Expr
  deriving DecidableEq

/-- What a call comes to.  `ran` is a statement that SQLite has carried out, with the values of its parameters; `function` a
function added to the catalog, with whether it is reported as changed and whether it stays after the call. -/
inductive Out (V : Type) where
  | ran (values : List (Option V))
  | function (reported stays : Bool)
  | err
  | panic
  deriving DecidableEq

def Out.ofRes {V} : Res (List (Option V)) → Out V
  | .ok v => .ran v
  | .err => .err
  | .panic => .panic

/-- `Exec` or `Query`. -/
inductive Method where
  | exec
  | query
  deriving DecidableEq, Repr

/-- A statement run at once, with either method (driver.go:166-232, the `exec` methods of stmt_action.go, provided SQLite itself
finds no fault).  CREATE VIEW, DROP, TRUNCATE and MERGE pass no arguments on (stmt_action.go:148, 474, 499); the parameters of
DROP cannot exist. -/
def direct {V} (s : PStmt) (values : List (Arg V)) : Out V :=
  match s.kind with
  | .createTable _ _ | .dml | .query => .ofRes (runStmt values s.expr)
  | .createFunction temp => .function true (!temp)
  | .begin | .commit => .ran []
  | .createView _ _ | .drop | .truncate | .merge => .ofRes (sqlite ((s.expr.format 0).map Prod.snd) [])

/-- stmt_action.go:28-42, 128-142, 209-211, 295-297, 314-320, 363-369, 432-434, 454-456, 478-480, 511-513: what `Prepare` gives; `none` for a
nil statement. -/
def prepared (s : PStmt) : Option PStmt :=
  match s.kind with
  | .createTable _ _ | .createView _ _ | .createFunction _ | .dml | .query => some s
  | .drop | .truncate | .merge | .begin | .commit => none

/-- driver.go:145-164: all statements are prepared, the last one is handed out. -/
def prepareScript : List PStmt → Option PStmt
  | [] => none
  | [s] => prepared s
  | _ :: ss => prepareScript ss

/-- The number of arguments a prepared statement asks for (`NumInput`, stmt.go). -/
def numInput (s : PStmt) : Nat :=
  match s.kind with
  | .dml | .query => (getParams [] s.expr.walk).length
  | _ => 0

/-- The `Exec` and `Query` methods of stmt.go on values without names.  CREATE TABLE and CREATE VIEW hand the slice of the
arguments over as one argument, of a type no SQLite statement takes (stmt.go:43, 80). -/
def call {V} (s : PStmt) (m : Method) (values : List V) : Out V :=
  match s.kind, m with
  | .dml, .exec | .query, .query => .ofRes (sqlite ((s.expr.format 0).map Prod.snd) (values.map fun v => ⟨[], v⟩))
  | .createFunction _, .exec => .function false true
  | _, _ => .err

/-- A prepared statement run by database/sql: a nil statement is called anyway; the number of arguments is checked; names are
refused, since the statements have no `ExecContext(ctx, []driver.NamedValue)` (stmt.go:169, 247 have another signature). -/
def runPrepared {V} (s : Option PStmt) (m : Method) (values : List (Arg V)) : Out V :=
  match s with
  | none => .panic
  | some s =>
    if values.length ≠ numInput s then .err
    else if values.any (fun a => decide (a.name ≠ [])) then .err
    else call s m (values.map Arg.value)

/-! ### What preparing does -/

/-- Table contents by name. -/
abbrev Tables := Nat → Option (List Nat)

/-- stmt_action.go:29-36, 129-136: the DROP of CREATE OR REPLACE is run by `Prepare`. -/
def prepareEffect (db : Tables) (s : PStmt) : Tables :=
  match s.kind with
  | .createTable t true | .createView t true => fun x => if x = t then none else db x
  | _ => db

def prepareScriptEffect (db : Tables) (ss : List PStmt) : Tables := ss.foldl prepareEffect db

/-! ### BEGIN and COMMIT in a script -/

/-- A statement of a script. -/
inductive Item (σ : Type) where
  | begin
  | commit
  | stmt (f : Driver.ActionFunc σ)

/-- stmt_action.go:430-470: BEGIN and COMMIT do nothing. -/
def noop {σ : Type} : Driver.ActionFunc σ := fun s => (s, .ok ⟨fun s => (s, none), fun s => (s, none)⟩)

def Item.func {σ : Type} : Item σ → Driver.ActionFunc σ
  | .begin => noop
  | .commit => noop
  | .stmt f => f

end Verif.Prepared
