import Verif.Model.Catalog
import Verif.Model.Driver

/-!
# Model of the catalog statements of `internal/stmt_action.go`

Concrete actions for the driver loop of `Verif.Model.Driver`: the in-memory catalog, its
persistent rows, the SQLite tables and views, and the change record of the call.
-/

namespace Verif.Engine
open Verif.Catalog Verif.Driver

/-- The state a call works on. -/
structure St where
  mem : Mem
  rows : List Row
  /-- SQLite objects: `some true` a view, `some false` a table.  Simplification: SQLite compares
  names without case, the model with case; contents are left out. -/
  phys : Name → Option Bool
  /-- The events recorded in the call's `ChangedCatalog` (their effect is `Changed.run`). -/
  evs : List Ev
  /-- The function map of the call (analyzer.go:195-198). -/
  fm : Name → Option Catalog.Spec
  now : Nat

/-- `ast.CreateMode`. -/
inductive Mode where
  | default | orReplace | ifNotExists
  deriving DecidableEq

inductive Stmt where
  /-- CREATE [TEMP] TABLE; `asSelect` for CREATE TABLE AS SELECT. -/
  | createTable (s : Catalog.Spec) (mode : Mode) (asSelect : Bool)
  | createView (s : Catalog.Spec) (mode : Mode)
  | createFunction (s : Catalog.Spec)
  | dropTable (n : Name) (ifExists : Bool)
  | dropView (n : Name) (ifExists : Bool)
  | dropFunction (n : Name)
  /-- Queries, DML, BEGIN, COMMIT, TRUNCATE: no effect on the catalog; `ok` whether it succeeds. -/
  | other (ok : Bool)
  /-- A statement the analyzer rejects. -/
  | rejected

/-- SQLite `DROP TABLE|VIEW [IF EXISTS] n`.  Dropping an object of the other kind is an error also
with IF EXISTS. -/
def sqlDrop (phys : Name → Option Bool) (n : Name) (view ifExists : Bool) : (Name → Option Bool) × Bool :=
  match phys n with
  | none => (phys, ifExists)
  | some v => if v = view then (fun m => if m = n then none else phys m, true) else (phys, false)

/-- SQLite `CREATE TABLE|VIEW [IF NOT EXISTS] n`. -/
def sqlCreate (phys : Name → Option Bool) (n : Name) (view ifNotExists : Bool) : (Name → Option Bool) × Bool :=
  match phys n with
  | none => (fun m => if m = n then some view else phys m, true)
  | some _ => (phys, ifNotExists)

/-- Error code of a failed statement; only that there is one matters. -/
def fail : Option Err := some 1

/-- stmt_action.go:63-87 and 146-163: create the SQLite object and register the specification.
spec.go:134-136: CREATE TABLE AS SELECT ignores IF NOT EXISTS. -/
def execCreate (s : Catalog.Spec) (view : Bool) (mode : Mode) (asSelect : Bool) (st : St) : St × Option Err :=
  let d := if mode = .orReplace then sqlDrop st.phys s.key view true else (st.phys, true)
  if d.2 = false then (st, fail)
  else
    let c := sqlCreate d.1 s.key view (mode = .ifNotExists && !asSelect)
    if c.2 = false then ({ st with phys := c.1 }, fail)
    else
      let r := addNewTableSpec st.mem st.rows s st.now
      let st' := { st with phys := c.1, mem := r.1, rows := r.2.1 }
      if r.2.2 = false then (st', fail)
      else if !view && !s.isTemp then ({ st' with evs := st'.evs ++ [.addTable s] }, none)
      else (st', none)

/-- stmt_action.go:107-122 and 179-194. -/
def cleanupCreate (s : Catalog.Spec) (view : Bool) (st : St) : St × Option Err :=
  if s.isTemp = false then
    (if view then { st with evs := st.evs ++ [.addTable s] } else st, none)
  else
    let d := sqlDrop st.phys s.key view true
    if d.2 = false then (st, fail)
    else
      let r := deleteTableSpec st.mem st.rows s.key
      ({ st with phys := d.1, mem := r.1, rows := r.2.1 }, if r.2.2 then none else fail)

/-- stmt_action.go:210-217. -/
def execCreateFunction (s : Catalog.Spec) (st : St) : St × Option Err :=
  let r := addNewFunctionSpec st.mem st.rows s st.now
  let st' := { st with mem := r.1, rows := r.2.1 }
  if r.2.2 = false then (st', fail)
  else ({ st' with fm := mapSet st.fm s.key s, evs := st.evs ++ [.addFn s] }, none)

/-- stmt_action.go:237-247. -/
def cleanupCreateFunction (s : Catalog.Spec) (st : St) : St × Option Err :=
  if s.isTemp = false then (st, none)
  else
    let r := deleteFunctionSpec st.mem st.rows s.key
    let st' := { st with mem := r.1, rows := r.2.1 }
    if r.2.2 = false then (st', fail)
    else ({ st' with fm := fun n => if n = s.key then none else st.fm n }, none)

/-- stmt_action.go:259-280, TABLE and VIEW.  A nil specification cannot be recorded here: a missing
name makes `DeleteTableSpec` fail first. -/
def execDrop (n : Name) (view ifExists : Bool) (st : St) : St × Option Err :=
  let d := sqlDrop st.phys n view ifExists
  if d.2 = false then (st, fail)
  else
    let r := deleteTableSpec st.mem st.rows n
    let st' := { st with phys := d.1, mem := r.1, rows := r.2.1 }
    match st.mem.tableMap n with
    | some s => if r.2.2 then ({ st' with evs := st.evs ++ [.delTable s] }, none) else (st', fail)
    | none => (st', fail)

/-- stmt_action.go:270-275, FUNCTION. -/
def execDropFunction (n : Name) (st : St) : St × Option Err :=
  let r := deleteFunctionSpec st.mem st.rows n
  let st' := { st with mem := r.1, rows := r.2.1 }
  if r.2.2 = false then (st', fail)
  else ({ st' with evs := st.evs ++ [.delFn (st.fm n)], fm := fun m => if m = n then none else st.fm m }, none)

/-- The action of a statement. -/
def Stmt.action : Stmt → Option (Action St)
  | .createTable s mode asSelect => some { exec := execCreate s false mode asSelect, cleanup := cleanupCreate s false }
  | .createView s mode => some { exec := execCreate s true mode false, cleanup := cleanupCreate s true }
  | .createFunction s => some { exec := execCreateFunction s, cleanup := cleanupCreateFunction s }
  | .dropTable n ie => some { exec := execDrop n false ie, cleanup := fun s => (s, none) }
  | .dropView n ie => some { exec := execDrop n true ie, cleanup := fun s => (s, none) }
  | .dropFunction n => some { exec := execDropFunction n, cleanup := fun s => (s, none) }
  | .other ok => some { exec := fun s => (s, if ok then none else fail), cleanup := fun s => (s, none) }
  | .rejected => none

/-- analyzer.go:202-227. -/
def Stmt.func (x : Stmt) : ActionFunc St := fun s =>
  match x.action with
  | some a => (s, .ok a)
  | none => (s, .error 1)

/-- `db.Exec(script)`. -/
def exec (script : List Stmt) (st : St) : St × List Err := execContext (script.map Stmt.func) st

/-- driver.go:145-164 `PrepareContext` for one statement: only the create actions run anything
(stmt_action.go:28-42, 130-144).  SQLite checks the CREATE against the existing objects when it
prepares it. -/
def prepare (x : Stmt) (st : St) : St × Option Err :=
  let prep (s : Catalog.Spec) (view : Bool) (mode : Mode) (asSelect : Bool) : St × Option Err :=
    let d := if mode = .orReplace then sqlDrop st.phys s.key view true else (st.phys, true)
    if d.2 = false then (st, fail)
    else
      let c := sqlCreate d.1 s.key view (mode = .ifNotExists && !asSelect)
      ({ st with phys := d.1 }, if c.2 then none else fail)
  match x with
  | .createTable s mode asSelect => prep s false mode asSelect
  | .createView s mode => prep s true mode false
  | .other ok => (st, if ok then none else fail)
  | .rejected => (st, some 1)
  | _ => (st, none)

end Verif.Engine
