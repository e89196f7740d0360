import Verif.Go.Basic

/-!
# Model of `driver.go`

The driver loop is modelled over an arbitrary state `σ` (database plus catalog) and
arbitrary statement actions, so the theorems hold whatever the statements do.
-/

namespace Verif.Driver

/-- An error value; only its identity matters. -/
abbrev Err := Nat

/-- stmt_action.go:12-18 `StmtAction`: what executing (or querying) and cleaning up do to the
state, and the error returned.  Simplification: the contents of results are left out. -/
structure Action (σ : Type) where
  exec : σ → σ × Option Err
  cleanup : σ → σ × Option Err

/-- analyzer.go:185 `StmtActionFunc`: analysing one statement against the current state.  It may
fail, and may change the state (it consumes arguments, analyzer.go:223-225). -/
abbrev ActionFunc (σ : Type) := σ → σ × Except Err (Action σ)

/-- driver.go:185-196: the loop of `ExecContext` (and 219-230 of `QueryContext`).  Returns
the state, the actions created so far and the error that ended the loop. -/
def loop {σ : Type} : List (ActionFunc σ) → σ → List (Action σ) → σ × List (Action σ) × Option Err
  | [], s, acts => (s, acts, none)
  | f :: fs, s, acts =>
    match f s with
    | (s, .error e) => (s, acts, some e)
    | (s, .ok a) =>
      match a.exec s with
      | (s, some e) => (s, acts ++ [a], some e)
      | (s, none) => loop fs s (acts ++ [a])

/-- driver.go:176-178 and rows.go:48-50: clean up every action, collecting errors
(error.go:13-18). -/
def cleanups {σ : Type} : List (Action σ) → σ → σ × List Err
  | [], s => (s, [])
  | a :: as, s =>
    let r := a.cleanup s
    let rest := cleanups as r.1
    (rest.1, r.2.toList ++ rest.2)

/-- driver.go:166-198 `ExecContext` after analysis: the final state and the error group
(empty: success). -/
def execContext {σ : Type} (fs : List (ActionFunc σ)) (s : σ) : σ × List Err :=
  let r := loop fs s []
  let c := cleanups r.2.1 r.1
  (c.1, r.2.2.toList ++ c.2)

/-- What `QueryContext` hands to database/sql: rows that remember the actions, or an error. -/
inductive QueryResult (σ : Type) where
  | rows (actions : List (Action σ))
  | error (e : Err)

/-- driver.go:200-232 `QueryContext` after analysis. -/
def queryContext {σ : Type} (fs : List (ActionFunc σ)) (s : σ) : σ × QueryResult σ :=
  match loop fs s [] with
  | (s, acts, none) => (s, .rows acts)
  | (s, _, some e) => (s, .error e)

/-- rows.go:44-59 `Rows.Close`; `closeErr` is the error of closing the SQLite rows. -/
def closeRows {σ : Type} (acts : List (Action σ)) (closeErr : Option Err) (s : σ) : σ × List Err :=
  let c := cleanups acts s
  (c.1, closeErr.toList ++ c.2)

/-! ## Transactions of a connection -/

/-- driver.go:78-82: the transaction field of `ZetaSQLiteConn`, and the next transaction id. -/
structure Conn where
  tx : Option Nat
  next : Nat

def Conn.init : Conn := ⟨none, 0⟩

/-- Calls on a connection.  `ok` says whether the underlying call succeeded.
Simplification: database/sql calls `Commit`/`Rollback` of a driver transaction at most once, and
`BeginTx` of SQLite fails while a transaction is open. -/
inductive Call where
  | begin (ok : Bool)
  | commit (ok : Bool)
  | rollback (ok : Bool)
  | stmt

/-- driver.go:238-282; a statement runs on the handle `internal.NewConn(c.conn, c.tx)` selects
(driver.go:146, 167, 201; conn.go:57-76).  The output is the transaction a statement runs in. -/
def Conn.step (c : Conn) : Call → Conn × Option (Option Nat)
  | .begin ok =>
    if ok = true ∧ c.tx = none then ({ tx := some c.next, next := c.next + 1 }, none) else (c, none)
  | .commit _ => ({ c with tx := none }, none)
  | .rollback _ => ({ c with tx := none }, none)
  | .stmt => (c, some c.tx)

def Conn.run (c : Conn) (calls : List Call) : Conn := calls.foldl (fun c x => (c.step x).1) c

/-! ## One database per DSN -/

abbrev Dsn := Nat
abbrev Handle := Nat

/-- Where a goroutine is in `newDBAndCatalog` (driver.go:40-55). -/
inductive Pc where
  | start            -- before Lock (41)
  | check            -- lock held, before the map read (43)
  | opening          -- lock held, before sql.Open (47)
  | store (h : Handle)   -- lock held, before the map writes (52-53)
  | unlock (r : Option Handle)  -- lock held, about to return
  | done (r : Option Handle)
  deriving DecidableEq, Repr

structure Thread where
  dsn : Dsn
  pc : Pc

/-- The process-wide variables (driver.go:21-25).  `dbs` is `nameToDBMap`; `nameToCatalogMap` is written
together with it, so a handle stands for the pair. -/
structure Reg where
  dbs : Dsn → Option Handle
  lockedBy : Option Nat
  next : Handle
  threads : Nat → Thread

def Reg.set (r : Reg) (i : Nat) (pc : Pc) : Reg :=
  { r with threads := fun j => if j = i then { (r.threads i) with pc := pc } else r.threads j }

/-- One step of goroutine `i`; `ok` is whether `sql.Open` succeeds. -/
def Reg.step (r : Reg) (i : Nat) (ok : Bool) : Reg :=
  let t := r.threads i
  match t.pc with
  | .start => if r.lockedBy = none then { r with lockedBy := some i }.set i .check else r
  | .check =>
    match r.dbs t.dsn with
    | some h => r.set i (.unlock (some h))
    | none => r.set i .opening
  | .opening => if ok then { r with next := r.next + 1 }.set i (.store r.next) else r.set i (.unlock none)
  | .store h => { r with dbs := fun d => if d = t.dsn then some h else r.dbs d }.set i (.unlock (some h))
  | .unlock x => { r with lockedBy := none }.set i (.done x)
  | .done _ => r

/-- Goroutines `i` open the DSN `dsns i`; nothing has started. -/
def Reg.init (dsns : Nat → Dsn) : Reg :=
  { dbs := fun _ => none, lockedBy := none, next := 0, threads := fun i => ⟨dsns i, .start⟩ }

def Reg.run (r : Reg) (sched : List (Nat × Bool)) : Reg := sched.foldl (fun r x => r.step x.1 x.2) r

end Verif.Driver
