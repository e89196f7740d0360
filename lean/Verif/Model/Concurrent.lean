import Verif.Model.Engine

/-!
# Calls on several connections of one data source (driver.go, internal/catalog.go, internal/stmt_action.go)

driver.go:40-76: the connections of a data source name share one `Catalog`.  The model is a set of calls, each a program
of atomic operations, interleaved by a schedule.  An operation is one SQLite statement or one method of `Catalog` that
holds its mutex (catalog.go:175, 221, 236, 251, 264).  The lookups of the analyzer (catalog.go:87-104, 154) do not take
the mutex: they can also run while another connection is inside `resetCatalog` (event `peek`).

Simplifications: all connections reach the same SQLite database (a file; with `:memory:` each has its own) and an SQLite
statement never fails because the database is locked; no transactions; the change record and the function map of a call
(one per call) are left out; between two calls of `addTableSpec` or `addFunctionSpec` inside `resetCatalog` a lookup
sees what is registered so far.
-/

namespace Verif.Concurrent
open Verif.Catalog Verif.Driver Verif.Engine

/-- What the connections share: the catalog with its rows, and the SQLite objects. -/
structure Shared where
  world : World
  phys : Name → Option Bool

/-- The atomic operations of a call. -/
inductive Op where
  /-- `Sync`, `AddNewTableSpec`, `AddNewFunctionSpec`, `DeleteTableSpec`, `DeleteFunctionSpec` (catalog.go:174-274). -/
  | cat (o : Catalog.Op)
  /-- SQLite DROP TABLE|VIEW. -/
  | drop (n : Name) (view ifExists : Bool)
  /-- SQLite CREATE TABLE|VIEW. -/
  | create (n : Name) (view ifNotExists : Bool)
  /-- The analyzer finds a table, or a function (catalog.go:87-104). -/
  | look (fn : Bool) (p : NamePath.Path)
  /-- SQLite reads a table. -/
  | read (n : Name)

/-- What an operation tells the call. -/
structure Out where
  ok : Bool
  found : Option Catalog.Spec

/-- The tree a lookup uses (catalog.go:87-104). -/
def findIn (m : Mem) (fn : Bool) (p : NamePath.Path) : Out :=
  let r := if fn then m.funcTree.find p else m.tableTree.find p
  ⟨r.isSome, r⟩

/-- One operation, `dt` clock ticks after the one before. -/
def Op.run (dt : Nat) (sh : Shared) : Op → Shared × Out
  | .cat o => let r := sh.world.step dt o; ({ sh with world := r.1 }, ⟨r.2, none⟩)
  | .drop n view ie => let r := sqlDrop sh.phys n view ie; ({ sh with phys := r.1 }, ⟨r.2, none⟩)
  | .create n view ine => let r := sqlCreate sh.phys n view ine; ({ sh with phys := r.1 }, ⟨r.2, none⟩)
  | .look fn p => (sh, findIn sh.world.proc.mem fn p)
  | .read n => (sh, ⟨(sh.phys n).isSome, none⟩)

/-- A call: it has returned, or it does an operation and goes on with what that says. -/
inductive Prog (α : Type) where
  | ret (a : α)
  | op (o : Op) (k : Out → Prog α)

/-- Operations one after the other, until one fails. -/
def runOps {α : Type} : List Op → (Bool → Prog α) → Prog α
  | [], k => k true
  | o :: os, k => .op o fun r => if r.ok then runOps os k else k false

/-- stmt_action.go:63-87, 146-163, 210-217, 259-280: what a statement does when it is executed. -/
def ops : Engine.Stmt → List Op
  | .createTable s mode asSelect =>
    (if mode = .orReplace then [.drop s.key false true] else []) ++
      [.create s.key false (mode = .ifNotExists && !asSelect), .cat (.createTable s)]
  | .createView s mode =>
    (if mode = .orReplace then [.drop s.key true true] else []) ++
      [.create s.key true (mode = .ifNotExists), .cat (.createTable s)]
  | .createFunction s => [.cat (.createFunction s)]
  | .dropTable n ie => [.drop n false ie, .cat (.dropTable n)]
  | .dropView n ie => [.drop n true ie, .cat (.dropTable n)]
  | .dropFunction n => [.cat (.dropFunction n)]
  | .other _ => []
  | .rejected => []

/-- stmt_action.go:107-122, 179-194, 237-247: what a statement does when the call ends. -/
def cleanupOps : Engine.Stmt → List Op
  | .createTable s _ _ => if s.isTemp then [.drop s.key false true, .cat (.dropTable s.key)] else []
  | .createView s _ => if s.isTemp then [.drop s.key true true, .cat (.dropTable s.key)] else []
  | .createFunction s => if s.isTemp then [.cat (.dropFunction s.key)] else []
  | _ => []

/-- A statement of a call: one of `Verif.Engine`, or a query that names a table or a function. -/
inductive Stmt where
  | ddl (x : Engine.Stmt)
  | query (fn : Bool) (p : NamePath.Path)

/-- What a call returns: the errors, and the definitions its queries used. -/
structure Result where
  errs : List Err
  seen : List Catalog.Spec
  deriving DecidableEq

/-- driver.go:176-178: the cleanups. -/
def cleanupProg : List Engine.Stmt → Result → Prog Result
  | [], res => .ret res
  | x :: xs, res => runOps (cleanupOps x) fun ok => cleanupProg xs { res with errs := res.errs ++ if ok then [] else [1] }

/-- driver.go:185-196: the statements in order.  `started` are the statements with an action. -/
def bodyProg : List Stmt → List Engine.Stmt → List Catalog.Spec → Prog Result
  | [], started, seen => cleanupProg started ⟨[], seen⟩
  | .ddl x :: xs, started, seen =>
    match x with
    | .rejected => cleanupProg started ⟨[1], seen⟩
    | .other false => cleanupProg (started ++ [x]) ⟨[1], seen⟩
    | x => runOps (ops x) fun ok => if ok then bodyProg xs (started ++ [x]) seen else cleanupProg (started ++ [x]) ⟨[1], seen⟩
  | .query fn p :: xs, started, seen => .op (.look fn p) fun r =>
    match r.found with
    | none => cleanupProg started ⟨[1], seen⟩
    | some s =>
      if fn then bodyProg xs started (seen ++ [s])
      else .op (.read s.key) fun r => if r.ok then bodyProg xs started (seen ++ [s]) else cleanupProg started ⟨[1], seen⟩

/-- driver.go:166-198 and analyzer.go:187-190: `db.Exec(script)`. -/
def callProg (script : List Stmt) : Prog Result :=
  .op (.cat .sync) fun r => if r.ok then bodyProg script [] [] else .ret ⟨[1], []⟩

/-- A call with no other call running. -/
def runAlone {α : Type} : Prog α → Shared → Shared × α
  | .ret a, sh => (sh, a)
  | .op o k, sh => runAlone (k (o.run 0 sh).2) (o.run 0 sh).1

/-- One operation of a call that runs alone. -/
def stepAlone {α : Type} : Shared × Prog α → Shared × Prog α
  | (sh, .ret a) => (sh, .ret a)
  | (sh, .op o k) => ((o.run 0 sh).1, k (o.run 0 sh).2)

/-- The first `n` operations of a call that runs alone. -/
def aloneN {α : Type} : Nat → Shared × Prog α → Shared × Prog α
  | 0, c => c
  | n + 1, c => aloneN n (stepAlone c)

/-- catalog.go:314-331: the catalogs a lookup can see while `resetCatalog` is running. -/
def resetMems (ts fs : List Catalog.Spec) : List Mem :=
  (List.range (ts.length + 1)).map (fun j => (resetCatalog (ts.take j) []).1) ++
    (List.range (fs.length + 1)).map (fun j => (resetCatalog ts (fs.take j)).1)

/-- The catalogs a lookup can see while a method of the catalog is running (catalog.go:276-312). -/
def midMems (m : Mem) : Catalog.Op → List Mem
  | .dropTable n => match m.tableMap n with
    | none => []
    | some s => resetMems (m.tables.filter fun t => s.key ≠ t.key) m.functions
  | .dropFunction n => match m.funcMap n with
    | none => []
    | some s => resetMems m.tables (m.functions.filter fun f => s.key ≠ f.key)
  | _ => []

/-- The calls of all connections. -/
structure Conf (α : Type) where
  sh : Shared
  thr : Nat → Prog α

/-- What the scheduler does. -/
inductive Event where
  /-- Call `i` does its next operation. -/
  | run (i dt : Nat)
  /-- Call `i` does its lookup while the deletion call `j` is about to complete has rebuilt `m` entries. -/
  | peek (i j m : Nat)

def update {α : Type} (thr : Nat → Prog α) (i : Nat) (p : Prog α) : Nat → Prog α := fun j => if j = i then p else thr j

/-- A lookup during a deletion. -/
def peekAt {α : Type} (c : Conf α) (i j m : Nat) : Conf α :=
  match c.thr i, c.thr j with
  | .op (.look fn p) k, .op (.cat o) _ => match (midMems c.sh.world.proc.mem o)[m]? with
    | some mem => { c with thr := update c.thr i (k (findIn mem fn p)) }
    | none => c
  | _, _ => c

def Conf.step {α : Type} (c : Conf α) : Event → Conf α
  | .run i dt => match c.thr i with
    | .ret _ => c
    | .op o k => { sh := (o.run dt c.sh).1, thr := update c.thr i (k (o.run dt c.sh).2) }
  | .peek i j m => peekAt c i j m

def Conf.run {α : Type} (c : Conf α) (es : List Event) : Conf α := es.foldl Conf.step c

end Verif.Concurrent
