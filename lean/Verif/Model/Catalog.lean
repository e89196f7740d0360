import Verif.Go.Basic
import Verif.Model.NamePath

/-!
# Model of `internal/catalog.go` and of the change record in `internal/conn.go`

Names are those of `Verif.NamePath`.  A table, view or function specification is
reduced to what the catalog code looks at: its name path, whether it is temporary,
whether it is a view, and an opaque payload `body` (columns, query text,
function body, signature).
-/

namespace Verif.Catalog
open Verif.Go Verif.NamePath

/-- A formatted name (`a_b_c`). -/
abbrev Name := List Char

/-- spec.go:36-46 `FunctionSpec` and spec.go:105-115 `TableSpec`.  Simplification: one
structure for both; every field not inspected by the catalog code is in `body`. -/
structure Spec where
  path : Path
  isTemp : Bool
  isView : Bool
  body : Nat
  deriving Repr, DecidableEq

/-- spec.go:48-50 `FuncName`, spec.go:126-128 `TableName`. -/
def Spec.key (s : Spec) : Name := formatPath s.path

/-! ## The analyzer's catalog (`types.SimpleCatalog`) -/

/-- ASCII lower-casing: `SimpleCatalog` of ZetaSQL stores and looks names up in lower case. -/
def lowerChar (c : Char) : Char :=
  if 'A' ≤ c ∧ c ≤ 'Z' then Char.ofNat (c.toNat + 32) else c

def lower (n : Name) : Name := n.map lowerChar

/-- The tree of catalogs, flattened: position of a sub-catalog (path of names from the
root) and object name, both in lower case, to the registered specification. -/
abbrev Tree := Path × Name → Option Spec

def Tree.empty : Tree := fun _ => none

/-- `SimpleCatalog.FindTable/FindFunction` of ZetaSQL in the sub-catalog at `pos`. -/
def Tree.get (t : Tree) (pos : Path) (n : Name) : Option Spec := t (pos.map lower, lower n)

/-- `SimpleCatalog.AddTable/AddFunction` guarded by the existence test
(catalog.go:450-456, 473-480, 522-539): the first registration stays. -/
def Tree.addIfAbsent (t : Tree) (pos : Path) (n : Name) (s : Spec) : Tree :=
  match t.get pos n with
  | some _ => t
  | none => fun k => if k = (pos.map lower, lower n) then some s else t k

/-- Join with dots, catalog.go:449 `strings.Join(spec.NamePath, ".")`. -/
def joinDot : Path → Name
  | [] => []
  | [c] => c
  | c :: cs => c ++ '.' :: joinDot cs

/-- catalog.go:441-482 `addTableSpecRecursive`, for the sub-catalog at `pos`.
Simplification: converting the column types cannot fail. -/
def addTableRec (s : Spec) : Tree → Path → Path → Tree × Bool
  | t, _, [] => (t, false)
  | t, pos, [n] => (t.addIfAbsent pos n s, true)
  | t, pos, n :: m :: rest =>
    let t := t.addIfAbsent pos (joinDot (n :: m :: rest)) s
    match addTableRec s t pos (m :: rest) with
    | (t, false) => (t, false)
    | (t, true) => addTableRec s t (pos ++ [n]) (m :: rest)

/-- catalog.go:498-541 `addFunctionSpecRecursive` (no dotted alias).
Simplification: converting the signature cannot fail; a user function with the name of
a ZetaSQL builtin is treated like any other. -/
def addFunctionRec (s : Spec) : Tree → Path → Path → Tree × Bool
  | t, _, [] => (t, false)
  | t, pos, [n] => (t.addIfAbsent pos n s, true)
  | t, pos, n :: m :: rest =>
    match addFunctionRec s t pos (m :: rest) with
    | (t, false) => (t, false)
    | (t, true) => addFunctionRec s t (pos ++ [n]) (m :: rest)

/-- ZetaSQL's `FindTable(path)` / `FindFunction(path)` (called from catalog.go:87-92,
102-104): descend through the sub-catalogs named by all components but the last. -/
def Tree.find (t : Tree) (path : Path) : Option Spec :=
  match path.getLast? with
  | none => none
  | some n => t.get path.dropLast n

/-! ## The in-memory catalog -/

/-- catalog.go:57-66 `type Catalog struct` (the parts that hold specifications). -/
structure Mem where
  tables : List Spec
  functions : List Spec
  tableMap : Name → Option Spec
  funcMap : Name → Option Spec
  tableTree : Tree
  funcTree : Tree

/-- catalog.go:74-81 `NewCatalog`. -/
def Mem.empty : Mem :=
  { tables := [], functions := [], tableMap := fun _ => none, funcMap := fun _ => none,
    tableTree := Tree.empty, funcTree := Tree.empty }

/-- Go map assignment `m[k] = v`. -/
def mapSet (m : Name → Option Spec) (k : Name) (s : Spec) : Name → Option Spec :=
  fun n => if n = k then some s else m n

/-- catalog.go:427-439 `addTableSpec`. -/
def addTableSpec (m : Mem) (s : Spec) : Mem × Bool :=
  match m.tableMap s.key with
  | some _ => ({ m with tableMap := mapSet m.tableMap s.key s }, true)
  | none =>
    let r := addTableRec s m.tableTree [] s.path
    ({ m with
        tables := m.tables ++ [s]
        tableMap := mapSet m.tableMap s.key s
        tableTree := r.1 }, r.2)

/-- catalog.go:413-425 `addFunctionSpec`. -/
def addFunctionSpec (m : Mem) (s : Spec) : Mem × Bool :=
  match m.funcMap s.key with
  | some _ => ({ m with funcMap := mapSet m.funcMap s.key s }, true)
  | none =>
    let r := addFunctionRec s m.funcTree [] s.path
    ({ m with
        functions := m.functions ++ [s]
        funcMap := mapSet m.funcMap s.key s
        funcTree := r.1 }, r.2)

/-- A loop `for _, spec := range specs { if err := add(spec); err != nil { return err } }`. -/
def addAll (add : Mem → Spec → Mem × Bool) : Mem → List Spec → Mem × Bool
  | m, [] => (m, true)
  | m, s :: ss =>
    match add m s with
    | (m, false) => (m, false)
    | (m, true) => addAll add m ss

/-- catalog.go:314-331 `resetCatalog`. -/
def resetCatalog (tables functions : List Spec) : Mem × Bool :=
  match addAll addTableSpec Mem.empty tables with
  | (m, false) => (m, false)
  | (m, true) => addAll addFunctionSpec m functions

/-- catalog.go:276-293 `deleteTableSpecByName`. -/
def deleteTableSpecByName (m : Mem) (name : Name) : Mem × Bool :=
  match m.tableMap name with
  | none => (m, false)
  | some spec => resetCatalog (m.tables.filter fun t => spec.key ≠ t.key) m.functions

/-- catalog.go:295-312 `deleteFunctionSpecByName`. -/
def deleteFunctionSpecByName (m : Mem) (name : Name) : Mem × Bool :=
  match m.funcMap name with
  | none => (m, false)
  | some spec => resetCatalog m.tables (m.functions.filter fun f => spec.key ≠ f.key)

/-! ## The persistent table `zetasqlite_catalog` -/

/-- catalog.go:48-55 `CatalogSpecKind`. -/
inductive Kind where
  | table | view | function
  deriving Repr, DecidableEq

/-- A row of `zetasqlite_catalog` (catalog.go:17-25).  Simplifications: `createdAt` is
never read; JSON encoding of the spec is lossless on the fields of `Spec`; SQLite's
numeric affinity of the column type `STRING` (names such as `007`) is ignored.
`isFn` records whether the JSON text in the column `spec` is that of a function (its
name path is under the key `name`) or of a table (`namePath`), spec.go:36-46, 105-115. -/
structure Row where
  name : Name
  kind : Kind
  spec : Spec
  isFn : Bool
  updatedAt : Nat
  deriving Repr, DecidableEq

/-- catalog.go:26-42 `upsertCatalogQuery`: on conflict only `spec` and `updatedAt`
change; `kind` and the position (rowid) stay. -/
def upsert (rows : List Row) (r : Row) : List Row :=
  if rows.any (fun x => x.name = r.name) then
    rows.map fun x => if x.name = r.name then { x with spec := r.spec, isFn := r.isFn, updatedAt := r.updatedAt } else x
  else rows ++ [r]

/-- catalog.go:43-45 `deleteCatalogQuery`. -/
def deleteRow (rows : List Row) (name : Name) : List Row := rows.filter fun x => x.name ≠ name

/-- catalog.go:333-355 `saveTableSpec` at time `now`. -/
def saveTableSpec (rows : List Row) (s : Spec) (now : Nat) : List Row :=
  upsert rows { name := s.key, kind := if s.isView then .view else .table, spec := s, isFn := false, updatedAt := now }

/-- catalog.go:357-375 `saveFunctionSpec` at time `now`. -/
def saveFunctionSpec (rows : List Row) (s : Spec) (now : Nat) : List Row :=
  upsert rows { name := s.key, kind := .function, spec := s, isFn := true, updatedAt := now }

/-- The specification read back from a row: decoding the JSON of a function as a table
(or the reverse) finds no name path (catalog.go:384-404). -/
def Row.decode (r : Row) (asFn : Bool) : Spec :=
  if r.isFn = asFn then r.spec else { r.spec with path := [], isView := false }

/-- catalog.go:203-214: load one row into memory. -/
def loadRow (m : Mem) (r : Row) : Mem × Bool :=
  match r.kind with
  | .table | .view => addTableSpec m (r.decode false)
  | .function => addFunctionSpec m (r.decode true)

/-- The loop of catalog.go:194-215. -/
def loadRows : Mem → List Row → Mem × Bool
  | m, [] => (m, true)
  | m, r :: rs =>
    match loadRow m r with
    | (m, false) => (m, false)
    | (m, true) => loadRows m rs

/-- A process: its in-memory catalog and `lastSyncedAt` (catalog.go:57-66). -/
structure Proc where
  mem : Mem
  lastSyncedAt : Nat

/-- A process that has just opened the database (`lastSyncedAt` is the zero time). -/
def Proc.fresh : Proc := { mem := Mem.empty, lastSyncedAt := 0 }

/-- catalog.go:174-218 `Sync` at time `now`, reading the rows visible at that moment.
Simplification: the SQLite statements themselves succeed. -/
def sync (p : Proc) (rows : List Row) (now : Nat) : Proc × Bool :=
  match loadRows p.mem (rows.filter fun r => p.lastSyncedAt ≤ r.updatedAt) with
  | (m, true) => ({ mem := m, lastSyncedAt := now }, true)
  | (m, false) => ({ p with mem := m }, false)

/-- catalog.go:220-233 `AddNewTableSpec`. -/
def addNewTableSpec (m : Mem) (rows : List Row) (s : Spec) (now : Nat) : Mem × List Row × Bool :=
  match addTableSpec m s with
  | (m, false) => (m, rows, false)
  | (m, true) => (m, if s.isTemp then rows else saveTableSpec rows s now, true)

/-- catalog.go:235-248 `AddNewFunctionSpec`. -/
def addNewFunctionSpec (m : Mem) (rows : List Row) (s : Spec) (now : Nat) : Mem × List Row × Bool :=
  match addFunctionSpec m s with
  | (m, false) => (m, rows, false)
  | (m, true) => (m, if s.isTemp then rows else saveFunctionSpec rows s now, true)

/-- catalog.go:250-261 `DeleteTableSpec`. -/
def deleteTableSpec (m : Mem) (rows : List Row) (name : Name) : Mem × List Row × Bool :=
  match deleteTableSpecByName m name with
  | (m, false) => (m, rows, false)
  | (m, true) => (m, deleteRow rows name, true)

/-- catalog.go:263-274 `DeleteFunctionSpec`. -/
def deleteFunctionSpec (m : Mem) (rows : List Row) (name : Name) : Mem × List Row × Bool :=
  match deleteFunctionSpecByName m name with
  | (m, false) => (m, rows, false)
  | (m, true) => (m, deleteRow rows name, true)

/-- `strings.Contains(s, sub)`. -/
def containsSub : List Char → List Char → Bool
  | [], sub => sub.isEmpty
  | c :: cs, sub => sub.isPrefixOf (c :: cs) || containsSub cs sub

/-- catalog.go:154-172 `getFunctions`. -/
def getFunctions (m : Mem) (base : Path) : List Spec :=
  if base.isEmpty then m.functions
  else m.functions.filter fun f =>
    if f.path.length = 1 then true
    else containsSub (formatPath f.path.dropLast) (formatPath base)

/-- analyzer.go:195-198: the function map a query is formatted with (later entries of the
list overwrite earlier ones). -/
def queryFuncMap (m : Mem) (base : Path) : Name → Option Spec :=
  (getFunctions m base).foldl (fun fm f => mapSet fm f.key f) (fun _ => none)

/-! ## The change record of a call (`ChangedCatalog`) -/

/-- conn.go:8-41.  `Updated` is never written (`updateTable` is unused).  Function
entries are pointers that may be nil (stmt_action.go:274). -/
structure Changed where
  tAdded : List Spec
  tUpdated : List Spec
  tDeleted : List Spec
  fAdded : List (Option Spec)
  fDeleted : List (Option Spec)
  deriving DecidableEq

/-- conn.go:13-18 `newChangedCatalog`. -/
def Changed.new : Changed := ⟨[], [], [], [], []⟩

/-- conn.go:20-22, 30-32, 39-41 `Changed()`. -/
def Changed.changed (c : Changed) : Bool :=
  (c.tAdded.length ≠ 0 ∨ c.tUpdated.length ≠ 0 ∨ c.tDeleted.length ≠ 0) ∨
    (c.fAdded.length ≠ 0 ∨ c.fDeleted.length ≠ 0)

/-- conn.go:103-123: the loop that keeps the tables with another name. -/
def removeTable (l : List Spec) (s : Spec) : List Spec := l.filter fun t => t.key ≠ s.key

/-- conn.go:125-145: the same for functions; calling `FuncName` on a nil pointer panics. -/
def removeFn : List (Option Spec) → Option Spec → Res (List (Option Spec))
  | [], _ => .ok []
  | none :: _, _ => .panic
  | some _ :: _, none => .panic
  | some f :: fs, some s =>
    (removeFn fs (some s)).bind fun fs' => .ok (if f.key = s.key then fs' else some f :: fs')

/-- Changes recorded on a connection. -/
inductive Ev where
  | addTable (s : Spec)
  | delTable (s : Spec)
  | addFn (s : Spec)
  | delFn (s : Option Spec)

/-- conn.go:78-101 `addTable`, `deleteTable`, `addFunction`, `deleteFunction`. -/
def Changed.step (c : Changed) : Ev → Res Changed
  | .addTable s => .ok { c with tDeleted := removeTable c.tDeleted s, tAdded := c.tAdded ++ [s] }
  | .delTable s => .ok { c with tAdded := removeTable c.tAdded s, tDeleted := c.tDeleted ++ [s] }
  | .addFn s => (removeFn c.fDeleted (some s)).bind fun d => .ok { c with fDeleted := d, fAdded := c.fAdded ++ [some s] }
  | .delFn s => (removeFn c.fAdded s).bind fun a => .ok { c with fAdded := a, fDeleted := c.fDeleted ++ [s] }

/-- A history of changes on one connection. -/
def Changed.run : Changed → List Ev → Res Changed
  | c, [] => .ok c
  | c, e :: es => (c.step e).bind fun c' => c'.run es

/-! ## Histories of catalog statements -/

/-- The catalog effect of a statement (stmt_action.go): CREATE TABLE/VIEW (80, 159), CREATE
FUNCTION (211), DROP TABLE/VIEW (266), DROP FUNCTION (271), and the `Sync` that
starts every call (analyzer.go:188).  All on one process. -/
inductive Op where
  | createTable (s : Spec)
  | createFunction (s : Spec)
  | dropTable (n : Name)
  | dropFunction (n : Name)
  | sync

/-- A process and the shared database. -/
structure World where
  proc : Proc
  rows : List Row
  clock : Nat

def World.init : World := { proc := Proc.fresh, rows := [], clock := 0 }

/-- One statement, executed when `dt` clock ticks have passed since the previous one. -/
def World.step (w : World) (dt : Nat) (op : Op) : World × Bool :=
  let now := w.clock + dt
  match op with
  | .createTable s =>
    let r := addNewTableSpec w.proc.mem w.rows s now
    ({ proc := { w.proc with mem := r.1 }, rows := r.2.1, clock := now }, r.2.2)
  | .createFunction s =>
    let r := addNewFunctionSpec w.proc.mem w.rows s now
    ({ proc := { w.proc with mem := r.1 }, rows := r.2.1, clock := now }, r.2.2)
  | .dropTable n =>
    let r := deleteTableSpec w.proc.mem w.rows n
    ({ proc := { w.proc with mem := r.1 }, rows := r.2.1, clock := now }, r.2.2)
  | .dropFunction n =>
    let r := deleteFunctionSpec w.proc.mem w.rows n
    ({ proc := { w.proc with mem := r.1 }, rows := r.2.1, clock := now }, r.2.2)
  | .sync =>
    let r := Catalog.sync w.proc w.rows now
    ({ proc := r.1, rows := w.rows, clock := now }, r.2)

/-- A history of statements with the time between them. -/
def World.run (w : World) (ops : List (Nat × Op)) : World :=
  ops.foldl (fun w o => (w.step o.1 o.2).1) w

/-- Two processes on one database file: one runs catalog statements, the other only
synchronises. -/
structure World2 where
  main : World
  other : Proc

inductive Op2 where
  | main (op : Op)
  | otherSync

def World2.init : World2 := { main := World.init, other := Proc.fresh }

def World2.step (w : World2) (dt : Nat) : Op2 → World2
  | .main op => { w with main := (w.main.step dt op).1 }
  | .otherSync =>
    { main := { w.main with clock := w.main.clock + dt },
      other := (Catalog.sync w.other w.main.rows (w.main.clock + dt)).1 }

def World2.run (w : World2) (ops : List (Nat × Op2)) : World2 :=
  ops.foldl (fun w o => w.step o.1 o.2) w

/-- driver.go:277-282 `Tx.Rollback`: SQLite restores the rows that existed when the transaction
began; nothing touches the in-memory catalog. -/
def World.rollback (before now : World) : World := { now with rows := before.rows }

end Verif.Catalog

