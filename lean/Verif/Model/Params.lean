import Verif.Go.Basic

/-!
# Model of query parameters

analyzer.go:186-227, 688-747 (parameter modes, collection, matching with the passed values), encoder.go:20-36 and
592-601, formatter.go:200-205 and 253-307 (how they are written into the SQLite text), and the binding rules of SQLite
and its driver (go-sqlite3 1.14.16, trusted).  `V` is the type of values; their conversion (`EncodeGoValue`) is
`Verif.Model.Codec`'s matter.
-/

namespace Verif.Params
open Verif.Go

/-- A parameter name, lower case; `[]` for `?`. -/
abbrev Name := List Char

/-- `strings.ToLower`.  Simplification: ASCII. -/
def lower (n : Name) : Name := n.map Char.toLower

/-- `driver.NamedValue`; `name = []` for an unnamed argument. -/
structure Arg (V : Type) where
  name : Name
  value : V
  deriving DecidableEq

/-- The shape of an analysed expression as far as parameters are concerned.  Simplification: functions are binary; `app`
stands for every construct whose SQLite text contains the texts of its parts once each, in order; and the resolved
tree is walked in text order. -/
inductive Expr where
  | lit
  | param (n : Name)
  | app (a b : Expr)
  /-- IFNULL(a, b), whose text repeats `a` (formatter.go:254-260). -/
  | ifnull (a b : Expr)
  deriving DecidableEq

/-- The parameters in source order (`ast.Walk`). -/
def Expr.walk : Expr → List Name
  | .lit => []
  | .param n => [n]
  | .app a b => a.walk ++ b.walk
  | .ifnull a b => a.walk ++ b.walk

/-- formatter.go:200-205, 253-307: the parameters in the order of the SQLite text, each with the position in the source of
the parameter it comes from (`k` is the position of the first one). -/
def Expr.format : Expr → Nat → List (Nat × Name)
  | .lit, _ => []
  | .param n, k => [(k, n)]
  | .app a b, k => a.format k ++ b.format (k + a.walk.length)
  | .ifnull a b, k => a.format k ++ b.format (k + a.walk.length) ++ a.format k

/-- analyzer.go:688-709 `getParamsFromNode`: a named parameter once, a positional one each time. -/
def getParams (seen : List Name) : List Name → List Name
  | [] => []
  | n :: ns =>
    if n = [] then n :: getParams seen ns
    else if n ∈ seen then getParams seen ns
    else n :: getParams (n :: seen) ns

/-- `namedValuesMap[name]`: the last value passed under the name (analyzer.go:719-723). -/
def lastNamed {V} (values : List (Arg V)) (n : Name) : Option (Arg V) :=
  (values.filter fun a => lower a.name = n).getLast?

/-- analyzer.go:724-737: the value for the parameter at `idx`. -/
def pick {V} (values : List (Arg V)) (idx : Nat) (n : Name) : Option (Arg V) :=
  if n ≠ [] then
    match lastNamed values n with
    | some v => some v
    | none => values[idx]?
  else values[idx]?

/-- analyzer.go:724-747 and encoder.go:20-36, 592-601: the arguments handed to SQLite.  `none` would be an index out of range;
the length check rules it out (`getArgs_ok`). -/
def pickAll {V} (values : List (Arg V)) : Nat → List Name → Option (List (Arg V))
  | _, [] => some []
  | k, n :: ns =>
    match pick values k n, pickAll values (k + 1) ns with
    | some v, some vs => some ({ name := lower v.name, value := v.value } :: vs)
    | _, _ => none

/-- analyzer.go:711-747 `getArgsFromParams` (database/sql never passes a nil slice). -/
def getArgs {V} (values : List (Arg V)) (params : List Name) : Res (List (Arg V)) :=
  if values.length < params.length then .err
  else match pickAll values 0 params with
    | some l => .ok l
    | none => .panic

/-! ## SQLite -/

/-- SQLite's parameter table: `?` makes a new entry, `@n` one at its first occurrence. -/
def table (acc : List Name) : List Name → List Name
  | [] => acc
  | n :: ns => if n ≠ [] ∧ n ∈ acc then table acc ns else table (acc ++ [n]) ns

/-- The number (from 0) of each occurrence. -/
def numbers (acc : List Name) : List Name → List Nat
  | [] => []
  | n :: ns =>
    if n ≠ [] ∧ n ∈ acc then acc.idxOf n :: numbers acc ns
    else acc.length :: numbers (acc ++ [n]) ns

/-- go-sqlite3 `SQLiteStmt.bind`: a named argument goes to the parameter of that name (if any), an unnamed one to the
parameter with its ordinal; unbound parameters are NULL. -/
def bindOne {V} (tbl : List Name) (slots : Nat → Option V) (i : Nat) (a : Arg V) : Nat → Option V :=
  if a.name ≠ [] then
    (if a.name ∈ tbl then fun k => if k = tbl.idxOf a.name then some a.value else slots k else slots)
  else fun k => if k = i then some a.value else slots k

def bindAll {V} (tbl : List Name) : (Nat → Option V) → Nat → List (Arg V) → (Nat → Option V)
  | slots, _, [] => slots
  | slots, i, a :: as => bindAll tbl (bindOne tbl slots i a) (i + 1) as

/-- go-sqlite3 `query`/`exec` with one statement: fewer arguments than parameters is an error. The result is the value
each occurrence receives. -/
def sqlite {V} (occ : List Name) (args : List (Arg V)) : Res (List (Option V)) :=
  let tbl := table [] occ
  if args.length < tbl.length then .err
  else .ok ((numbers [] occ).map (bindAll tbl (fun _ => none) 0 args))

/-- analyzer.go:159-182 `getParameterMode`. -/
def positional (e : Expr) : Res Bool :=
  let pos := e.walk.any (· = [])
  let named := e.walk.any (· ≠ [])
  if pos && named then .err else .ok pos

/-- One statement: the value each parameter of the SQLite text receives. -/
def runStmt {V} (values : List (Arg V)) (e : Expr) : Res (List (Option V)) := do
  let args ← getArgs values (getParams [] e.walk)
  sqlite ((e.format 0).map Prod.snd) args

/-- A statement of a script; `isCreateTable`: CREATE TABLE [AS SELECT], the only action whose `Args()` is not nil
(stmt_action.go:103-105; 196-198, 233-235, 300-302, 346-348, 419-421, 441-443, 463-465, 500-502, 539-541 return nil). -/
structure Stmt where
  expr : Expr
  isCreateTable : Bool
  deriving DecidableEq

/-- analyzer.go:202-225: the statements of a script share `args`; a positional statement drops the arguments its action
reports. -/
def runScript {V} : List (Arg V) → List Stmt → Res (List (List (Option V)))
  | _, [] => .ok []
  | values, s :: ss => do
    let pos ← positional s.expr
    let r ← runStmt values s.expr
    let used := if s.isCreateTable then (getParams [] s.expr.walk).length else 0
    let rest ← runScript (if pos then values.drop used else values) ss
    pure (r :: rest)

end Verif.Params
