import Verif.Go.Basic

/-!
# Several connections of one name (driver.go:40-98)

`sql.Open("zetasqlite", name)` makes a pool of connections.  All of them share one catalog and one `*sql.DB` of SQLite (driver.go:40-57),
of which each takes a connection of its own (driver.go:83-98).  What those connections open is up to SQLite: one database if the name is
that of a file, one database each if it is `:memory:` (or empty).

Simplified: columns, views and functions are left out, a table is a list of rows, and there are no transactions.  `Catalog.Sync`
(catalog.go:174-218) finds nothing new: every change is made to the shared maps at once.  (Nor does it bring a table
back that two connections have made and one has dropped: the DROP TABLE begins with a `Sync`, after which the other CREATE TABLE is too old.)
-/

namespace Verif.Memory

open Go

/-- What SQLite opens for the name (trusted). -/
inductive Store where
  | file
  | memory
  deriving DecidableEq

/-- A statement about the table of a name. -/
inductive Call (N V : Type) where
  | create (n : N)
  | insert (n : N) (v : V)
  | select (n : N)
  | drop (n : N)

/-- The name in a statement. -/
def Call.name {N V} : Call N V → N
  | .create n | .insert n _ | .select n | .drop n => n

section
variable {N V : Type} [DecidableEq N]

/-- The shared catalog and the tables that each connection finds in SQLite. -/
structure St (N V : Type) where
  cat : N → Bool
  db : Nat → N → Option (List V)

/-- The database a connection works on. -/
def Store.at : Store → Nat → Nat
  | .file, _ => 0
  | .memory, c => c

/-- Changes the table of a name in one database. -/
def put (db : Nat → N → Option (List V)) (c : Nat) (n : N) (t : Option (List V)) : Nat → N → Option (List V) :=
  fun d m => if d = c ∧ m = n then t else db d m

/-- A call of connection `c`.  CREATE TABLE: stmt_action.go:63-87, the table in SQLite and then the specification.  INSERT and SELECT: the
analyzer looks the name up in the catalog, then SQLite must have the table (stmt_action.go:341-347, 386-391).  DROP TABLE:
stmt_action.go:259-269, the table in SQLite and then the specification, which must exist. -/
def step (s : Store) (c : Nat) (st : St N V) : Call N V → St N V × Res (List V)
  | .create n => match st.db (s.at c) n with
    | some _ => (st, .err)
    | none => ({ cat := fun m => if m = n then true else st.cat m, db := put st.db (s.at c) n (some []) }, .ok [])
  | .insert n v =>
    if st.cat n then match st.db (s.at c) n with
      | none => (st, .err)
      | some t => ({ st with db := put st.db (s.at c) n (some (t ++ [v])) }, .ok [])
    else (st, .err)
  | .select n =>
    if st.cat n then match st.db (s.at c) n with
      | none => (st, .err)
      | some t => (st, .ok t)
    else (st, .err)
  | .drop n => match st.db (s.at c) n with
    | none => (st, .err)
    | some _ =>
      if st.cat n then ({ cat := fun m => if m = n then false else st.cat m, db := put st.db (s.at c) n none }, .ok [])
      else ({ st with db := put st.db (s.at c) n none }, .err)

/-- What the calls of a history return. -/
def run (s : Store) : St N V → List (Nat × Call N V) → List (Res (List V))
  | _, [] => []
  | st, (c, x) :: h => (step s c st x).2 :: run s (step s c st x).1 h

/-- No tables. -/
def St.empty : St N V := { cat := fun _ => false, db := fun _ _ => none }

end

end Verif.Memory
