/-!
# Constraints of tables
(internal/spec.go:129-157 TableSpec.SQLiteSchema, internal/spec.go:515-574 newTableSpec and newTableAsSelectSpec)

A table is created by CREATE TABLE with a list of columns or by CREATE TABLE … AS.  In both cases the analyzer reads NOT NULL and
PRIMARY KEY; they are written for SQLite in the first case only.

Simplified: a row is the list of its values, `none` is NULL; a statement is any partial function on the rows of the table (what it would
do without constraints).  SQLite is trusted: it refuses a statement after which a constraint would not hold, without an effect; a NULL
in a primary key is equal to nothing.  It may refuse more (C257), which a partial function covers.
-/

namespace Verif.Constraints

abbrev Row (V : Type) := List (Option V)

/-- The columns declared NOT NULL and those of the primary key. -/
structure Constraint where
  notNull : List Nat
  key : List Nat
  deriving DecidableEq

/-- TableSpec: what is declared, and the rows of the query of CREATE TABLE … AS. -/
structure Table (V : Type) where
  declared : Constraint
  query : Option (List (Row V))

section
variable {V : Type} [DecidableEq V]

/-- spec.go:129-157: `CREATE TABLE t AS …` has neither columns nor keys. -/
def written (t : Table V) : Constraint := if t.query.isSome then ⟨[], []⟩ else t.declared

/-- The values of some columns. -/
def pick (cols : List Nat) (r : Row V) : List (Option V) := cols.map fun i => (r[i]?).getD none

/-- The SQLite text `PRIMARY KEY (…)` over these rows (trusted); without columns there is no such text. -/
def uniqueKeys (key : List Nat) : List (Row V) → Bool
  | [] => true
  | r :: rs => (key.isEmpty || !(pick key r).all Option.isSome || rs.all fun x => decide (pick key x ≠ pick key r)) && uniqueKeys key rs

/-- What SQLite accepts (trusted). -/
def accepts (c : Constraint) (rows : List (Row V)) : Bool :=
  rows.all (fun r => (pick c.notNull r).all Option.isSome) && uniqueKeys c.key rows

/-- CREATE TABLE: the rows of the new table. -/
def create (t : Table V) : List (Row V) := t.query.getD []

/-- A statement that changes the table; one that fails has no effect. -/
def exec (c : Constraint) (rows : List (Row V)) (stmt : List (Row V) → Option (List (Row V))) : List (Row V) :=
  match stmt rows with
  | none => rows
  | some rows' => if accepts c rows' then rows' else rows

/-- The table after its creation and some statements. -/
def history (t : Table V) (stmts : List (List (Row V) → Option (List (Row V)))) : List (Row V) := stmts.foldl (exec (written t)) (create t)

end

end Verif.Constraints
