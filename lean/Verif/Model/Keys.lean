import Verif.Model.Result

/-!
# Primary keys and the options of INSERT
(internal/spec.go:130-157, internal/formatter.go:1552-1682)

A table with PRIMARY KEY is a SQLite table with the clause `PRIMARY KEY (…)`.  Which rows SQLite refuses is trusted: a statement looks at
one row after the other and fails, without an effect, at the first one that has the key of another row; a NULL is never equal to
anything.  INSERT OR IGNORE, OR REPLACE, OR UPDATE and ASSERT_ROWS_MODIFIED are accepted by the analyzer, and are not written into the text
for SQLite.

Simplified: a row of a table and its key are abstract; the columns of a table have the type `INT` and never `INTEGER`, so no primary key
is the row number of SQLite (spec.go:277-330).
-/

namespace Verif.Keys

section
variable {K R : Type} [DecidableEq K]

/-- Two keys are equal and have no NULL. -/
def conflict (a b : List (Option K)) : Bool := decide (a = b) && a.all Option.isSome

/-- `ast.InsertMode` -/
inductive Mode where
  | orError | orIgnore | orReplace | orUpdate
  deriving DecidableEq

/-- INSERT in SQLite (trusted): row by row. -/
def sqliteInsert (key : R → List (Option K)) (old : List R) : List R → Option (List R)
  | [] => some old
  | r :: rs => if old.any (fun x => conflict (key r) (key x)) then none else sqliteInsert key (old ++ [r]) rs

/-- formatter.go:1579-1616 InsertStmtNode.FormatSQL: the text is `INSERT INTO …`, whatever the mode. -/
def insert (_mode : Mode) (key : R → List (Option K)) (old new : List R) : Option (List R) := sqliteInsert key old new

/-- UPDATE in SQLite (trusted): the rows one after the other, with their keys before and after; `seen` are the new keys of the rows
before. -/
def sqliteUpdate (seen : List (List (Option K))) : List (List (Option K) × List (Option K)) → Option (List (List (Option K)))
  | [] => some seen
  | (_, n) :: rest =>
    if seen.any (conflict n) || (rest.map (·.1)).any (conflict n) then none else sqliteUpdate (seen ++ [n]) rest

/-- formatter.go:1656-1682 UpdateStmtNode.FormatSQL: one UPDATE. -/
def update (rows : List (List (Option K) × List (Option K))) : Option (List (List (Option K))) := sqliteUpdate [] rows
end

end Verif.Keys

namespace Verif.Query

/-- formatter.go:1560-1562, 1579-1682: a statement with ASSERT_ROWS_MODIFIED is written as without it. -/
def fmtAssert (d : Dml) (_assert : Option Nat) : Option DmlText := fmtDml d

/-- Exec of the statement. -/
def execAssert {V : Type} [DecidableEq V] (S : Sem V) (db : Db V) (n : Nat) (d : Dml) (assert : Option Nat) : Option (Db V) :=
  match fmtAssert d assert with
  | none => none
  | some t => evalDml S db n t

end Verif.Query
