import Verif.Model.Catalog

/-!
# The table that TRUNCATE and MERGE change
(internal/analyzer.go:545-548, 628-683, internal/catalog.go:441-496, internal/formatter.go:23-35)

INSERT, UPDATE, DELETE and queries use the path that is written in the statement, completed by the name path of the connection
(`getTableName`).  TRUNCATE and the statements of MERGE use the name of the table object the analyzer has found.

Simplified: views are left out; the tables of SQLite are found by their names in lower case.
-/

namespace Verif.Catalog

open Verif.Go Verif.NamePath

/-- catalog.go:441-482: the names below which the table of a specification is registered, in the sub-catalogs at all positions: all
ends of its path, joined with dots. -/
def regNames : Path → List Name
  | [] => []
  | n :: rest => joinDot (n :: rest) :: regNames rest

/-- `Table().Name()` of the table that ZetaSQL finds for a path (catalog.go:484-496): the name it was registered with, which is the last
component of the path except for upper and lower case. -/
def tableName (t : Tree) (p : Path) : Option Name :=
  match t.find p, p.getLast? with
  | some s, some n => (regNames s.path).find? fun x => lower x == lower n
  | _, _ => none

section
variable {R : Type}

/-- "DELETE FROM `n`" in SQLite; none if there is no such table. -/
def deleteAll (db : Name → Option (List R)) (n : Name) : Option (Name → Option (List R)) :=
  match db (lower n) with
  | none => none
  | some _ => some fun m => if m = lower n then some [] else db m

/-- analyzer.go:545-548 newTruncateStmtAction and stmt_action.go:479-484: `TRUNCATE TABLE p`. -/
def truncate (t : Tree) (db : Name → Option (List R)) (p : Path) : Option (Name → Option (List R)) :=
  match tableName t p with
  | none => none
  | some n => deleteAll db n
end

/-- analyzer.go:652-680: the table of the statements of `MERGE p`, `targetColumn.TableName()`, if the columns are not swapped
(`Merge.swapped`): a column has the name of its table object. -/
def mergeTarget (t : Tree) (p : Path) : Option Name := tableName t p

end Verif.Catalog
