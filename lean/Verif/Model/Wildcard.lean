import Verif.Go.Strings
import Verif.Go.Sort

/-!
# Wildcard tables (internal/wildcard_table.go)

A table name that ends in `*` is turned into a UNION ALL over the tables whose name matches.  The name is compiled as a
regular expression; the model covers names of letters, digits, `_`, `-` and `.`, where the only special character is the
dot (`Plain`).  Characters stand for bytes: names are ASCII.  The SQL text of each branch is represented by what it
selects.  The iteration order of the table map is the order of the list; the sort makes it irrelevant except for tables
created at the same instant.
-/

namespace Verif.Wildcard

open Go

/-- What is used of a TableSpec, internal/spec.go:105-115. -/
structure Table where
  path : List (List Char)
  columns : List (List Char)
  createdAt : Int
  deriving DecidableEq

/-- TableSpec.TableName, internal/spec.go:126-128: also the key of the table map, catalog.go:155. -/
def tableName (t : Table) : List Char := join ['_'] t.path

/-- wildcard_table.go:57: the name the suffix is cut from. -/
def fullName (t : Table) : List Char := join ['.'] t.path

/-- A dot in a regular expression matches any character but a newline. -/
def charMatches (c d : Char) : Bool := if c = '.' then d ≠ '\n' else c = d

/-- The regular expression matches at the start of the text. -/
def matchesHere : List Char → List Char → Bool
  | [], _ => true
  | _ :: _, [] => false
  | c :: p, d :: s => charMatches c d && matchesHere p s

/-- regexp.MatchString: somewhere in the text. -/
def matchString (p : List Char) : List Char → Bool
  | [] => matchesHere p []
  | d :: s => matchesHere p (d :: s) || matchString p s

/-- WildcardTable, wildcard_table.go:28-32; `columns` are those of the generated spec without _TABLE_SUFFIX. -/
structure Wild where
  columns : List (List Char)
  tables : List Table
  pre : List Char

/-- isWildcardTable, wildcard_table.go:16-26 -/
def isWildcard (path : List (List Char)) : Bool :=
  match path.getLast? with
  | none => false
  | some l => l.getLast? = some '*'

/-- The matching tables, the newest first, wildcard_table.go:147-161. -/
def matched (S : Sorter) (tables : List Table) (name : List Char) : List Table :=
  S.sort (fun a b => decide (a.createdAt > b.createdAt)) (tables.filter fun t => matchString name (tableName t))

/-- createWildcardTable, wildcard_table.go:145-191.  The slice of the last name (175) panics if the name is shorter. -/
def create (S : Sorter) (tables : List Table) (path : List (List Char)) : Res Wild :=
  let name := trimRight (join ['_'] path) ['*']
  match matched S tables name with
  | [] => .err
  | spec :: _ =>
    match spec.path.head?, spec.path.getLast? with
    | some first, some last =>
      if path.length - 1 > last.length then .panic
      else .ok { columns := spec.columns, tables := matched S tables name,
                 pre := if (first ++ ['.']).isPrefixOf name then name else first ++ ['.'] ++ name }
    | _, _ => .panic

/-- One branch of the UNION ALL: the table read, its columns in order (`none` is `NULL as …`), the suffix. -/
structure Branch where
  table : Table
  columns : List (List Char × Bool)
  suffix : List Char
  deriving DecidableEq

/-- wildcard_table.go:14 -/
def suffixColumn : List Char := ['_', 'T', 'A', 'B', 'L', 'E', '_', 'S', 'U', 'F', 'F', 'I', 'X']

/-- The select list of a branch, wildcard_table.go:46-56. -/
def branchColumns (spec table : List (List Char)) : List (List Char × Bool) :=
  (spec.filter fun c => decide (c ≠ suffixColumn)).map fun c => (c, decide (c ∈ table))

/-- WildcardTable.FormatSQL, wildcard_table.go:43-77.  A column named _TABLE_SUFFIX is left out. -/
def branches (w : Wild) : List Table → Res (List Branch)
  | [] => .ok []
  | t :: ts =>
    if (fullName t).length ≤ w.pre.length then .err
    else (branches w ts).bind fun bs => .ok ({
      table := t
      columns := branchColumns w.columns t.columns
      suffix := (fullName t).drop w.pre.length } :: bs)

/-- The query of a FROM clause naming `path`, catalog.go:87-92 and formatter.go:614-620. -/
def query (S : Sorter) (tables : List Table) (path : List (List Char)) : Res (List Branch) :=
  (create S tables path).bind fun w => branches w w.tables

end Verif.Wildcard
