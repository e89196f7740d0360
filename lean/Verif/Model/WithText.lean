import Verif.Model.WildcardText

/-!
# The names of WITH (internal/formatter.go:1465-1507)

A WITH entry is written `<name> AS ( <subquery> )`, the name as it is.  The text up to the subquery is read back with the tokens of `Schema`.
SQLite is trusted to read it as its grammar says (parse.y: `with`, `wqitem`, `wqas`, `nm`); simplified: lists of columns after the name and
MATERIALIZED are errors here, as are the other ways to quote names, which the code does not write.
-/

namespace Verif.WithText

open Schema WildcardText

/-- The text from the WITH, or from the comma before, to the subquery: WithScanNode.FormatSQL, formatter.go:1488-1492, for the first entry, and
WithEntryNode.FormatSQL, formatter.go:1506. -/
def head (first : Bool) (name : List Char) : List Char :=
  (if first then ['W', 'I', 'T', 'H', ' '] else [',', ' ']) ++ name ++ [' ', 'A', 'S', ' ', '(']

/-- `nm AS (` (SQLite). -/
def readEntry : List T → Option (List Char)
  | [t, .word a, .lpar] => if upper a = ['A', 'S'] then aliasOf t else none
  | _ => none

/-- After WITH, the word RECURSIVE is no name (SQLite). -/
def skipRecursive : List T → List T
  | .word r :: ts => if upper r = ['R', 'E', 'C', 'U', 'R', 'S', 'I', 'V', 'E'] then ts else .word r :: ts
  | ts => ts

/-- The name of the entry whose subquery follows the text (SQLite). -/
def readHead (text : List Char) : Option (List Char) := match lex .idle text with
  | some (.word w :: ts) => if upper w = ['W', 'I', 'T', 'H'] then readEntry (skipRecursive ts) else none
  | some (.comma :: ts) => readEntry ts
  | _ => none

end Verif.WithText
