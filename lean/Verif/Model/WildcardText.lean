import Verif.Model.Schema
import Verif.Model.Wildcard

/-!
# The text of a branch of a wildcard table (internal/wildcard_table.go:43-77)

`SELECT <list>, '<suffix>' as _TABLE_SUFFIX FROM `<table>``: the list of columns, which is followed by a comma, is read back with the tokens of
`Schema`.  SQLite is trusted to read it as its grammar says (parse.y: `selcollist`, `as`, `nm`).
-/

namespace Verif.WildcardText

open Schema

/-- An item of the list, wildcard_table.go:51-55: the column, or NULL under its name. -/
def item (c : List Char × Bool) : List Char := if c.2 then quote c.1 else ['N', 'U', 'L', 'L', ' ', 'a', 's', ' '] ++ c.1

/-- The list, wildcard_table.go:68. -/
def listText (cols : List (List Char × Bool)) : List Char := join (cols.map item)

/-- The words that are no names after AS: those of `Schema.keywords` but the ones that only begin expressions (trusted). -/
def reserved (w : List Char) : Prop := w ∈ keywords ∧ w ∉ [
  ['C', 'A', 'S', 'T'],
  ['R', 'A', 'I', 'S', 'E'],
  ['T', 'R', 'U', 'E'],
  ['F', 'A', 'L', 'S', 'E'],
  ['C', 'U', 'R', 'R', 'E', 'N', 'T', '_', 'D', 'A', 'T', 'E'],
  ['C', 'U', 'R', 'R', 'E', 'N', 'T', '_', 'T', 'I', 'M', 'E'],
  ['C', 'U', 'R', 'R', 'E', 'N', 'T', '_', 'T', 'I', 'M', 'E', 'S', 'T', 'A', 'M', 'P']]

instance (w : List Char) : Decidable (reserved w) := by unfold reserved; infer_instance

/-- A name after AS. -/
def aliasOf : T → Option (List Char)
  | .quoted s => some s
  | .word w => if reserved (upper w) then none else some w
  | _ => none

/-- An item: a column in quotes or NULL under a name; everything else is an error here. -/
def readItem : List T → Option (List Char × Bool)
  | [.quoted c] => some (c, true)
  | [.word a, .word b, t] => if upper a = ['N', 'U', 'L', 'L'] ∧ upper b = ['A', 'S'] then (aliasOf t).map fun n => (n, false) else none
  | _ => none

/-- All items, or an error. -/
def readItems : List (List T) → Option (List (List Char × Bool))
  | [] => some []
  | p :: ps => match readItem p, readItems ps with
    | some i, some is => some (i :: is)
    | _, _ => none

/-- What SQLite reads of the text of a list and the comma after it. -/
def readList (text : List Char) : Option (List (List Char × Bool)) := match lex .idle (text ++ [',']) with
  | none => none
  | some ts => readItems (pieces 0 [] ts).dropLast

end Verif.WildcardText
