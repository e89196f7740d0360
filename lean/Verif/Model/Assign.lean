import Verif.Go.Basic

/-!
# DEFAULT in INSERT and UPDATE, and SET of fields of structs

internal/formatter.go:1545-1684.  Columns are positions, expressions stand for themselves (`Model/Dml` evaluates them); what
SQLite does with the rows and assignments it reads is in `Model/Dml` and `Model/Keys`.
-/

namespace Verif.Assign

section
variable {V : Type} [DecidableEq V]

/-! ## The text -/

/-- Tokens of the text of a statement, as far as they matter here. -/
inductive Tok (V : Type) where
  | comma | eq | open_ | close_ | where_
  | expr (v : V)
  | name (c : Nat)
  /-- zetasqlite_get_struct_field(`c`, i) -/
  | call (c i : Nat)
deriving DecidableEq

/-- DMLValueNode (formatter.go:1545-1550) and DMLDefaultNode (1552-1554): DEFAULT is the empty text. -/
def fmtValue : Option V → List (Tok V)
  | some v => [.expr v]
  | none => []

/-- strings.Join(…, ",") -/
def join : List (List (Tok V)) → List (Tok V)
  | [] => []
  | [x] => x
  | x :: xs => x ++ .comma :: join xs

/-- InsertRowNode (formatter.go:1564-1577), with the parentheses of line 1608. -/
def fmtRow (vs : List (Option V)) : List (Tok V) := .open_ :: join (vs.map fmtValue) ++ [.close_]

/-- InsertStmtNode, formatter.go:1602-1615: what follows VALUES. -/
def fmtInsert (rows : List (List (Option V))) : List (Tok V) := join (rows.map fmtRow)

/-- The target of an item of SET: a column or a field of a column. -/
inductive Target where
  | col (c : Nat)
  | field (c i : Nat)
deriving DecidableEq, Repr

/-- ColumnRefNode and GetStructFieldNode, formatter.go:501-511. -/
def fmtTarget : Target → Tok V
  | .col c => .name c
  | .field c i => .call c i

/-- UpdateItemNode, formatter.go:1637-1650. -/
def fmtSet (x : Target × Option V) : List (Tok V) := fmtTarget x.1 :: .eq :: fmtValue x.2

/-- UpdateStmtNode, formatter.go:1678-1684: what follows SET, up to WHERE. -/
def fmtUpdate (sets : List (Target × Option V)) : List (Tok V) := join (sets.map fmtSet) ++ [.where_]

/-! ## What SQLite does with the text (trusted) -/

/-- Grammar of SQLite: `nexprlist ::= expr | nexprlist COMMA expr`, up to the closing parenthesis. -/
def parseExprs : List (Tok V) → Option (List V × List (Tok V))
  | .expr v :: .close_ :: ts => some ([v], ts)
  | .expr v :: .comma :: ts => match parseExprs ts with
    | some (vs, ts') => some (v :: vs, ts')
    | none => none
  | _ => none

/-- The rows of VALUES; the number bounds the rows read. -/
def parseRows : Nat → List (Tok V) → Option (List (List V))
  | n + 1, .open_ :: ts => match parseExprs ts with
    | some (vs, []) => some [vs]
    | some (vs, .comma :: ts') => (parseRows n ts').map (vs :: ·)
    | _ => none
  | _, _ => none

/-- `setlist ::= nm EQ expr | setlist COMMA nm EQ expr`, up to WHERE. -/
def parseSets : List (Tok V) → Option (List (Nat × V))
  | [.name c, .eq, .expr v, .where_] => some [(c, v)]
  | .name c :: .eq :: .expr v :: .comma :: ts => (parseSets ts).map ((c, v) :: ·)
  | _ => none

/-- The rows that INSERT … VALUES inserts; none if SQLite refuses the text. -/
def inserts (rows : List (List (Option V))) : Option (List (List V)) := parseRows rows.length (fmtInsert rows)

/-- The columns and values that UPDATE sets; none if SQLite refuses the text. -/
def updates (sets : List (Target × Option V)) : Option (List (Nat × V)) := parseSets (fmtUpdate sets)

end

end Verif.Assign
