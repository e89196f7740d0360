import Verif.Model.Codec

/-!
# CREATE TABLE and CREATE INDEX texts (internal/spec.go, internal/stmt_action.go)

`tableText` is the statement by which a table is created in SQLite, `indexText` the one by which auto index mode creates an
index.  `lex`, `readTable` and `readIndex` are SQLite (trusted): its tokens and its grammar, as far as these statements go.
Simplified: a text with comments or with the other ways to quote names is an error here.
-/

namespace Verif.Schema

open Go

/-! ## The code -/

/-- The kinds of types (types.TypeKind of the analyser). -/
inductive Kind where
  | int32 | int64 | uint32 | uint64 | bool | float | double | string | bytes | date | enum | array | struct | proto
  | timestamp | time | datetime | geography | numeric | bignumeric | extended | json | interval | other
  deriving DecidableEq, Repr

/-- ColumnSpec, spec.go:172-176. -/
structure ColSpec where
  name : List Char
  kind : Kind
  notNull : Bool
  deriving DecidableEq, Repr

/-- TableSpec, spec.go:105-115, of a table without query: `name` is TableName(), `ifNotExists` is CreateMode. -/
structure TableSpec where
  name : List Char
  cols : List ColSpec
  pk : List (List Char)
  ifNotExists : Bool
  deriving DecidableEq, Repr

/-- The type in SQLite, spec.go:279-322. -/
def declType : Kind → List Char
  | .int32 | .int64 | .uint32 | .uint64 | .enum => ['I', 'N', 'T']
  | .bool => ['B', 'O', 'O', 'L', 'E', 'A', 'N']
  | .float => ['F', 'L', 'O', 'A', 'T']
  | .bytes => ['B', 'L', 'O', 'B']
  | .double => ['D', 'O', 'U', 'B', 'L', 'E']
  | .json => ['J', 'S', 'O', 'N']
  | .other => ['U', 'N', 'K', 'N', 'O', 'W', 'N']
  | _ => ['T', 'E', 'X', 'T']

/-- `Sprintf("`%s`", s)` -/
def quote (s : List Char) : List Char := '`' :: (s ++ ['`'])

/-- ColumnSpec.SQLiteSchema, spec.go:278-328. -/
def colText (c : ColSpec) : List Char :=
  quote c.name ++ ' ' :: declType c.kind ++ (if c.notNull then [' ', 'N', 'O', 'T', ' ', 'N', 'U', 'L', 'L'] else [])

/-- strings.Join(l, ",") -/
def join : List (List Char) → List Char
  | [] => []
  | [s] => s
  | s :: ss => s ++ ',' :: join ss

/-- TableSpec.SQLiteSchema, spec.go:130-157, of a table without query. -/
def tableText (t : TableSpec) : List Char :=
  let columns := t.cols.map colText ++ (if t.pk = [] then [] else [['P', 'R', 'I', 'M', 'A', 'R', 'Y', ' ', 'K', 'E', 'Y', ' ', '('] ++ join t.pk ++ [')']])
  (if t.ifNotExists then ['C', 'R', 'E', 'A', 'T', 'E', ' ', 'T', 'A', 'B', 'L', 'E', ' ', 'I', 'F', ' ', 'N', 'O', 'T', ' ', 'E', 'X', 'I', 'S', 'T', 'S', ' '] else ['C', 'R', 'E', 'A', 'T', 'E', ' ', 'T', 'A', 'B', 'L', 'E', ' ']) ++ quote t.name ++ ' ' :: '(' :: join columns ++ [')']

/-- The name of an index, stmt_action.go:49: `path` is the name path joined with `_`. -/
def indexName (col path : List Char) : List Char := ['z', 'e', 't', 'a', 's', 'q', 'l', 'i', 't', 'e', '_', 'a', 'u', 't', 'o', 'i', 'n', 'd', 'e', 'x', '_'] ++ col ++ '_' :: path

/-- stmt_action.go:50-55: `table` is TableName(). -/
def indexText (col path table : List Char) : List Char :=
  ['C', 'R', 'E', 'A', 'T', 'E', ' ', 'I', 'N', 'D', 'E', 'X', ' ', 'I', 'F', ' ', 'N', 'O', 'T', ' ', 'E', 'X', 'I', 'S', 'T', 'S', ' '] ++ indexName col path ++ [' ', 'O', 'N', ' '] ++ quote table ++ '(' :: quote col ++ [')']

/-- Type.AvailableAutoIndex, spec.go:209-216. -/
def autoIndexable : Kind → Bool
  | .bytes | .json | .array | .struct | .geography | .proto | .extended => false
  | _ => true

/-- The statements which create a table in auto index mode, stmt_action.go:44-62, 73-79. -/
def autoTexts (t : TableSpec) (path : List Char) : List (List Char) :=
  tableText t :: (t.cols.filter fun c => autoIndexable c.kind).map fun c => indexText c.name path t.name

/-! ## SQLite -/

/-- Tokens. -/
inductive T where
  | word (s : List Char)
  | quoted (s : List Char)
  | lpar | rpar | comma
  deriving DecidableEq, Repr

/-- May `c` be in a name without quotes? -/
def isIdChar (c : Char) : Bool :=
  decide ((65 ≤ c.toNat ∧ c.toNat ≤ 90) ∨ (97 ≤ c.toNat ∧ c.toNat ≤ 122) ∨ (48 ≤ c.toNat ∧ c.toNat ≤ 57) ∨ c = '_' ∨ c = '$' ∨ 128 ≤ c.toNat)

/-- May a name without quotes begin with `c`? -/
def isIdStart (c : Char) : Bool :=
  decide ((65 ≤ c.toNat ∧ c.toNat ≤ 90) ∨ (97 ≤ c.toNat ∧ c.toNat ≤ 122) ∨ c = '_' ∨ 128 ≤ c.toNat)

/-- Between two tokens, in a word, in a quoted name, and after a quote in a quoted name. -/
inductive St where
  | idle
  | word (acc : List Char)
  | q (acc : List Char)
  | qe (acc : List Char)
  deriving DecidableEq, Repr

/-- A character between two tokens. -/
def idleStep (c : Char) : Option (List T × St) :=
  if c = ' ' ∨ c = '\t' ∨ c = '\n' ∨ c = '\r' then some ([], .idle)
  else if c = '(' then some ([.lpar], .idle)
  else if c = ')' then some ([.rpar], .idle)
  else if c = ',' then some ([.comma], .idle)
  else if c = '`' then some ([], .q [])
  else if isIdStart c then some ([], .word [c])
  else none

/-- A character.  Two backquotes in a quoted name are one; the text ends at a NUL. -/
def step : St → Char → Option (List T × St)
  | .idle, c => idleStep c
  | .word a, c => if isIdChar c then some ([], .word (a ++ [c])) else (idleStep c).map fun r => (.word a :: r.1, r.2)
  | .q a, c => if c = '`' then some ([], .qe a) else if c = Char.ofNat 0 then none else some ([], .q (a ++ [c]))
  | .qe a, c => if c = '`' then some ([], .q (a ++ ['`'])) else (idleStep c).map fun r => (.quoted a :: r.1, r.2)

/-- The tokens of a text. -/
def lex : St → List Char → Option (List T)
  | .idle, [] => some []
  | .word a, [] => some [.word a]
  | .q _, [] => none
  | .qe a, [] => some [.quoted a]
  | st, c :: cs => match step st c with
    | none => none
    | some (ts, st) => (lex st cs).map fun r => ts ++ r

/-- Names are compared ignoring the case of ASCII letters. -/
def upper (s : List Char) : List Char := s.map fun c => if 97 ≤ c.toNat ∧ c.toNat ≤ 122 then Char.ofNat (c.toNat - 32) else c

/-- The words which are no names, neither of columns nor in PRIMARY KEY. -/
def keywords : List (List Char) :=
  [['A', 'D', 'D'],
   ['A', 'L', 'L'],
   ['A', 'L', 'T', 'E', 'R'],
   ['A', 'N', 'D'],
   ['A', 'S'],
   ['A', 'U', 'T', 'O', 'I', 'N', 'C', 'R', 'E', 'M', 'E', 'N', 'T'],
   ['B', 'E', 'T', 'W', 'E', 'E', 'N'],
   ['C', 'A', 'S', 'E'],
   ['C', 'A', 'S', 'T'],
   ['C', 'H', 'E', 'C', 'K'],
   ['C', 'O', 'L', 'L', 'A', 'T', 'E'],
   ['C', 'O', 'M', 'M', 'I', 'T'],
   ['C', 'O', 'N', 'S', 'T', 'R', 'A', 'I', 'N', 'T'],
   ['C', 'R', 'E', 'A', 'T', 'E'],
   ['C', 'U', 'R', 'R', 'E', 'N', 'T', '_', 'D', 'A', 'T', 'E'],
   ['C', 'U', 'R', 'R', 'E', 'N', 'T', '_', 'T', 'I', 'M', 'E'],
   ['C', 'U', 'R', 'R', 'E', 'N', 'T', '_', 'T', 'I', 'M', 'E', 'S', 'T', 'A', 'M', 'P'],
   ['D', 'E', 'F', 'A', 'U', 'L', 'T'],
   ['D', 'E', 'F', 'E', 'R', 'R', 'A', 'B', 'L', 'E'],
   ['D', 'E', 'L', 'E', 'T', 'E'],
   ['D', 'I', 'S', 'T', 'I', 'N', 'C', 'T'],
   ['D', 'R', 'O', 'P'],
   ['E', 'L', 'S', 'E'],
   ['E', 'S', 'C', 'A', 'P', 'E'],
   ['E', 'X', 'C', 'E', 'P', 'T'],
   ['E', 'X', 'I', 'S', 'T', 'S'],
   ['F', 'A', 'L', 'S', 'E'],
   ['F', 'O', 'R', 'E', 'I', 'G', 'N'],
   ['F', 'R', 'O', 'M'],
   ['G', 'R', 'O', 'U', 'P'],
   ['H', 'A', 'V', 'I', 'N', 'G'],
   ['I', 'N'],
   ['I', 'N', 'D', 'E', 'X'],
   ['I', 'N', 'S', 'E', 'R', 'T'],
   ['I', 'N', 'T', 'E', 'R', 'S', 'E', 'C', 'T'],
   ['I', 'N', 'T', 'O'],
   ['I', 'S'],
   ['I', 'S', 'N', 'U', 'L', 'L'],
   ['J', 'O', 'I', 'N'],
   ['L', 'I', 'M', 'I', 'T'],
   ['N', 'O', 'T'],
   ['N', 'O', 'T', 'H', 'I', 'N', 'G'],
   ['N', 'O', 'T', 'N', 'U', 'L', 'L'],
   ['N', 'U', 'L', 'L'],
   ['O', 'N'],
   ['O', 'R'],
   ['O', 'R', 'D', 'E', 'R'],
   ['P', 'R', 'I', 'M', 'A', 'R', 'Y'],
   ['R', 'A', 'I', 'S', 'E'],
   ['R', 'E', 'F', 'E', 'R', 'E', 'N', 'C', 'E', 'S'],
   ['R', 'E', 'T', 'U', 'R', 'N', 'I', 'N', 'G'],
   ['S', 'E', 'L', 'E', 'C', 'T'],
   ['S', 'E', 'T'],
   ['T', 'A', 'B', 'L', 'E'],
   ['T', 'H', 'E', 'N'],
   ['T', 'O'],
   ['T', 'R', 'A', 'N', 'S', 'A', 'C', 'T', 'I', 'O', 'N'],
   ['T', 'R', 'U', 'E'],
   ['U', 'N', 'I', 'O', 'N'],
   ['U', 'N', 'I', 'Q', 'U', 'E'],
   ['U', 'P', 'D', 'A', 'T', 'E'],
   ['U', 'S', 'I', 'N', 'G'],
   ['V', 'A', 'L', 'U', 'E', 'S'],
   ['W', 'H', 'E', 'N'],
   ['W', 'H', 'E', 'R', 'E']]

/-- A name. -/
def nameOf : T → Option (List Char)
  | .quoted s => some s
  | .word w => if upper w ∈ keywords then none else some w
  | _ => none

/-- The parts of a list between commas which are not in parentheses; `acc` is what was read of the first part, `d` the number of open parentheses. -/
def pieces : Nat → List T → List T → List (List T)
  | _, acc, [] => [acc]
  | d, acc, t :: ts => if t = .comma ∧ d = 0 then acc :: pieces 0 [] ts
    else pieces (if t = .lpar then d + 1 else if t = .rpar then d - 1 else d) (acc ++ [t]) ts

/-- A column as SQLite knows it. -/
structure SCol where
  name : List Char
  decl : List Char
  notNull : Bool
  deriving DecidableEq, Repr

/-- The definition of a column. -/
def colDef : List T → Option SCol
  | [n, .word ty] => (nameOf n).map fun s => ⟨s, ty, false⟩
  | [n, .word ty, .word a, .word b] => if upper a = ['N', 'O', 'T'] ∧ upper b = ['N', 'U', 'L', 'L'] then (nameOf n).map fun s => ⟨s, ty, true⟩ else none
  | _ => none

/-- A list of single names. -/
def soleNames : List (List T) → Option (List (List Char))
  | [] => some []
  | [n] :: r => match nameOf n, soleNames r with
    | some s, some ss => some (s :: ss)
    | _, _ => none
  | _ => none

/-- PRIMARY KEY (names) -/
def pkDef : List T → Option (List (List Char))
  | .word a :: .word b :: .lpar :: r =>
    if upper a = ['P', 'R', 'I', 'M', 'A', 'R', 'Y'] ∧ upper b = ['K', 'E', 'Y'] ∧ r.getLast? = some .rpar then soleNames (pieces 0 [] r.dropLast) else none
  | _ => none

/-- Columns, and perhaps PRIMARY KEY. -/
def items : List (List T) → Option (List SCol × List (List Char))
  | [] => some ([], [])
  | [p] => match colDef p with
    | some c => some ([c], [])
    | none => (pkDef p).map fun k => ([], k)
  | p :: ps => match colDef p, items ps with
    | some c, some (cs, k) => some (c :: cs, k)
    | _, _ => none

/-- A table as SQLite knows it. -/
structure STable where
  ifNotExists : Bool
  name : List Char
  cols : List SCol
  pk : List (List Char)
  deriving DecidableEq, Repr

/-- The part of CREATE TABLE after IF NOT EXISTS.  A table has a column, no two columns have the same name, the primary key has
columns of the table, and names with `sqlite_` are refused. -/
def tableRest (ine : Bool) : List T → Option STable
  | n :: .lpar :: r => match nameOf n, r.getLast?, items (pieces 0 [] r.dropLast) with
    | some s, some .rpar, some (cs, k) =>
      if cs ≠ [] ∧ (cs.map fun c => upper c.name).Nodup ∧ (∀ x ∈ k, upper x ∈ cs.map fun c => upper c.name)
        ∧ (upper s).take 7 ≠ ['S', 'Q', 'L', 'I', 'T', 'E', '_'] then some ⟨ine, s, cs, k⟩ else none
    | _, _, _ => none
  | _ => none

/-- CREATE TABLE -/
def readTable (text : List Char) : Option STable := match lex .idle text with
  | some (.word a :: .word b :: r) =>
    if upper a = ['C', 'R', 'E', 'A', 'T', 'E'] ∧ upper b = ['T', 'A', 'B', 'L', 'E'] then
      match r with
      | .word c :: .word d :: .word e :: r => if upper c = ['I', 'F'] ∧ upper d = ['N', 'O', 'T'] ∧ upper e = ['E', 'X', 'I', 'S', 'T', 'S'] then tableRest true r else none
      | r => tableRest false r
    else none
  | _ => none

/-- CREATE INDEX IF NOT EXISTS name ON table(column): the three names. -/
def readIndex (text : List Char) : Option (List Char × List Char × List Char) := match lex .idle text with
  | some [.word a, .word b, .word c, .word d, .word e, n, .word f, t, .lpar, x, .rpar] =>
    if upper a = ['C', 'R', 'E', 'A', 'T', 'E'] ∧ upper b = ['I', 'N', 'D', 'E', 'X'] ∧ upper c = ['I', 'F'] ∧ upper d = ['N', 'O', 'T'] ∧ upper e = ['E', 'X', 'I', 'S', 'T', 'S'] ∧ upper f = ['O', 'N'] then
      match nameOf n, nameOf t, nameOf x with
      | some n, some t, some x => some (n, t, x)
      | _, _, _ => none
    else none
  | _ => none

/-! ## Affinity -/

/-- The affinities of columns. -/
inductive Aff where
  | integer | text | blob | real | numeric
  deriving DecidableEq, Repr

/-- Is `p` a part of `s`? -/
def hasPart (p : List Char) : List Char → Bool
  | [] => decide (p = [])
  | c :: s => p.isPrefixOf (c :: s) || hasPart p s

/-- The affinity of a declared type (section 3.1 of SQLite's datatype3). -/
def affinity (decl : List Char) : Aff :=
  let u := upper decl
  if hasPart ['I', 'N', 'T'] u then .integer
  else if hasPart ['C', 'H', 'A', 'R'] u || hasPart ['C', 'L', 'O', 'B'] u || hasPart ['T', 'E', 'X', 'T'] u then .text
  else if hasPart ['B', 'L', 'O', 'B'] u || u = [] then .blob
  else if hasPart ['R', 'E', 'A', 'L'] u || hasPart ['F', 'L', 'O', 'A'] u || hasPart ['D', 'O', 'U', 'B'] u then .real
  else .numeric

open Codec

/-- What a column of this affinity makes of a value; `num` reads a text as a number. -/
def applyAff (num : List Char → Option Stored) : Aff → Stored → Stored
  | .integer, .text s | .numeric, .text s | .real, .text s => (num s).getD (.text s)
  | .integer, .flt n | .numeric, .flt n => .int n
  | .real, .int n => .flt n
  | .text, .int n => .text (decInt n)
  | .text, .flt n => .text (decInt n ++ ['.', '0'])
  | _, v => v

end Verif.Schema
