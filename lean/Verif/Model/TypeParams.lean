import Verif.Model.Cast
import Verif.Model.Constraints

/-!
# Type parameters: STRING(L), BYTES(L), NUMERIC(P, S)
(internal/spec.go:474-494 newColumnsFromDef, internal/formatter.go:436-466 CastNode.FormatSQL)
-/

namespace Verif.TypeParams

open Go Verif.Val

/-- The parameters of a type, as the analyzer reads them. -/
inductive Params where
  | none
  | len (l : Nat)
  | prec (p s : Nat)
  deriving DecidableEq

/-- A column of CREATE TABLE as it is resolved (ColumnDefinitionNode); the name and the type do not matter here. -/
structure ColDef where
  notNull : Bool
  params : Params
  deriving DecidableEq

/-- ColumnSpec, spec.go:172-176. -/
structure ColSpec where
  notNull : Bool
  deriving DecidableEq

/-- newColumnsFromDef, spec.go:474-494. -/
def newColumns (def_ : List ColDef) : List ColSpec := def_.map fun c => ⟨c.notNull⟩

/-- The positions of the columns that are NOT NULL, from `i`. -/
def notNulls (i : Nat) : List ColSpec → List Nat
  | [] => []
  | c :: cs => if c.notNull then i :: notNulls (i + 1) cs else notNulls (i + 1) cs

/-- The values of the columns. -/
inductive Stored where
  | text (s : List Char)
  | bytes (b : List UInt8)
  | num (r : Rat)
  deriving DecidableEq

/-- The table that is created, without a primary key. -/
def table (def_ : List ColDef) : Constraints.Table Stored := ⟨⟨notNulls 0 (newColumns def_), []⟩, none⟩

/-- INSERT of a row, with SQLite as in `Constraints`. -/
def insert (def_ : List ColDef) (rows : List (Constraints.Row Stored)) (r : Constraints.Row Stored) : List (Constraints.Row Stored) :=
  Constraints.exec (Constraints.written (table def_)) rows fun rows => some (rows ++ [r])

/-- CAST to a type with parameters: CastNode.FormatSQL, formatter.go:436-466, and CAST, function.go:513-537. -/
def cast (other : List Char → Rat) (src dst : Cast.Ty) (_params : Params) (safe : Bool) (v : Val) : Res Val := Cast.cast other src dst safe v

end Verif.TypeParams
