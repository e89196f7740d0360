import Verif.Model.JsonFuncs
import Verif.Model.Cast

/-! # Fields and elements of JSON values (internal/function_json.go:11-58, their binders in internal/function_bind.go:289-313) -/

namespace Verif.JsonFuncs

open Go JsonSpec ToJson

/-- function_json.go:12: `fmt.Sprintf("$.%q", fieldName)`. -/
def fieldPath (P : Print) (name : List Char) : List Char := '$' :: '.' :: goQuote P name

/-- function_json.go:33: `fmt.Sprintf("$[%d]", index)`. -/
def indexPath (i : Int) : List Char := '$' :: '[' :: (decInt i ++ [']'])

/-- From `Extract` on, function_json.go:16-23 and 50-57: the first text, as it is. -/
def firstText (L : Lib) (p : L.Path) (v : List Char) : Res (Option (List Char)) :=
  (L.extract p v).bind fun
    | [] => .ok none
    | t :: _ => .ok (some t)

/-- function_json.go:11-24 JSON_FIELD and function_bind.go:289-302: `json.name`.  `v` is the text of a JSON value, `none` is NULL. -/
def jsonField (L : Lib) (P : Print) (v name : Option (List Char)) : Res (Option (List Char)) :=
  bound (fun v name => (L.create (fieldPath P name)).bind fun p => firstText L p v) v name

/-- What stands between the brackets of `json[…]`: another value than an INT64 or a STRING (`other`) leaves the path nil. -/
inductive Subscript where
  | int (i : Int)
  | str (s : List Char)
  | other
  deriving DecidableEq

/-- function_json.go:26-58 JSON_SUBSCRIPT and function_bind.go:304-313.  Extract of a nil path is a panic. -/
def jsonSubscript (L : Lib) (P : Print) (v : Option (List Char)) (k : Option Subscript) : Res (Option (List Char)) :=
  match v, k with
  | some v, some (.int i) => (L.create (indexPath i)).bind fun p => firstText L p v
  | some v, some (.str s) => (L.create (fieldPath P s)).bind fun p => firstText L p v
  | some _, some .other => .panic
  | _, _ => .ok none

end Verif.JsonFuncs
