import Verif.Model.Logic
import Verif.Model.Cast

/-!
# Making structs and reading their fields (internal/function.go, internal/function_bind.go, internal/formatter.go)
-/

namespace Verif.Structs

open Go Verif.Val

/-- The loop of MAKE_STRUCT, function.go:402-412: names and values in turn. -/
def pairs : List Val → Res (List (List Char) × List Val)
  | [] => .ok ([], [])
  | [_] => .err
  | k :: v :: args => (Cast.toStr k).bind fun k => (pairs args).bind fun r => .ok (k :: r.1, v :: r.2)

/-- bindMakeStruct, function_bind.go:2820-2825, and MAKE_STRUCT, function.go:398-418.  The map of the value is a function of the names
and values: `Val.field`. -/
def makeStruct (args : List Val) : Res Val :=
  if args.length % 2 ≠ 0 then .err else (pairs args).bind fun r => .ok (.struct r.1 r.2)

/-- MakeStructNode.FormatSQL, formatter.go:468-490: the arguments for the fields of a struct constructor. -/
def arguments (names : List (List Char)) (vs : List Val) : List Val := (names.zip vs).flatMap fun p => [.str p.1, p.2]

/-- STRUCT_FIELD, function.go:156-162; ToStruct is an error for everything but structs. -/
def structField (v : Val) (i : Int) : Res Val := match v with
  | .struct _ vs => if 0 ≤ i then match vs[i.toNat]? with
      | some x => .ok x
      | none => .panic
    else .panic
  | .null => .panic
  | _ => .err

/-- bindStructField, function_bind.go:278-287; the position is an integer literal (GetStructFieldNode.FormatSQL, formatter.go:500-510). -/
def getField (v : Val) (i : Int) : Res Val := if v.isNull then .ok .null else structField v i

/-- The struct constructor of the query: fields with names (possibly empty) and values. -/
def construct (names : List (List Char)) (vs : List Val) : Res Val := makeStruct (arguments names vs)

end Verif.Structs
