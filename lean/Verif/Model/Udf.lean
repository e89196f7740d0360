import Verif.Go.Strings

/-!
# Calls of SQL functions

`FunctionSpec.CallSQL` (internal/spec.go:68-103) for a function whose body is known: the analysis of a templated
function (71-93), which only produces the body, is not modelled.  SQL text is a list of characters.
-/

namespace Verif.Udf

open Go

/-- The loop of CallSQL, internal/spec.go:97-101: one textual replacement per parameter, in order.  `argValues[i]`
out of range is a panic; the analyzer checks the number of arguments, so the lists are zipped here. -/
def substitute : List (List Char × List Char) → List Char → List Char
  | [], body => body
  | (name, value) :: rest, body => substitute rest (replaceAll body ('@' :: name) value)

/-- FunctionSpec.CallSQL, internal/spec.go:68-103 -/
def callSQL (params : List (List Char)) (args : List (List Char)) (body : List Char) : List Char :=
  ['(', ' '] ++ substitute (params.zip args) body ++ [' ', ')']

end Verif.Udf
