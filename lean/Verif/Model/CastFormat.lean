import Verif.Model.Cast
import Verif.Model.Strings

/-!
# CAST with a format (internal/formatter.go:436-466)
-/

namespace Verif.CastFormat

open Go Verif.Val

/-- A CAST as it is resolved; `format` and `zone` are the parts FORMAT and AT TIME ZONE. -/
structure Node where
  src : Cast.Ty
  dst : Cast.Ty
  safe : Bool
  format : Option (List Char)
  zone : Option (List Char)

/-- CastNode.FormatSQL, formatter.go:436-466: the types and the mode are the arguments of the function that is called, function.go:513-537. -/
def run (other : List Char → Rat) (n : Node) (v : Val) : Res Val := Cast.cast other n.src n.dst n.safe v

end Verif.CastFormat
