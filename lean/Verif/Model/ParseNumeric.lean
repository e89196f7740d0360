import Verif.Go.RatScan

/-! # Model of `internal/function_numeric.go` -/

namespace Verif.ParseNumeric
open Verif.Go

/-- function_bind.go:597-611 and function_numeric.go:8-22: PARSE_NUMERIC (`big = false`) and PARSE_BIGNUMERIC; the result is the number and
whether it is a BIGNUMERIC.  NULL is a nil interface whose method is called. -/
def parseNumeric (big : Bool) : Option (List Char) → Res (Rat × Bool)
  | none => .panic
  | some s => if (RatScan.setString s).2 then .ok ((RatScan.setString s).1, big) else .err

end Verif.ParseNumeric
