import Verif.Go.Regexp
import Verif.Go.Basic

/-! # LIKE (internal/function.go:208-224) on STRING operands -/

namespace Verif.Like

open Go

/-- `strings.Replace(s, "%", ".*", -1)` -/
def replacePct (s : List Char) : List Char := s.flatMap fun c => if c = '%' then ['.', '*'] else [c]

/-- function.go:208-224: quote the pattern, turn % into .*, match `^…$`. -/
def like (a b : List Char) : Res Bool :=
  match parseRe (replacePct (quoteMeta b)) with
  | some items => .ok (matchRe items a)
  | none => .err

end Verif.Like
