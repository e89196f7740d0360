import Verif.Model.Like
import Verif.Model.Cast

/-! # LIKE on values (internal/function.go:208-224, function_bind.go:427-432) -/

namespace Verif.Like

open Go Verif.Val

/-- function_bind.go:427-432 bindLike and function.go:208-224: FALSE if an operand is NULL; otherwise `ToString` of both. -/
def likeVal (a b : Val) : Res Bool :=
  if a.isNull || b.isNull then .ok false
  else (Cast.toStr a).bind fun va => (Cast.toStr b).bind fun vb => like va vb

end Verif.Like
