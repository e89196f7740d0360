import Verif.Model.Arith
import Verif.Model.Logic

/-!
# Bit operators and BIT_COUNT (internal/function.go:76-142, internal/function_bit.go)

`bindX` are the functions of internal/function_bind.go:228-268 and 420-425: NULL if an
argument is NULL, otherwise the operation on the arguments converted by `ToInt64`.
-/

namespace Verif.Bits

open Go Verif.Val Verif.Logic Verif.Arith

/-- math/bits OnesCount of a number of `n` bits. -/
def onesCount : Nat → Nat → Nat
  | 0, _ => 0
  | n + 1, x => x % 2 + onesCount n (x / 2)

/-- function_bit.go:7-25 BIT_COUNT with function_bind.go:420-425 -/
def bitCount (v : Val) : Res Val :=
  if v.isNull then .ok .null
  else match v with
    | .bytes b => .ok (.int (b.foldl (fun s x => s + (onesCount 8 x.toNat : Int)) 0))
    | v => (toInt64 v).bind fun i => .ok (.int (onesCount 64 (toBits i).toNat))

/-- function.go:76-82 with function_bind.go:228-233 -/
def bindNot (a : Val) : Res Val := if existsNull [a] then .ok .null else (toInt64 a).bind fun x => .ok (.int (bitNot x))

/-- function.go:84-142 with function_bind.go:235-268: both operands to INT64, then the operator. -/
def bind2 (f : Int → Int → Res Int) (a b : Val) : Res Val :=
  if existsNull [a, b] then .ok .null
  else (toInt64 a).bind fun x => (toInt64 b).bind fun y => (f x y).bind fun r => .ok (.int r)

/-- function.go:108-118 `&` -/
def bindAnd : Val → Val → Res Val := bind2 fun x y => .ok (bitAnd x y)
/-- function.go:120-130 `|` -/
def bindOr : Val → Val → Res Val := bind2 fun x y => .ok (bitOr x y)
/-- function.go:132-142 `^` -/
def bindXor : Val → Val → Res Val := bind2 fun x y => .ok (bitXor x y)
/-- function.go:84-94 `<<` -/
def bindShl : Val → Val → Res Val := bind2 shl
/-- function.go:96-106 `>>` -/
def bindShr : Val → Val → Res Val := bind2 shr

end Verif.Bits
