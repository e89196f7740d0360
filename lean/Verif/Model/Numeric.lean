import Verif.Model.Arrays
import Verif.Model.Window

/-!
# NUMERIC arithmetic (internal/value.go:630-684)

A `*NumericValue` is a pointer to a struct holding a `*big.Rat`.  The heap maps pointers to the
number currently held; the operators assign to the receiver's field.  Arguments of an SQL function
are decoded afresh for every call, so the two operands of `a + b` are different pointers.
-/

namespace Verif.Numeric

open Go Verif.Arrays Verif.Window

/-- The numbers held by the NumericValues allocated so far; a pointer is an index. -/
abbrev Heap := List Rat

/-- A pointer to a NumericValue. -/
abbrev Ref := Nat

/-- `nv.Rat` -/
def load (h : Heap) (p : Ref) : Rat := h.getD p 0

/-- `nv.Rat = r` -/
def store (h : Heap) (p : Ref) (r : Rat) : Heap := h.set p r

/-- The argument of an operator: another NUMERIC, or an INT64 (value.go:161-165 IntValue.ToRat). -/
inductive Operand where
  | num (p : Ref)
  | int (i : Int)

/-- `v.ToRat()`: value.go:780-782, 161-165. -/
def toRat (h : Heap) : Operand → Rat
  | .num p => load h p
  | .int i => i

/-- The four operators. -/
inductive Arith where
  | add | sub | mul | div
  deriving DecidableEq

/-- value.go:635-684 Add, Sub, Mul, Div: the new heap and the result, which is the receiver.  big.Rat.Inv panics on
zero with a string, which the deferred function (670-674) asserts to be an error: that panics again. -/
def op (h : Heap) (f : Arith) (nv : Ref) (v : Operand) : Res (Heap × Ref) :=
  let x := load h nv
  let y := toRat h v
  match f with
  | .add => .ok (store h nv (x + y), nv)
  | .sub => .ok (store h nv (x + -y), nv)
  | .mul => .ok (store h nv (x * y), nv)
  | .div => if y = 0 then .panic else .ok (store h nv (x * y⁻¹), nv)

/-- function.go:12-26 ADD, SUB, MUL, OP_DIV as SQL calls them: both operands decoded afresh, the result encoded. -/
def sqlOp (f : Arith) (a b : Rat) : Res Rat :=
  (op [a, b] f 0 (.num 1)).bind fun r => .ok (load r.1 r.2)

/-- function_aggregate.go:515-534 SUM of NUMERIC values: the first value is kept and the others added to it. -/
def sumLoop (h : Heap) (acc : Ref) : List Ref → Res (Heap × Ref)
  | [] => .ok (h, acc)
  | v :: vs => (op h .add acc (.num v)).bind fun r => sumLoop r.1 r.2 vs

/-- The heap after decoding a list of NUMERIC values, and SUM over them; `none` is NULL. -/
def sum : List Rat → Res (Option Rat)
  | [] => .ok none
  | v :: vs => (sumLoop (v :: vs) 0 ((List.range vs.length).map (· + 1))).bind fun r => .ok (some (load r.1 r.2))

/-! ### GENERATE_ARRAY of NUMERIC -/

/-- function_array.go:145-170: the loop of generateArray on pointers; `acc` are the pointers appended so far. -/
def genLoop (stop step : Ref) (up : Bool) : Nat → Heap → Ref → List Ref → Option (Heap × List Ref)
  | 0, _, _, _ => none
  | fuel + 1, h, cur, acc =>
    let acc := acc ++ [cur]
    match op h .add cur (.num step) with
    | .ok (h', after) =>
      if (if up then load h' after ≤ load h' stop else load h' after ≥ load h' stop) then genLoop stop step up fuel h' after acc
      else some (h', acc)
    | _ => none

/-- function_array.go:125-172 GENERATE_ARRAY(a, b, s) of NUMERIC: pointer 0 is `a`, 1 is `b`, 2 is `s`.  The array holds
pointers; it is encoded after the loop. -/
def generateArray (a b s : Rat) (out : Gen (List Rat)) : Prop :=
  match out with
  | .value r =>
    if decide (a ≤ b) ≠ decide (s > 0) then r = []
    else ∃ fuel h ps, genLoop 1 2 (decide (a ≤ b)) fuel [a, b, s] 0 [] = some (h, ps) ∧ r = ps.map (load h)
  | .forever => decide (a ≤ b) = decide (s > 0) ∧ ∀ fuel, genLoop 1 2 (decide (a ≤ b)) fuel [a, b, s] 0 [] = none
  | _ => False

/-! ### RANGE frames over a NUMERIC key -/

/-- function_window_option.go:597-614 lookupMinIndexFromRangeValue; `keys` are the pointers of the sorted rows' keys. -/
def lookupMinN (h : Heap) (v : Ref) (keys : List Ref) : Int :=
  match keys.findIdx? fun k => decide (load h v ≤ load h k) with
  | some i => i
  | none => -1

/-- function_window_option.go:616-633 lookupMaxIndexFromRangeValue -/
def lookupMaxN (h : Heap) (v : Ref) : (i : Nat) → (m : Int) → List Ref → Int
  | _, m, [] => m
  | i, m, k :: ks => lookupMaxN h v (i + 1) (if load h v ≥ load h k then (i : Int) else m) ks

/-- function_window_option.go:540-576 getIndexFromBoundaryByRange: the index and the heap after it. -/
def rangeIndexN (h : Heap) (keys : List Ref) (cur : Ref) : Boundary → Res (Int × Heap)
  | .unboundedPreceding => .ok (0, h)
  | .unboundedFollowing => .ok (keys.length - 1, h)
  | .current => .ok (lookupMaxN h cur 0 (-1) keys, h)
  | .preceding n => (op h .sub cur (.int n)).bind fun r => .ok (lookupMinN r.1 r.2 keys, r.1)
  | .following n => (op h .add cur (.int n)).bind fun r => .ok (lookupMaxN r.1 r.2 0 (-1) keys, r.1)

/-- function_window_option.go:440-447: the start index, then the end index. -/
def rangeN (h : Heap) (keys : List Ref) (cur : Ref) (b e : Boundary) : Res (Int × Int) :=
  (rangeIndexN h keys cur b).bind fun s => (rangeIndexN s.2 keys cur e).bind fun t => .ok (s.1, t.1)

end Verif.Numeric
