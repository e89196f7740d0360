import Verif.Model.Cast
import Verif.Model.Codec

/-!
# Literals and parameters (internal/encoder.go)

The analyser hands over literals of DATE, DATETIME, TIME and TIMESTAMP as integers; DATETIME and TIME are packed into bit
fields.  Parameters are Go values.  The process is taken to run in UTC.
-/

namespace Verif.Literal

open Go Verif.Val Codec Cast

/-! ### Literals -/

/-- encoder.go:234: `secShift`, … and `yearMask`: the field of `w` bits at `shift`. -/
def field (b : Nat) (shift w : Nat) : Nat := (b &&& ((2 ^ w - 1) <<< shift)) >>> shift

/-- dateValueFromLiteral, encoder.go:227-230. -/
def dateLit (days : Int) : Val := .time .date (days * 24 * 3600 * sec)

/-- datetimeValueFromLiteral, encoder.go:248-267.  The packed integer is not negative. -/
def datetimeLit (bit : Nat) : Val :=
  let b := bit >>> 20
  .time .datetime (tDate (field b 26 14) (field b 22 4) (field b 17 5) (field b 12 5) (field b 6 6) (field b 0 6) ((field bit 0 20 : Nat) * 1000))

/-- timeValueFromLiteral, encoder.go:269-277. -/
def timeLit (bit : Nat) : Val :=
  let b := bit >>> 20
  .time .time (tDate 0 0 0 (field b 12 5) (field b 6 6) (field b 0 6) ((field bit 0 20 : Nat) * 1000))

/-- ValueFromZetaSQLValue for TIMESTAMP, encoder.go:165-170: time.Unix adds seconds and nanoseconds. -/
def timestampLit (micros : Int) : Val :=
  let s := Int.tdiv micros 1000000
  let remainder := micros - s * 1000000
  .time .timestamp (s * sec + remainder * 1000)

/-! ### Parameters -/

/-- A Go value passed as an argument.  Maps, whose order is random, and FLOAT64 are not represented; `int` is any signed
integer type, `uint` any unsigned one; an element of a slice of interfaces is the element itself. -/
inductive GoArg where
  | nil
  | int (i : Int)
  | uint (n : Nat)
  | bool (b : Bool)
  | str (s : List Char)
  | bytes (b : List UInt8)
  | time (ns : Int)
  | slice (xs : List GoArg)
  | struct (ks : List (List Char)) (xs : List GoArg)
  | ptr (x : GoArg)
  | nilPtr

mutual
/-- ValueFromGoValue and valueFromGoReflectValue, encoder.go:508-590.  Elem of a nil pointer is the zero reflect.Value,
whose Type method panics. -/
def fromGo : GoArg → Res Val
  | .nil => .ok .null
  | .int i => .ok (.int i)
  | .uint n => .ok (.int (wrap64 n))
  | .bool b => .ok (.bool b)
  | .str s => .ok (.str s)
  | .bytes b => .ok (.bytes b)
  | .time t => .ok (.time .timestamp t)
  | .slice xs => (fromGoList xs).bind fun vs => .ok (.arr vs)
  | .struct ks xs => (fromGoList xs).bind fun vs => .ok (.struct ks vs)
  | .ptr x => fromGo x
  | .nilPtr => .panic
@[inherit_doc fromGo] def fromGoList : List GoArg → Res (List Val)
  | [] => .ok []
  | x :: xs => (fromGo x).bind fun v => (fromGoList xs).bind fun vs => .ok (v :: vs)
end

/-- EncodeGoValue, encoder.go:56-66: the value of a parameter of type `ty`. -/
def param (other : List Char → Rat) (ty : Ty) (x : GoArg) : Res Val := (fromGo x).bind fun v => castValue other ty v

end Verif.Literal
