import Verif.Go.Strconv
import Verif.Go.Utf8

/-!
# SQL values and their comparison methods (internal/value.go)

A `Val` is a Go `Value` interface value; `null` is the nil interface.

Simplifications.
* FLOAT64, JSON and INTERVAL values are not represented.
* `time.Time` is the instant in nanoseconds since the Unix epoch; `Equal`,
  `After` and `Before` compare instants.
* The two operands of a comparison have the same SQL type after analysis.  The
  conversions `ToInt64`, `ToBool`, `ToArray`, `ToStruct` are modelled on every
  `Val`; where the argument of a STRING/BYTES/NUMERIC/date comparison has a
  different kind the implicit conversion is not modelled and `err` stands for it.
* `StructValue.m` is a Go map built from `keys`/`values` (last duplicate wins).
  Go ranges over it in random order; the model ranges in field order, which can
  matter only for which of several failing fields is hit first.
-/

namespace Verif.Val

open Go

/-- The SQL type of a `time.Time` based value: value.go:1495 `DateValue`,
1650 `DatetimeValue`, 1790 `TimeValue`, 1920 `TimestampValue`. -/
inductive TimeKind where
  | date | datetime | time | timestamp
  deriving DecidableEq, Repr

/-- value.go:21-41: the `Value` interface; `null` is nil.
`int` value.go:43, `str` 184, `bytes` 330, `num` 629 (`isBigNumeric`), `bool` 798,
`arr` 1024, `struct` 1236. -/
inductive Val where
  | null
  | int (i : Int)
  | bool (b : Bool)
  | str (s : List Char)
  | bytes (b : List UInt8)
  | num (r : Rat) (big : Bool)
  | time (k : TimeKind) (ns : Int)
  | arr (vs : List Val)
  | struct (keys : List (List Char)) (vals : List Val)
  deriving Repr

/-- `v == nil` in Go. -/
def Val.isNull : Val → Bool
  | .null => true
  | _ => false

@[simp] theorem Val.isNull_null : Val.null.isNull = true := rfl

/-- Which comparison method of `Value` is called (value.go:26-30). -/
inductive Op where
  | eq | gt | gte | lt | lte
  deriving DecidableEq, Repr

/-- Go's comparison operators on an ordered type given `<` and `==`. -/
def Op.run (op : Op) (lt eq gt : Bool) : Bool :=
  match op with
  | .eq => eq
  | .gt => gt
  | .gte => gt || eq
  | .lt => lt
  | .lte => lt || eq

/-- strconv.ParseBool. -/
def parseBool (s : List Char) : Res Bool :=
  if s = ['1'] ∨ s = ['t'] ∨ s = ['T'] ∨ s = ['T','R','U','E'] ∨ s = ['t','r','u','e'] ∨ s = ['T','r','u','e'] then .ok true
  else if s = ['0'] ∨ s = ['f'] ∨ s = ['F'] ∨ s = ['F','A','L','S','E'] ∨ s = ['f','a','l','s','e'] ∨ s = ['F','a','l','s','e'] then .ok false
  else .err

/-- `(Value).ToBool`: IntValue value.go:131, StringValue 284, NumericValue 765,
BoolValue 858; others are errors.  Bytes are treated as an error unless empty. -/
def toBool : Val → Res Bool
  | .null => .panic
  | .int i => if i = 0 then .ok false else if i = 1 then .ok true else .err
  | .bool b => .ok b
  | .str s => if s = [] then .ok false else parseBool s
  | .bytes b => if b = [] then .ok false else .err
  | .num r _ => if wrap64 r.num = 1 then .ok true else if wrap64 r.num = 0 then .ok false else .err
  | .time _ _ => .err
  | .arr _ => .err
  | .struct _ _ => .err

/-- `(Value).ToInt64`: IntValue value.go:115, StringValue 259 (base 10 only; the
"0x" base-0 case is not modelled), BytesValue 390 (not modelled unless empty),
NumericValue 731 (the numerator!), BoolValue 840, DateValue 1566 (Unix seconds). -/
def toInt64 : Val → Res Int
  | .null => .panic
  | .int i => .ok i
  | .bool b => .ok (if b then 1 else 0)
  | .str s => if s = [] then .ok 0 else match parseInt64 s with
    | some i => .ok i
    | none => .err
  | .bytes b => if b = [] then .ok 0 else .err
  | .num r _ => .ok (wrap64 r.num)
  | .time _ ns => .ok (ns / 1000000000)
  | .arr _ => .err
  | .struct _ _ => .err

/-- The comparison methods of all non-nested values, receiver first:
IntValue value.go:75-113, StringValue 209-247, BytesValue 352-388,
NumericValue 686-729, BoolValue 817-838, DateValue 1526-1564 (the other
date/time types are identical), and the `ToArray`/`ToStruct` failures of
ArrayValue 1059-1061 and StructValue 1260-1263.  Calling a method of, or with,
a nil value dereferences nil. -/
def cmpLeaf (op : Op) (recv arg : Val) : Res Bool :=
  match recv, arg with
  | .null, _ => .panic
  | .bool a, v => match op with
    | .eq => toBool v |>.bind fun b => .ok (a == b)
    | _ => .err
  | _, .null => .panic
  | .int a, v => toInt64 v |>.bind fun b => .ok (op.run (decide (a < b)) (decide (a = b)) (decide (a > b)))
  | .str a, .str b =>
    .ok (op.run (decide (utf8 a < utf8 b)) (decide (utf8 a = utf8 b)) (decide (utf8 b < utf8 a)))
  | .bytes a, .bytes b => .ok (op.run (decide (a < b)) (decide (a = b)) (decide (b < a)))
  | .num a _, .num b _ => .ok (op.run (decide (a < b)) (decide (a = b)) (decide (b < a)))
  | .time _ a, .time _ b => .ok (op.run (decide (a < b)) (decide (a = b)) (decide (b < a)))
  | _, _ => .err

/-- `m[key]` for the map of a `StructValue` (function.go:398-419: later fields
overwrite earlier ones); nil when absent. -/
def field (keys : List (List Char)) (vals : List Val) (k : List Char) : Val :=
  match (List.zip keys vals).reverse.lookup k with
  | some v => v
  | none => .null

/-- `len(m)`: the number of distinct keys. -/
def fieldCount (keys : List (List Char)) : Nat := keys.eraseDups.length

mutual
/-- A comparison method of any value.  With `flip = false` it is
`a.Op(b)`, with `flip = true` it is `b.Op(a)`.  The flag is needed because
ArrayValue (value.go:1058-1156) and StructValue (1260-1358) call the method of
the *argument's* element with the receiver's element as its argument. -/
def cmpAux (op : Op) : (flip : Bool) → (a b : Val) → Res Bool
  | flip, .arr as, .arr bs =>
    if as.length = bs.length then cmpList op (!flip) as bs else .ok false
  | flip, .struct ka va, .struct kb vb =>
    if fieldCount ka = fieldCount kb then cmpFields op (!flip) ka va kb vb else .ok false
  | false, a, b => cmpLeaf op a b
  | true, a, b => cmpLeaf op b a
/-- The element loop of ArrayValue comparisons (value.go:1066-1074): stops at the
first false or failing element. -/
def cmpList (op : Op) : (flip : Bool) → (as bs : List Val) → Res Bool
  | flip, a :: as, b :: bs => (cmpAux op flip a b).bind fun c => if c then cmpList op flip as bs else .ok false
  | _, _, _ => .ok true
/-- The field loop of StructValue comparisons (value.go:1268-1276): fields are
looked up by name in the other struct. -/
def cmpFields (op : Op) : (flip : Bool) → (ka : List (List Char)) → (va : List Val) → (kb : List (List Char)) → (vb : List Val) → Res Bool
  | flip, k :: ka, a :: va, kb, vb =>
    if k ∈ ka then cmpFields op flip ka va kb vb   -- overwritten by a later field
    else (cmpAux op flip a (field kb vb k)).bind fun c => if c then cmpFields op flip ka va kb vb else .ok false
  | _, _, _, _, _ => .ok true
end

/-- `a.EQ(b)`, `a.GT(b)`, … -/
def cmp (op : Op) (a b : Val) : Res Bool := cmpAux op false a b

end Verif.Val
