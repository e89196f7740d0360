import Verif.Go.RatScan
import Verif.Model.Cast

/-!
# JavaScript functions (internal/function_javascript.go)

The engine (github.com/dop251/goja) is a parameter: a function body is any function from JavaScript values to a JavaScript value or an
exception; the conversions of ECMAScript are modelled for undefined, null, booleans, integral numbers and strings as far as they do not read
numbers from texts.  FLOAT64, JSON, INTERVAL, STRUCT and GEOGRAPHY are not modelled.
-/

namespace Verif.JavaScript
open Verif.Go Verif.Val Verif.Cast

/-- The Go values that Value.Interface returns. -/
inductive GoV where
  | nil
  | int (i : Int)
  | bool (b : Bool)
  | str (s : List Char)
  | bytes (b : List UInt8)
  | list (vs : List GoV)
  deriving Repr

/-- time.Time.Format in the Interface methods, value.go:1621, 1773, 1890, 2058 (RFC3339: without fractions). -/
def timeString : TimeKind → Int → List Char
  | .date, t => dateText t
  | .datetime, t => dateText t ++ 'T' :: clockText 6 t
  | .time, t => clockText 6 t
  | .timestamp, t => dateText t ++ 'T' :: (clockText 0 t ++ ['Z'])

mutual
/-- Value.Interface: value.go:177, 326, 493, 794 (Rat.String: always a fraction), 896, 1225 and the times.  A struct is passed as its map, which is not
modelled. -/
def iface : Val → GoV
  | .null => .nil
  | .int i => .int i
  | .bool b => .bool b
  | .str s => .str s
  | .bytes b => .bytes b
  | .num r _ => .str (decInt r.num ++ '/' :: decNat r.den)
  | .time k t => .str (timeString k t)
  | .arr vs => .list (ifaces vs)
  | .struct _ _ => .nil
/-- The loop value.go:1225-1235. -/
def ifaces : List Val → List GoV
  | [] => []
  | v :: vs => iface v :: ifaces vs
end

/-- Values of the engine.  `wrapped` is an object that stands for a Go value or an array. -/
inductive JS where
  | undefined
  | null
  | bool (b : Bool)
  | num (i : Int)
  | str (s : List Char)
  | wrapped (v : GoV)
  deriving Repr

/-- The conversions of the engine that are not modelled. -/
structure Goja where
  /-- The float64 nearest to an integer beyond 2^53, as an integer. -/
  round : Int → Int
  /-- ToInteger of a string and of an object. -/
  strInteger : List Char → Int
  objInteger : GoV → Int
  /-- ToNumber().String() of a string and of an object. -/
  strNumber : List Char → List Char
  objNumber : GoV → List Char
  /-- ToString of an object. -/
  objText : GoV → List Char

/-- What is known of them: a text with a slash is no number. -/
def Goja.Lawful (g : Goja) : Prop := ∀ s, '/' ∈ s → g.strNumber s = ['N', 'a', 'N']

/-- goja's Runtime.ToValue: integers beyond 2^53 become float64. -/
def toValue (g : Goja) : GoV → JS
  | .nil => .null
  | .int i => .num (if -(2 ^ 53) ≤ i ∧ i ≤ 2 ^ 53 then i else g.round i)
  | .bool b => .bool b
  | .str s => .str s
  | v => .wrapped v

/-- ECMAScript ToInteger. -/
def toInteger (g : Goja) : JS → Int
  | .undefined => 0
  | .null => 0
  | .bool b => if b then 1 else 0
  | .num i => i
  | .str s => g.strInteger s
  | .wrapped v => g.objInteger v

/-- ECMAScript ToBoolean. -/
def toBoolean : JS → Bool
  | .undefined => false
  | .null => false
  | .bool b => b
  | .num i => decide (i ≠ 0)
  | .str s => decide (s ≠ [])
  | .wrapped _ => true

/-- ECMAScript ToString. -/
def toText (g : Goja) : JS → List Char
  | .undefined => "undefined".toList
  | .null => "null".toList
  | .bool b => if b then "true".toList else "false".toList
  | .num i => decInt i
  | .str s => s
  | .wrapped v => g.objText v

/-- The text of ECMAScript ToNumber. -/
def numberText (g : Goja) : JS → List Char
  | .undefined => "NaN".toList
  | .null => ['0']
  | .bool b => if b then ['1'] else ['0']
  | .num i => decInt i
  | .str s => g.strNumber s
  | .wrapped v => g.objNumber v

mutual
/-- ValueFromGoValue, encoder.go:508-588. -/
def fromGo : GoV → Val
  | .nil => .null
  | .int i => .int i
  | .bool b => .bool b
  | .str s => .str s
  | .bytes b => .bytes b
  | .list vs => .arr (fromGos vs)
/-- The loop encoder.go:533-539. -/
def fromGos : List GoV → List Val
  | [] => []
  | v :: vs => fromGo v :: fromGos vs
end

/-- A parsed time or the error of the parser. -/
def timeOf (k : TimeKind) : Option Int → Res Val
  | some t => .ok (.time k t)
  | none => .err

/-- function_javascript.go:50-129 castJavaScriptValue.  The engine never returns a nil value.  An array is asserted to be a Go slice of
interfaces: everything else panics.  STRUCT is not modelled. -/
def castJs (g : Goja) : Ty → JS → Res Val
  | .int, v => .ok (.int (toInteger g v))
  | .bool, v => .ok (.bool (toBoolean v))
  | .str, v => .ok (.str (toText g v))
  | .bytes, v => .ok (.bytes (utf8 (toText g v)))
  | .time .date, v => timeOf .date (parseDate (toText g v))
  | .time .datetime, v => timeOf .datetime (parseDatetimeV (toText g v))
  | .time .time, v => timeOf .time (parseClock (toText g v))
  | .time .timestamp, v => timeOf .timestamp (parseTimestamp (toText g v))
  | .num _, v => .ok (.num (RatScan.setString (numberText g v)).1 false)
  | .arr e, .wrapped (.list vs) => (castAll (castValue (fun s => (RatScan.setString s).1) e) (fromGos vs)).bind fun ws => .ok (.arr ws)
  | .arr _, _ => .panic
  | .struct _ _, _ => .err

/-- function_javascript.go:12-48 EVAL_JAVASCRIPT; `code` is the function body, `none` an exception. -/
def evalJs (g : Goja) (code : List JS → Option JS) (ret : Ty) (args : List Val) : Res Val :=
  match code (args.map fun v => toValue g (iface v)) with
  | none => .err
  | some r => castJs g ret r

end Verif.JavaScript
