import Verif.Model.Codec
import Verif.Model.Printable
import Verif.Model.Structs
import Verif.Go.FloatText

/-!
# The way of an argument to a function
(internal/function_register.go:396-490 RegisterFunctions with internal/encoder.go EncodeValue and internal/decoder.go DecodeValue)

Functions are called by SQLite: an argument is a literal, a column or the result of another function, in each case a value that SQLite
holds, and is decoded without its type.  FLOAT64 arguments and INTERVAL are not modelled.
-/

namespace Verif.Args

open Go Verif.Val Codec ToJson

/-- The argument as the function gets it: encoded by the function or literal that made it, kept by SQLite, decoded for the function. -/
def arg (v : Val) : Res DVal := decode (store (encode v))

mutual
/-- A value that was read back, if it has no FLOAT64 inside. -/
def plain : DVal → Option Val
  | .null => some .null
  | .int i => some (.int i)
  | .flt _ => none
  | .bool b => some (.bool b)
  | .str s => some (.str s)
  | .bytes b => some (.bytes b)
  | .num r big => some (.num r big)
  | .time k t => some (.time k t)
  | .arr vs => (plains vs).map .arr
  | .struct ks vs => (plains vs).map (.struct ks)
/-- All of a list. -/
def plains : List DVal → Option (List Val)
  | [] => some []
  | d :: ds => (plain d).bind fun v => (plains ds).map (v :: ·)
end

/-- A call of a function of one argument; an argument with a FLOAT64 inside is left out. -/
def call {α} (f : Val → Res α) (v : Val) : Res α := (arg v).bind fun d => match plain d with
  | some w => f w
  | none => .err

/-- fmt.Sprint of a FLOAT64 that is a whole number below 2^53 (value.go:606 FloatValue.ToJSON). -/
def floatText (n : Int) : List Char := sprintIntegral (decide (n < 0)) n.natAbs

/-- ToJSON of a field that is not a struct or an array, with FLOAT64; StructValue.ToString value.go:1364-1385 writes null for nil. -/
def fieldText (P : Print) : DVal → Res (List Char)
  | .flt n => .ok (floatText n)
  | d => match plain d with
    | some .null => .ok nullText
    | some v => toJSON P v
    | none => .err

/-- StructValue.ToString, value.go:1363-1388, of the fields. -/
def structText (P : Print) : List (List Char) → List DVal → Res (List (List Char))
  | [], _ => .ok []
  | _ :: _, [] => .panic
  | k :: ks, d :: ds => (fieldText P d).bind fun t => (structText P ks ds).bind fun ts => .ok ((goQuote P k ++ ':' :: t) :: ts)

/-- `STRUCT(v₁ AS k₁, …)`: MAKE_STRUCT, function.go:398-418, of arguments that were decoded for it. -/
def construct (ks : List (List Char)) (vs : List Val) : Res Val := (mapRes (call .ok) vs).bind fun ws => .ok (.struct ks ws)

/-- `TO_JSON_STRING(STRUCT(v₁ AS k₁, …))`, function_json.go:327-333 -/
def structJson (P : Print) (ks : List (List Char)) (vs : List Val) : Res (List Char) := (construct ks vs).bind fun s => (arg s).bind fun
  | .struct ks ds => (structText P ks ds).bind fun ts => .ok ('{' :: (join [','] ts ++ ['}']))
  | _ => .err

/-- `a[SAFE_OFFSET(i)]` of an array, function.go:175-184 ARRAY_SAFE_OFFSET, with the array as the function gets it; NULL outside. -/
def elementAt (a : Val) (i : Nat) : Res DVal := (arg a).bind fun
  | .arr ds => .ok (ds[i]?.getD .null)
  | _ => .err

/-- The i-th field of a struct, function.go:156-162 STRUCT_FIELD, with the struct as the function gets it. -/
def fieldAt (s : Val) (i : Nat) : Res DVal := (arg s).bind fun
  | .struct _ ds => match ds[i]? with
    | some d => .ok d
    | none => .panic
  | _ => .err

end Verif.Args
