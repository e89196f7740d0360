import Verif.Model.Cast
import Verif.Go.Json

/-!
# TO_JSON and TO_JSON_STRING (internal/value.go ToJSON, internal/function_json.go, internal/function_bind.go)

FLOAT64, JSON, INTERVAL and GEOGRAPHY are not represented; the options pretty_print and
stringify_wide_numbers are read and have no effect.
-/

namespace Verif.ToJson

open Go Verif.Val

/-- strconv.IsPrint: which characters Go prints as they are.  Which they are is left open beyond the
ASCII ones: letters, marks, numbers, punctuation, symbols and the ASCII space. -/
structure Print where
  is : Char → Bool
  ascii : ∀ c : Char, c.toNat < 128 → is c = decide (32 ≤ c.toNat ∧ c.toNat < 127)

/-- One character in strconv.Quote (appendEscapedRune). -/
def quoteChar (P : Print) (c : Char) : List Char :=
  if c = '"' ∨ c = '\\' then ['\\', c]
  else if P.is c then [c]
  else if c.toNat = 7 then ['\\', 'a']
  else if c.toNat = 8 then ['\\', 'b']
  else if c.toNat = 12 then ['\\', 'f']
  else if c.toNat = 10 then ['\\', 'n']
  else if c.toNat = 13 then ['\\', 'r']
  else if c.toNat = 9 then ['\\', 't']
  else if c.toNat = 11 then ['\\', 'v']
  else if c.toNat < 32 ∨ c.toNat = 127 then ['\\', 'x', hexDigit (c.toNat / 16), hexDigit (c.toNat % 16)]
  else if c.toNat < 65536 then '\\' :: 'u' :: Json.hex4 c.toNat
  else '\\' :: 'U' :: (Json.hex4 (c.toNat / 65536) ++ Json.hex4 (c.toNat % 65536))

/-- strconv.Quote -/
def goQuote (P : Print) (s : List Char) : List Char := '"' :: (s.flatMap (quoteChar P) ++ ['"'])

/-- The text "null", value.go:1165, 1370. -/
def nullText : List Char := ['n', 'u', 'l', 'l']

mutual

/-- (Value).ToJSON: IntValue value.go:155, StringValue 291, BytesValue 429, NumericValue 778, BoolValue 874, ArrayValue
1161-1175 and 1201, StructValue 1363-1388 and 1411, DateValue 1598, DatetimeValue 1750, TimeValue 1867, TimestampValue
2034.  A NULL is a nil interface: calling the method panics. -/
def toJSON (P : Print) : Val → Res (List Char)
  | .null => .panic
  | .int i => .ok (decInt i)
  | .bool b => .ok (if b then ['t', 'r', 'u', 'e'] else ['f', 'a', 'l', 's', 'e'])
  | .str s => .ok (goQuote P s)
  | .bytes b => .ok (goQuote P (Base64.encode b))
  | .num r big => .ok (Cast.numText r big)
  | .time k t => Cast.toStr (.time k t)
  | .arr vs => (elemTexts P vs).bind fun ts => .ok ('[' :: (join [','] ts ++ [']']))
  | .struct ks vs => (fieldTexts P ks vs).bind fun ts => .ok ('{' :: (join [','] ts ++ ['}']))

/-- The loop of ArrayValue.ToString, value.go:1162-1173. -/
def elemTexts (P : Print) : List Val → Res (List (List Char))
  | [] => .ok []
  | v :: vs => (if v.isNull then .ok nullText else toJSON P v).bind fun t => (elemTexts P vs).bind fun ts => .ok (t :: ts)

/-- The loop of StructValue.ToString, value.go:1364-1385: it runs over the keys and indexes the values. -/
def fieldTexts (P : Print) : List (List Char) → List Val → Res (List (List Char))
  | [], _ => .ok []
  | _ :: _, [] => .panic
  | k :: ks, v :: vs => (if v.isNull then .ok nullText else toJSON P v).bind fun t =>
    (fieldTexts P ks vs).bind fun ts => .ok ((goQuote P k ++ ':' :: t) :: ts)

end

/-- function_bind.go:1538-1551 bindToJsonString and function_json.go:327-333 TO_JSON_STRING, the result a STRING; the
option `pretty` is not used. -/
def toJsonString (P : Print) (v : Val) (_pretty : Bool) : Res (List Char) := toJSON P v

/-- function_bind.go:1520-1536 bindToJson and function_json.go:319-325 TO_JSON, the result a JSON text or NULL; the option
`wide` is not used. -/
def toJson (P : Print) (v : Val) (_wide : Bool) : Res (Option (List Char)) :=
  if v.isNull then .ok none else (toJSON P v).bind fun s => .ok (some s)

end Verif.ToJson
