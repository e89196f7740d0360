import Verif.Model.Format
import Verif.Model.ToJson

/-!
# FORMAT('%t', …) and FORMAT('%T', …)
(internal/function_format.go:304-306 parsePrintableString and the methods Format of internal/value.go)
-/

namespace Verif.Printable

open Go Verif.Val ToJson

/-- printableChar, value.go:458-463, and the loops of BytesValue.Format, value.go:469-475 and 479-485. -/
def byteText (b : UInt8) : List Char :=
  if 32 ≤ b.toNat ∧ b.toNat ≤ 126 then [Char.ofNat b.toNat] else ['\\', 'x', hexDigit (b.toNat / 16), hexDigit (b.toNat % 16)]

/-- The text of a date or time, value.go:1611, 1763, 1880, 2047-2048; the layout of TIMESTAMP has no fraction of a second. -/
def timeText : TimeKind → Int → List Char
  | .date, t => dateText t
  | .datetime, t => dateText t ++ 'T' :: clockText 6 t
  | .time, t => clockText 6 t
  | .timestamp, t => dateText t ++ ' ' :: (clockText 0 t ++ ['+', '0', '0'])

/-- The word before the text of a date or time for %T, value.go:1616, 1768, 1885, 2053. -/
def timeWord : TimeKind → List Char
  | .date => ['D', 'A', 'T', 'E', ' ']
  | .datetime => ['D', 'A', 'T', 'E', 'T', 'I', 'M', 'E', ' ']
  | .time => ['T', 'I', 'M', 'E', ' ']
  | .timestamp => ['T', 'I', 'M', 'E', 'S', 'T', 'A', 'M', 'P', ' ']

mutual
/-- (Value).Format, `T` for the verb %T, otherwise %t: IntValue value.go:173, StringValue 316-324, BytesValue 465-489, NumericValue 790,
BoolValue 892, ArrayValue 1213-1223, StructValue 1423-1433, DateValue 1610, DatetimeValue 1762, TimeValue 1879, TimestampValue 2046.  The
text of NULL is the one inside arrays and structs. -/
def text (P : Print) (T : Bool) : Val → List Char
  | .null => ['N', 'U', 'L', 'L']
  | .int i => decInt i
  | .bool b => if b then ['t', 'r', 'u', 'e'] else ['f', 'a', 'l', 's', 'e']
  | .str s => if T then goQuote P s else s
  | .bytes b => if T then 'b' :: '"' :: (b.flatMap byteText ++ ['"']) else b.flatMap byteText
  | .num r big => Cast.numText r big
  | .time k t => if T then timeWord k ++ goQuote P (timeText k t) else timeText k t
  | .arr vs => '[' :: (join [',', ' '] (texts P T vs) ++ [']'])
  | .struct _ vs => '(' :: (join [',', ' '] (texts P T vs) ++ [')'])
/-- The loops of ArrayValue.Format and StructValue.Format. -/
def texts (P : Print) (T : Bool) : List Val → List (List Char)
  | [] => []
  | v :: vs => text P T v :: texts P T vs
end

/-- parsePrintableString, function_format.go:304-306; the other conversions that `Format` leaves open are none here. -/
def ext (P : Print) (p : Format.Param) (args : List Val) : Res (List Char) := match args with
  | v :: _ => if p.spec = 't' ∨ p.spec = 'T' then .ok (text P (p.spec = 'T') v) else .err
  | [] => .panic

/-- bindFormat, function_bind.go:825-840: NULL if an argument is NULL. -/
def formatV (P : Print) (f : List Char) (args : List Val) : Res Val :=
  if args.any Val.isNull then .ok .null else (Format.format (ext P) f args).bind fun s => .ok (.str s)

end Verif.Printable
