import Verif.Model.Codec
import Verif.Model.FloatCodec

/-!
# The keys of GROUP BY
(internal/function_register.go:445-456 zetasqlite_group_by, the Interface methods of internal/value.go, internal/formatter.go:828-880)

SELECT DISTINCT and ROLLUP are aggregations, too.  A column is grouped by `zetasqlite_group_by(column)`: the Go value of the stored value, as the
SQLite driver hands it to SQLite.  The driver (mattn/go-sqlite3, callback.go) is trusted: a string is a C string, an empty slice of bytes is NULL, other
slices are errors.  FLOAT64 is modelled apart from the other types; the process runs in the zone UTC.
-/

namespace Verif.GroupKey

open Go Verif.Val

/-- Values of SQLite; they are equal in GROUP BY if they are the same. -/
inductive Key where
  | null
  | int (i : Int)
  | text (s : List Char)
  | blob (b : List UInt8)
  deriving DecidableEq

/-- A C string ends at the first NUL. -/
def cstring (s : List Char) : List Char := s.takeWhile fun c => decide (c ≠ Char.ofNat 0)

/-- Format("15:04:05") -/
def seconds (t : Int) : List Char := pad 2 (tHour t).toNat ++ ':' :: (pad 2 (tMinute t).toNat ++ ':' :: pad 2 (tSecond t).toNat)

/-- zetasqlite_group_by, function_register.go:445-456: IntValue.Interface value.go:177, StringValue 326, BytesValue 493, NumericValue 794 (Rat.String), BoolValue
896, DateValue 1621, DatetimeValue 1773, TimeValue 1890, TimestampValue 2058 (RFC3339), ArrayValue 1225, StructValue 1435. -/
def groupKey : Val → Res Key
  | .null => .ok .null
  | .int i => .ok (.int i)
  | .bool b => .ok (.int (if b then 1 else 0))
  | .str s => .ok (.text (cstring s))
  | .bytes b => .ok (if b = [] then .null else .blob b)
  | .num r _ => .ok (.text (decInt r.num ++ '/' :: decNat r.den))
  | .time .timestamp t => .ok (.text (dateText t ++ 'T' :: (seconds t ++ ['Z'])))
  | .time k t => .ok (.text (Codec.timeText k t))
  | .arr _ => .err
  | .struct _ _ => .err

/-- The key of a FLOAT64, `none` for NULL: FloatValue.Interface value.go:626, and what SQLite makes of the double. -/
def floatKey : Option F64 → FloatCodec.Item
  | none => .null
  | some x => FloatCodec.sqlite (.num x)

/-- How SQLite compares two such keys in GROUP BY: NULLs are the same, doubles are compared as numbers. -/
def sameKey : FloatCodec.Item → FloatCodec.Item → Bool
  | .null, .null => true
  | .num x, .num y => F64.eq x y
  | _, _ => false

end Verif.GroupKey
