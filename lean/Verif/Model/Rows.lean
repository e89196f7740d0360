import Verif.Model.Cast
import Verif.Model.TimestampText

/-!
# Reading results (internal/rows.go)

`read` is what `Rows.Next` puts into a destination: the elements of `dest` are of kind interface, so only that case of
assignValue is reached.  Arrays cast to structs (encoder.go:437-452) are not represented.
-/

namespace Verif.Rows

open Go Verif.Val Codec Cast

/-- A Go value handed to database/sql.  `fields` is a list of maps with one entry each. -/
inductive Out where
  | nil
  | int (i : Int)
  | flt (n : Int)
  | bool (b : Bool)
  | str (s : List Char)
  | bytes (b : List UInt8)
  | list (xs : List Out)
  | fields (ks : List (List Char)) (xs : List Out)
  deriving Repr

/-- The text of a TIMESTAMP in the layout RFC3339: no fraction (value.go:2058). -/
def rfc3339 (t : Int) : List Char := dateText t ++ 'T' :: (clockText 0 t ++ ['Z'])

mutual
/-- (Value).Interface: value.go:177, 326, 493, 626, 794 (Rat.String, always a fraction), 896, 1225, 1435, 1621, 1773, 1890,
2058. -/
def iface : DVal → Out
  | .null => .nil
  | .int i => .int i
  | .flt n => .flt n
  | .bool b => .bool b
  | .str s => .str s
  | .bytes b => .bytes b
  | .num r _ => .str (decInt r.num ++ '/' :: decNat r.den)
  | .time .timestamp t => .str (rfc3339 t)
  | .time k t => .str (timeText k t)
  | .arr vs => .list (ifaceList vs)
  | .struct ks vs => .fields ks (ifaceList vs)
@[inherit_doc iface] def ifaceList : List DVal → List Out
  | [] => []
  | v :: vs => iface v :: ifaceList vs
end

/-- A value read back that is not FLOAT64, array or struct. -/
def scalarOf : DVal → Option Val
  | .null => some .null
  | .int i => some (.int i)
  | .bool b => some (.bool b)
  | .str s => some (.str s)
  | .bytes b => some (.bytes b)
  | .num r big => some (.num r big)
  | .time k t => some (.time k t)
  | _ => none

/-- And back. -/
def ofScalarVal : Val → DVal
  | .int i => .int i
  | .bool b => .bool b
  | .str s => .str s
  | .bytes b => .bytes b
  | .num r big => .num r big
  | .time k t => .time k t
  | _ => .null

/-- FloatValue.ToInt64, value.go:588: a conversion that is out of range gives the smallest INT64 on amd64. -/
def floatInt (n : Int) : Int := if InI64 n then n else -9223372036854775808

mutual
/-- CastValue on what DecodeValue returns, encoder.go:356-506. -/
def castD (other : List Char → Rat) : Ty → DVal → Res DVal
  | _, .null => .ok .null
  | .int, .flt n => .ok (.int (floatInt n))
  | .arr e, .arr ds => (mapRes (castD other e) ds).bind fun ws => .ok (.arr ws)
  | .struct names types, .struct ks ds =>
    if ks.all fun k => decide (k = []) then .ok (.struct ks ds)
    else (castFieldsD other names types (fun k => (List.zip ks ds).reverse.lookup k)).bind fun ws => .ok (.struct names ws)
  | ty, d => match scalarOf d with
    | some v => (castValue other ty v).bind fun w => .ok (ofScalarVal w)
    | none => .err
@[inherit_doc castD] def castFieldsD (other : List Char → Rat) : List (List Char) → List Ty → (List Char → Option DVal) → Res (List DVal)
  | k :: names, t :: types, m =>
    (match m k with
      | none => Res.ok DVal.null
      | some v => castD other t v).bind fun w => (castFieldsD other names types m).bind fun ws => .ok (w :: ws)
  | _, _, _ => .ok []
end

/-- The methods used on scalars. -/
def scalarOut (other : List Char → Rat) : Ty → Val → Res Out
  | .int, v => (toI64 v).bind fun i => .ok (.int i)
  | .bool, v => (toB v).bind fun b => .ok (.bool b)
  | .time .timestamp, v => (Cast.toTime v).bind fun t => .ok (.str (TimestampText.render (tUnixMicro t)))
  | _, v => (toStr v).bind fun s => .ok (.str s)

/-- assignInterfaceValue, rows.go:200-325.  ToJSON of a DATE, DATETIME or TIME is its text (value.go:1585, 1737, 1854). -/
def assign (other : List Char → Rat) : Ty → DVal → Res Out
  | .arr e, .arr ds => (mapRes (fun d => match d with
      | .null => Res.ok Out.nil
      | d => assign other e d) ds).bind fun xs => .ok (.list xs)
  | .struct _ _, .struct ks ds => .ok (iface (.struct ks ds))
  | ty, d => match scalarOf d with
    | some v => scalarOut other ty v
    | none => .err

/-- assignValue, rows.go:100-116, 196-198: a column of type `ty`. -/
def read (other : List Char → Rat) (ty : Ty) (s : Stored) : Res Out :=
  match s with
  | .null => .ok .nil
  | s => (decode s).bind fun d => (castD other ty d).bind fun w => assign other ty w

end Verif.Rows
