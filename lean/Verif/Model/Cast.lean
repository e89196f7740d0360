import Verif.Model.Codec

/-!
# Conversions between types (internal/encoder.go CastValue, internal/function.go CAST, internal/value.go)

FLOAT64, JSON, INTERVAL and GEOGRAPHY are not represented.  Conversions of arrays and structs to text are not modelled
(the analyzer rejects such casts) and are errors here.
-/

namespace Verif.Cast

open Go Verif.Val

/-- The types of the model. -/
inductive Ty where
  | int | bool | str | bytes
  | num (big : Bool)
  | time (k : TimeKind)
  | arr (e : Ty)
  | struct (names : List (List Char)) (types : List Ty)
  deriving Repr

/-! ### Text of numbers -/

/-- The number of units of `10^-p` nearest to |r|, halves up: math/big Rat.FloatString computes the quotient and the
rounded remainder separately, with a carry. -/
def units (p : Nat) (r : Rat) : Nat := (2 * r.num.natAbs * 10 ^ p + r.den) / (2 * r.den)

/-- Rat.FloatString(p), for p > 0. -/
def floatString (p : Nat) (r : Rat) : List Char :=
  (if r.num < 0 then ['-'] else []) ++ (decNat (units p r / 10 ^ p) ++ '.' :: padDigits p (units p r % 10 ^ p))

/-- NumericValue.toString, value.go:735-745 -/
def numText (r : Rat) (big : Bool) : List Char :=
  trimRight (trimRight (floatString (if big then 38 else 9) r) ['0']) ['.']

/-- A digit. -/
def isDigit (c : Char) : Bool := decide (48 ≤ c.toNat ∧ c.toNat ≤ 57)

/-- Digits with at most one point among them. -/
def decimalDigits (s : List Char) : Option Rat :=
  let a := s.takeWhile isDigit
  match s.dropWhile isDigit with
  | [] => (parseNat a).map fun (n : Nat) => (n : Rat)
  | c :: b =>
    if c = '.' ∧ b.all isDigit then (parseNat (a ++ b)).map fun (n : Nat) => mkRat n (10 ^ b.length) else none

/-- A sign and digits with at most one point. -/
def decimal : List Char → Option Rat
  | [] => none
  | c :: s =>
    if c = '-' then (decimalDigits s).map (- ·)
    else if c = '+' then decimalDigits s
    else decimalDigits (c :: s)

/-- Rat.SetString, the failure being ignored (value.go:310-314, 444).  `other` stands for the result on every other text:
exponents, fractions and other bases, more than a million digits after the point, and the unspecified value after a failure
(`RatScan.setString` is all of it). -/
def setString (other : List Char → Rat) (s : List Char) : Rat :=
  if (s.dropWhile fun c => decide (c ≠ '.')).length ≤ 1000001 then (decimal s).getD (other s) else other s

/-- strings.Contains(strings.ToLower(s), "0x"): of all characters only X has the lower case x. -/
def has0x : List Char → Bool
  | [] => false
  | c :: s => (decide (c = '0') && match s with | [] => false | d :: _ => decide (d = 'x' ∨ d = 'X')) || has0x s

/-- The value of a hexadecimal digit. -/
def hexDigitVal (c : Char) : Option Nat :=
  let n := c.toNat
  if 48 ≤ n ∧ n ≤ 57 then some (n - 48) else if 97 ≤ n ∧ n ≤ 102 then some (n - 87) else if 65 ≤ n ∧ n ≤ 70 then some (n - 55) else none

/-- Hexadecimal digits; an underscore may stand before a digit (strconv.underscoreOK). -/
def hexDigits : Nat → List Char → Option Nat
  | acc, [] => some acc
  | acc, c :: s => match hexDigitVal c with
    | some d => hexDigits (acc * 16 + d) s
    | none => if c = '_' then match s with
        | [] => none
        | e :: t => match hexDigitVal e with
          | some d => hexDigits (acc * 16 + d) t
          | none => none
      else none

/-- strconv.ParseInt(s, 0, 64) without the sign, on a text that contains 0x: anything but a hexadecimal number is an
error. -/
def parseHex : List Char → Option Nat
  | a :: b :: c :: s => if a = '0' ∧ (b = 'x' ∨ b = 'X') then hexDigits 0 (c :: s) else none
  | _ => none

/-- strconv.ParseInt(s, 0, 64) on a text that contains 0x. -/
def parseInt0 : List Char → Option Int
  | [] => none
  | c :: s =>
    let r := if c = '-' then (parseHex s).map fun (n : Nat) => -(n : Int)
      else if c = '+' then (parseHex s).map fun (n : Nat) => (n : Int)
      else (parseHex (c :: s)).map fun (n : Nat) => (n : Int)
    match r with
    | some i => if InI64 i then some i else none
    | none => none

/-- StringValue.ToInt64, value.go:249-259 -/
def strInt (s : List Char) : Res Int :=
  if s = [] then .ok 0
  else match (if has0x s then parseInt0 s else parseInt64 s) with
    | some i => .ok i
    | none => .err

/-! ### Text of times -/

/-- A regular expression of one-character classes at the start of the text; the rest of the text. -/
def matchClasses : List (Char → Bool) → List Char → Option (List Char)
  | [], s => some s
  | _ :: _, [] => none
  | p :: ps, c :: s => if p c then matchClasses ps s else none

/-- A fixed character. -/
def lit (c : Char) : Char → Bool := fun d => decide (d = c)

/-- `\d{4}-\d{2}-\d{2}` -/
def dateClasses : List (Char → Bool) := [isDigit, isDigit, isDigit, isDigit, lit '-', isDigit, isDigit, lit '-', isDigit, isDigit]

/-- `\d{2}:\d{2}:\d{2}` -/
def clockClasses : List (Char → Bool) := [isDigit, isDigit, lit ':', isDigit, isDigit, lit ':', isDigit, isDigit]

/-- `[T\s]` -/
def sepClass (c : Char) : Bool := decide (c = 'T' ∨ c = ' ' ∨ c = '\t' ∨ c = '\n' ∨ c = '\r' ∨ c.toNat = 12)

/-- value.go:2334-2346 -/
def isDate (s : List Char) : Bool := matchClasses dateClasses s = some []
@[inherit_doc isDate] def isDatetime (s : List Char) : Bool := matchClasses (dateClasses ++ sepClass :: clockClasses) s = some []
@[inherit_doc isDate] def isTime (s : List Char) : Bool := (matchClasses clockClasses s).isSome

/-- value.go:2366-2371 parseDatetime -/
def parseDatetimeV (s : List Char) : Option Int := (parseDatetime 'T' s).or (parseDatetime ' ' s)

/-- The zone of a timestamp text: Z, an offset of hours, an offset of hours and minutes, or none; the nanoseconds east
of UTC. -/
def parseZone : List Char → Option Int
  | [] => some 0
  | c :: s =>
    if c = 'Z' then if s = [] then some 0 else none
    else if c = '+' ∨ c = '-' then
      match takeDigits 2 s with
      | none => none
      | some (h, s) =>
        let m := match s with
          | [] => some 0
          | d :: t => if d = ':' then match takeDigits 2 t with
              | some (m, []) => some m
              | _ => none
            else none
        match m with
        | none => none
        | some m => if 24 < h ∨ 60 < m then none else
          let o := (h : Int) * hour + (m : Int) * minute
          some (if c = '-' then -o else o)
    else none

/-- value.go:2377-2412 parseTimestamp in UTC.  The layouts differ in the separator and the zone; the two with the
abbreviation of a zone are not modelled. -/
def parseTimestamp (s : List Char) : Option Int :=
  match parseDatePart s with
  | none => none
  | some (y, m, d, r) => match r with
    | [] => some (tDate y m d 0 0 0 0)
    | c :: r => if c = 'T' ∨ c = ' ' then match parseClockPart r with
        | none => none
        | some (k, z) => (parseZone z).map fun o => tDate y m d 0 0 0 0 + k - o
      else none

/-- StringValue.ToTime, value.go:295-308 -/
def strTime (s : List Char) : Res Int :=
  match (if isDate s then parseDate s else if isDatetime s then parseDatetimeV s else if isTime s then parseClock s
    else parseTimestamp s) with
  | some t => .ok t
  | none => .err

/-! ### The methods of values -/

/-- (Value).ToString: IntValue value.go:119, StringValue 261, BytesValue 397, NumericValue 747, BoolValue 847, DateValue
1570, DatetimeValue 1722, TimeValue 1839, TimestampValue 2006 (of a time in UTC). -/
def toStr : Val → Res (List Char)
  | .null => .panic
  | .int i => .ok (decInt i)
  | .bool b => .ok (if b then ['t', 'r', 'u', 'e'] else ['f', 'a', 'l', 's', 'e'])
  | .str s => .ok s
  | .bytes b => .ok (Base64.encode b)
  | .num r big => .ok (numText r big)
  | .time .timestamp t => .ok (dateText t ++ 'T' :: (clockText 9 t ++ ['Z']))
  | .time k t => .ok (Codec.timeText k t)
  | .arr _ => .err
  | .struct _ _ => .err

/-- (Value).ToBytes: the bytes of the text, except for BYTES (value.go:265, 401, 751, 851, 1574). -/
def toBytes : Val → Res (List UInt8)
  | .bytes b => .ok b
  | v => (toStr v).bind fun s => .ok (utf8 s)

/-- (Value).ToInt64: IntValue value.go:115, StringValue 249, BytesValue 390 (modelled for ASCII bytes), NumericValue 731,
BoolValue 840, the times 1566. -/
def toI64 : Val → Res Int
  | .str s => strInt s
  | .bytes b => if b = [] then .ok 0 else match parseInt64 (b.map fun x => Char.ofNat x.toNat) with
    | some i => .ok i
    | none => .err
  | v => toInt64 v

/-- (Value).ToBool, as in Model/Value, and for BYTES (value.go:412). -/
def toB : Val → Res Bool
  | .bytes b => if b = [] then .ok false else parseBool (b.map fun x => Char.ofNat x.toNat)
  | v => toBool v

/-- (Value).ToTime: IntValue value.go:154-160, StringValue 295; the times themselves 1602. -/
def toTime : Val → Res Int
  | .null => .panic
  | .int i => .ok (if 0 < i then i.tdiv 1000000 * 1000000000 + (i - i.tdiv 1000000 * 1000000) * 1000000
      else wrap64 (wrap64 (i * 24) * hour))
  | .str s => strTime s
  | .time _ t => .ok t
  | _ => .err

/-- (Value).ToRat: IntValue value.go:162, StringValue 310, BytesValue 444, NumericValue 789, BoolValue 882. -/
def toRat (other : List Char → Rat) : Val → Res Rat
  | .null => .panic
  | .int i => .ok (i : Rat)
  | .bool b => .ok (if b then 1 else 0)
  | .str s => .ok (setString other s)
  | .bytes b => .ok (setString other (b.map fun x => Char.ofNat x.toNat))
  | .num r _ => .ok r
  | _ => .err

/-- The loop over the elements of an array, encoder.go:427-434. -/
def castAll (f : Val → Res Val) : List Val → Res (List Val)
  | [] => .ok []
  | v :: vs => (f v).bind fun w => (castAll f vs).bind fun ws => .ok (w :: ws)

/-- The struct made of an array of structs, encoder.go:437-452. -/
def flatten : List Val → Res (List (List Char) × List Val)
  | [] => .ok ([], [])
  | .struct ks xs :: vs => (flatten vs).bind fun r => .ok (ks ++ r.1, xs ++ r.2)
  | .null :: _ => .panic
  | .str [] :: _ => .panic
  | _ :: _ => .err

mutual
/-- CastValue, encoder.go:356-506. -/
def castValue (other : List Char → Rat) : Ty → Val → Res Val
  | _, .null => .ok .null
  | .int, v => (toI64 v).bind fun i => .ok (.int i)
  | .bool, v => (toB v).bind fun b => .ok (.bool b)
  | .str, v => (toStr v).bind fun s => .ok (.str s)
  | .bytes, v => (toBytes v).bind fun b => .ok (.bytes b)
  | .num big, v => (toRat other v).bind fun r => .ok (.num r big)
  | .time k, v => (toTime v).bind fun t => .ok (.time k t)
  | .arr e, .arr vs => (castAll (castValue other e) vs).bind fun ws => .ok (.arr ws)
  | .arr _, .str [] => .panic
  | .arr _, _ => .err
  | .struct _ _, .arr vs => (flatten vs).bind fun r => .ok (.struct r.1 r.2)
  | .struct names types, .struct ks vs =>
    if ks.all fun k => decide (k = []) then .ok (.struct ks vs)
    else (castFields other names types (fun k => (List.zip ks vs).reverse.lookup k)).bind fun ws => .ok (.struct names ws)
  | .struct _ _, .str [] => .panic
  | .struct _ _, _ => .err
/-- The loop over the fields of the type, encoder.go:469-484.  `m` is the map of the struct.  The loop also writes the
cast value into that map; a later field of the same name reads it, which is not modelled (names in a type that are used
twice). -/
def castFields (other : List Char → Rat) : List (List Char) → List Ty → (List Char → Option Val) → Res (List Val)
  | k :: names, t :: types, m =>
    (match m k with
      | none => Res.ok Val.null
      | some v => castValue other t v).bind fun w => (castFields other names types m).bind fun ws => .ok (w :: ws)
  | _, _, _ => .ok []
end

/-- CAST and SAFE_CAST, function.go:513-537: the value is first cast to the type it has. -/
def cast (other : List Char → Rat) (src dst : Ty) (safe : Bool) (v : Val) : Res Val :=
  match castValue other src v with
  | .err => if safe then .ok .null else .err
  | .panic => .panic
  | .ok w => match castValue other dst w with
    | .err => if safe then .ok .null else .err
    | r => r

end Verif.Cast
