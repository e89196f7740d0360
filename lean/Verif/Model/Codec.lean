import Verif.Go.Json
import Verif.Go.TimeText
import Verif.Go.Float
import Verif.Model.Strings

/-!
# The stored form of values (internal/encoder.go, internal/decoder.go, internal/codec.go)

`encode` is EncodeValue and `decode` DecodeValue.  A value of a type SQLite does not have is stored as the base64 text of
a JSON object with a type name and a body.  FLOAT64, JSON and INTERVAL values are not represented.
-/

namespace Verif.Codec

open Go Verif.Val

/-- What is handed to SQLite, or read from it or from a JSON list: a Go interface{}.  `flt` is a float64 with an integral
value. -/
inductive Stored where
  | null
  | int (i : Int)
  | flt (n : Int)
  | bool (b : Bool)
  | text (s : List Char)
  deriving DecidableEq, Repr

/-- A value read back: `Val` and integral FLOAT64 values. -/
inductive DVal where
  | null
  | int (i : Int)
  | flt (n : Int)
  | bool (b : Bool)
  | str (s : List Char)
  | bytes (b : List UInt8)
  | num (r : Rat) (big : Bool)
  | time (k : TimeKind) (ns : Int)
  | arr (vs : List DVal)
  | struct (keys : List (List Char)) (vals : List DVal)
  deriving Repr

/-- codec.go:5-21 -/
inductive Header where
  | string | bytes | numeric | bignumeric | array | struct | date | datetime | time | timestamp
  deriving DecidableEq, Repr

/-- codec.go:5-21: the names. -/
def Header.name : Header → List Char
  | .string => ['s', 't', 'r', 'i', 'n', 'g']
  | .bytes => ['b', 'y', 't', 'e', 's']
  | .numeric => ['n', 'u', 'm', 'e', 'r', 'i', 'c']
  | .bignumeric => ['b', 'i', 'g', 'n', 'u', 'm', 'e', 'r', 'i', 'c']
  | .array => ['a', 'r', 'r', 'a', 'y']
  | .struct => ['s', 't', 'r', 'u', 'c', 't']
  | .date => ['d', 'a', 't', 'e']
  | .datetime => ['d', 'a', 't', 'e', 't', 'i', 'm', 'e']
  | .time => ['t', 'i', 'm', 'e']
  | .timestamp => ['t', 'i', 'm', 'e', 's', 't', 'a', 'm', 'p']

/-- The switch of decodeFromValueLayout, decoder.go:41-125. -/
def headerOf (s : List Char) : Option Header :=
  [Header.string, .bytes, .numeric, .bignumeric, .array, .struct, .date, .datetime, .time, .timestamp].find? fun h => h.name = s

/-- encoder.go:83-90: json.Marshal and base64. -/
def wrapText (h : Header) (body : List Char) : List Char := Base64.encode (utf8 (Json.layout h.name body))

/-- big.Rat.MarshalText -/
def ratText (r : Rat) : List Char := if r.den = 1 then decInt r.num else decInt r.num ++ '/' :: decNat r.den

/-- Rat.SetString on the two forms MarshalText writes. -/
def ratOfText (s : List Char) : Option Rat :=
  let a := s.takeWhile (· ≠ '/')
  match s.dropWhile (· ≠ '/') with
  | [] => (parseSigned a).map fun n => (n : Rat)
  | _ :: b => match parseSigned a, parseNat b with
    | some n, some d => if d = 0 then none else some (mkRat n d)
    | _, _ => none

/-- The texts of the four time types, encoder.go:633-664 and value.go:1571, 1723, 1840. -/
def timeText (k : TimeKind) (t : Int) : List Char :=
  match k with
  | .date => dateText t
  | .datetime => dateText t ++ 'T' :: clockText 6 t
  | .time => clockText 6 t
  | .timestamp => decInt (tUnixMicro t)

/-- The header of the four time types. -/
def timeHeader : TimeKind → Header
  | .date => .date
  | .datetime => .datetime
  | .time => .time
  | .timestamp => .timestamp

/-- A value in a JSON list. -/
def toScalar : Stored → Json.Scalar
  | .null => .null
  | .int i => .num i
  | .flt n => .num n
  | .bool b => .bool b
  | .text s => .str s

mutual
/-- EncodeValue with valueLayoutFromValue, encoder.go:68-90, 603-721. -/
def encode : Val → Stored
  | .null => .null
  | .int i => .int i
  | .bool b => .bool b
  | .str s => .text (wrapText .string s)
  | .bytes b => .text (wrapText .bytes (Base64.encode b))
  | .num r big => .text (wrapText (if big then .bignumeric else .numeric) (ratText r))
  | .time k t => .text (wrapText (timeHeader k) (timeText k t))
  | .arr vs => .text (wrapText .array (Json.list (encodeList vs)))
  | .struct ks vs => .text (wrapText .struct (Json.structLayout ks (encodeList vs)))
/-- The element loops, encoder.go:678-688, 698-704. -/
def encodeList : List Val → List Json.Scalar
  | [] => []
  | v :: vs => toScalar (encode v) :: encodeList vs
end

/-- The element loops of the decoder, decoder.go:92-98, 112-119. -/
def mapRes {α β} (f : α → Res β) : List α → Res (List β)
  | [] => .ok []
  | x :: xs => (f x).bind fun y => (mapRes f xs).bind fun ys => .ok (y :: ys)

/-- decoder.go:44-79: the bodies that are not nested. -/
def decodeTime (k : TimeKind) (body : List Char) : Option Int :=
  match k with
  | .date => parseDate body
  | .datetime => (parseDatetime 'T' body).or (parseDatetime ' ' body)
  | .time => parseClock body
  | .timestamp => (parseInt64 body).map fun us => us.tdiv 1000000 * 1000000000 + (us - us.tdiv 1000000 * 1000000) * 1000

/-- decodeFromValueLayout, decoder.go:41-125; `elem` reads an element of a JSON list.  A failing SetString (52, 56) is
not noticed by the code; it does not happen on stored text and is an error here.  `structLayout.Keys[i]` (117) panics when
there are fewer keys than values. -/
def decodeBody (elem : Json.Scalar → Res DVal) (h : Header) (body : List Char) : Res DVal :=
  match h with
  | .string => .ok (.str body)
  | .bytes => match Base64.decode body with | some b => .ok (.bytes b) | none => .err
  | .numeric => match ratOfText body with | some r => .ok (.num r false) | none => .err
  | .bignumeric => match ratOfText body with | some r => .ok (.num r true) | none => .err
  | .date => match decodeTime .date body with | some t => .ok (.time .date t) | none => .err
  | .datetime => match decodeTime .datetime body with | some t => .ok (.time .datetime t) | none => .err
  | .time => match decodeTime .time body with | some t => .ok (.time .time t) | none => .err
  | .timestamp => match decodeTime .timestamp body with | some t => .ok (.time .timestamp t) | none => .err
  | .array => match Json.parseList body with
    | some (xs, []) => (mapRes elem xs).bind fun vs => .ok (.arr vs)
    | _ => .err
  | .struct => match Json.parseStruct body with
    | some (ks, xs) => (mapRes elem xs).bind fun vs => if vs.length ≤ ks.length then .ok (.struct ks vs) else .panic
    | none => .err

/-- The characters of a byte string. -/
def chars (b : List UInt8) : List Char := (Strings.runes b.length b).map Char.ofNat

/-- An element of a JSON list: json.Unmarshal into interface{} makes every number a float64. -/
def ofScalar : Json.Scalar → Stored
  | .null => .null
  | .num i => .flt (f64 i)
  | .bool b => .bool b
  | .str s => .text s

/-- DecodeValue, decoder.go:13-39, with `num` for the numbers of a JSON list; `fuel` bounds the nesting. -/
def decodeWith (num : Json.Scalar → Stored) : Nat → Stored → Res DVal
  | _, .null => .ok .null
  | _, .int i => .ok (.int i)
  | _, .flt n => .ok (.flt n)
  | _, .bool b => .ok (.bool b)
  | 0, .text _ => .err
  | fuel + 1, .text s =>
    match Base64.decode s with
    | none => .err
    | some b => match Json.parseLayout (chars b) with
      | none => .err
      | some (h, body) => match headerOf h with
        | none => .err
        | some h => decodeBody (fun x => decodeWith num fuel (num x)) h body

/-- The length of a stored text: every nesting level makes the text longer. -/
def size : Stored → Nat
  | .text s => s.length
  | _ => 0

/-- What SQLite keeps of a bound parameter or function result: a bool is stored as an integer (the go-sqlite3 binding,
trusted). -/
def store : Stored → Stored
  | .bool b => .int (if b then 1 else 0)
  | s => s

/-- DecodeValue, decoder.go:13-39 -/
def decode (s : Stored) : Res DVal := decodeWith ofScalar (size s) s

end Verif.Codec
