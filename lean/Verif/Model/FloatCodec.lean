import Verif.Go.F64
import Verif.Go.Basic

/-!
# FLOAT64 and JSON values in arrays and structs

internal/encoder.go:68-90 EncodeValue and valueLayoutFromValue, internal/decoder.go:13-127
for the values that `Codec` does not have: FLOAT64 and JSON, and arrays and structs of
them to any depth.  Package json (github.com/goccy/go-json) and base64 are parameters:
numbers are written so that they are read back, and a NaN or an infinity cannot be written.
-/

namespace Verif.FloatCodec

open Go

/-- SQL values made of FLOAT64 and JSON. -/
inductive FVal where
  | null
  | flt (x : F64)
  | json (s : List Char)
  | arr (vs : List FVal)
  | struct (keys : List (List Char)) (vs : List FVal)

/-- A Go interface{} as EncodeValue returns it: nil, a float64 or a text. -/
inductive Item where
  | null
  | num (x : F64)
  | text (s : List Char)
deriving DecidableEq

/-- Can json.Marshal write it? -/
def Item.ok : Item → Bool
  | .num (.fin _ _) => true
  | .num _ => false
  | _ => true

/-- codec.go:15-17: the headers that occur here. -/
inductive Header where
  | json | array | struct
deriving DecidableEq

/-- json.Marshal and json.Unmarshal of a []interface{}, of a StructValueLayout and of a ValueLayout (the last with base64 around it). -/
structure Lib where
  list : List Item → Res (List Char)
  unlist : List Char → Res (List Item)
  obj : List (List Char) → List Item → Res (List Char)
  unobj : List Char → Res (List (List Char) × List Item)
  layout : Header → List Char → List Char
  unlayout : List Char → Res (Header × List Char)
  list_ok : ∀ is, is.all Item.ok = true → ∃ t, list is = .ok t ∧ unlist t = .ok is
  list_err : ∀ is, is.all Item.ok = false → list is = .err
  obj_ok : ∀ ks is, is.all Item.ok = true → ∃ t, obj ks is = .ok t ∧ unobj t = .ok (ks, is)
  obj_err : ∀ ks is, is.all Item.ok = false → obj ks is = .err
  layout_ok : ∀ h b, unlayout (layout h b) = .ok (h, b)

mutual
/-- EncodeValue, encoder.go:68-90, with valueLayoutFromValue. -/
def encode (L : Lib) : FVal → Res Item
  | .null => .ok .null
  | .flt x => .ok (.num x)
  | .json s => .ok (.text (L.layout .json s))
  | .arr vs => (encodes L vs).bind fun is => (L.list is).bind fun b => .ok (.text (L.layout .array b))
  | .struct ks vs => (encodes L vs).bind fun is => (L.obj ks is).bind fun b => .ok (.text (L.layout .struct b))
/-- The loops over the elements and the fields in valueLayoutFromValue. -/
def encodes (L : Lib) : List FVal → Res (List Item)
  | [] => .ok []
  | v :: vs => (encode L v).bind fun i => (encodes L vs).bind fun is => .ok (i :: is)
end

/-- The loop `DecodeValue(elem)` over the elements. -/
def decodeList (d : Item → Res FVal) : List Item → Res (List FVal)
  | [] => .ok []
  | i :: is => (d i).bind fun v => (decodeList d is).bind fun vs => .ok (v :: vs)

/-- DecodeValue and decodeFromValueLayout, decoder.go:13-127; `n` bounds the depth of the
recursion.  `structLayout.Keys[i]` of a struct with too few keys is a panic. -/
def decode (L : Lib) : Nat → Item → Res FVal
  | _, .null => .ok .null
  | _, .num x => .ok (.flt x)
  | 0, .text _ => .err
  | n + 1, .text s => (L.unlayout s).bind fun
    | (.json, b) => .ok (.json b)
    | (.array, b) => (L.unlist b).bind fun is => (decodeList (decode L n) is).bind fun vs => .ok (.arr vs)
    | (.struct, b) => (L.unobj b).bind fun r =>
      if r.1.length < r.2.length then .panic else (decodeList (decode L n) r.2).bind fun vs => .ok (.struct r.1 vs)

/-- sqlite3_bind_double and sqlite3_result_double make NULL of NaN. -/
def sqlite : Item → Item
  | .num .nan => .null
  | i => i

end Verif.FloatCodec
