import Verif.Go.Json
import Verif.Go.Basic

/-!
# Types in the catalog (internal/spec.go)

The types of columns, parameters and casts are kept as JSON text.  `write` is json.Marshal of newType, `read`
json.Unmarshal followed by ToZetaSQLType.  JSON objects are read with their keys in the order in which they are written,
and without spaces.
-/

namespace Verif.TypeSpec

open Go Json

/-- A type of the analyser.  `scalar` has the number of the kind, for the types that TypeFromKind knows. -/
inductive SqlType where
  | scalar (kind : Nat)
  | arr (e : SqlType)
  | struct (names : List (List Char)) (types : List SqlType)
  deriving Repr

/-- types.ARRAY -/
def kindArray : Nat := 16
/-- types.STRUCT -/
def kindStruct : Nat := 17

/-- Type, spec.go:180-186.  `elem` has at most one element (a pointer); the fields are split into names and types.
SignatureKind is not represented: it is zero in the types of columns. -/
inductive GoType where
  | mk (name : List Char) (kind : Nat) (elem : List GoType) (names : List (List Char)) (types : List GoType)
  deriving Repr

mutual
/-- newType, spec.go:560-584.  `typeName` is Type.TypeName of the analyser. -/
def newType (typeName : SqlType → List Char) : SqlType → GoType
  | .scalar k => .mk (typeName (.scalar k)) k [] [] []
  | .arr e => .mk (typeName (.arr e)) kindArray [newType typeName e] [] []
  | .struct ns ts => .mk (typeName (.struct ns ts)) kindStruct [] ns (newTypes typeName ts)
@[inherit_doc newType] def newTypes (typeName : SqlType → List Char) : List SqlType → List GoType
  | [] => []
  | t :: ts => newType typeName t :: newTypes typeName ts
end

/-- `{"name":"` -/
def kName : List Char := ['{', '"', 'n', 'a', 'm', 'e', '"', ':', '"']
/-- `,"kind":` -/
def kKind : List Char := [',', '"', 'k', 'i', 'n', 'd', '"', ':']
/-- `,"signatureKind":0,"elementType":` -/
def kElem : List Char := [',', '"', 's', 'i', 'g', 'n', 'a', 't', 'u', 'r', 'e', 'K', 'i', 'n', 'd', '"', ':', '0', ',', '"', 'e', 'l', 'e', 'm', 'e', 'n', 't', 'T', 'y', 'p', 'e', '"', ':']
/-- `,"fieldTypes":` -/
def kFields : List Char := [',', '"', 'f', 'i', 'e', 'l', 'd', 'T', 'y', 'p', 'e', 's', '"', ':']
/-- `,"type":` -/
def kType : List Char := [',', '"', 't', 'y', 'p', 'e', '"', ':']
/-- `null` -/
def kNull : List Char := ['n', 'u', 'l', 'l']

mutual
/-- json.Marshal of a Type: the tags of spec.go:180-186. -/
def marshal : GoType → List Char
  | .mk name kind elem ns ts =>
    kName ++ (name.flatMap esc ++ '"' :: (kKind ++ (decNat kind ++ (kElem ++ (marshalElem elem ++ (kFields ++ (marshalFields ns ts ++ ['}'])))))))
/-- The pointer ElementType. -/
def marshalElem : List GoType → List Char
  | [] => kNull
  | t :: _ => marshal t
/-- The slice FieldTypes: nil without fields. -/
def marshalFields (ns : List (List Char)) : List GoType → List Char
  | [] => kNull
  | t :: ts => '[' :: marshalItems ns (t :: ts)
/-- NameWithType, spec.go: one object per field, and the closing bracket. -/
def marshalItems : List (List Char) → List GoType → List Char
  | n :: ns, t :: ts => kName ++ (n.flatMap esc ++ '"' :: (kType ++ (marshal t ++ '}' :: (if ts.isEmpty then [']'] else ',' :: marshalItems ns ts))))
  | _, _ => [']']
end

/-- A name after its opening quote. -/
def nameAt (s : List Char) : Option (List Char × List Char) := match skip kName s with
  | none => none
  | some s => unquote (s.length + 1) s

/-- A natural number. -/
def numAt (s : List Char) : Option (Nat × List Char) :=
  (parseNat (s.takeWhile fun c => decide (48 ≤ c.toNat ∧ c.toNat ≤ 57))).map fun n => (n, s.dropWhile fun c => decide (48 ≤ c.toNat ∧ c.toNat ≤ 57))

mutual
/-- json.Unmarshal into a Type: the type and what follows.  The number bounds the depth and length. -/
def unmarshal : Nat → List Char → Option (GoType × List Char)
  | 0, _ => none
  | n + 1, s => match nameAt s with
    | none => none
    | some (name, s) => match skip kKind s with
      | none => none
      | some s => match numAt s with
        | none => none
        | some (kind, s) => match skip kElem s with
          | none => none
          | some s => match unmarshalElem n s with
            | none => none
            | some (elem, s) => match skip kFields s with
              | none => none
              | some s => match unmarshalFields n s with
                | none => none
                | some (ns, ts, s) => match skip ['}'] s with
                  | none => none
                  | some s => some (.mk name kind elem ns ts, s)
@[inherit_doc unmarshal] def unmarshalElem : Nat → List Char → Option (List GoType × List Char)
  | 0, _ => none
  | n + 1, s => match skip kNull s with
    | some s => some ([], s)
    | none => (unmarshal n s).map fun r => ([r.1], r.2)
@[inherit_doc unmarshal] def unmarshalFields : Nat → List Char → Option (List (List Char) × List GoType × List Char)
  | 0, _ => none
  | n + 1, s => match skip kNull s with
    | some s => some ([], [], s)
    | none => match skip ['['] s with
      | none => none
      | some s => unmarshalItems n s
@[inherit_doc unmarshal] def unmarshalItems : Nat → List Char → Option (List (List Char) × List GoType × List Char)
  | 0, _ => none
  | n + 1, s => match nameAt s with
    | none => none
    | some (name, s) => match skip kType s with
      | none => none
      | some s => match unmarshal n s with
        | none => none
        | some (t, s) => match skip ['}', ']'] s with
          | some s => some ([name], [t], s)
          | none => match skip ['}', ','] s with
            | none => none
            | some s => (unmarshalItems n s).map fun r => (name :: r.1, t :: r.2.1, r.2.2)
end

mutual
/-- ToZetaSQLType, spec.go:246-268.  ElementType of an array that is nil is dereferenced: a panic. -/
def toZeta : GoType → Res SqlType
  | .mk _ kind elem ns ts =>
    if kind = kindArray then
      match elem with
      | [] => .panic
      | e :: _ => (toZeta e).bind fun t => .ok (.arr t)
    else if kind = kindStruct then (toZetas ts).bind fun us => .ok (.struct ns us)
    else .ok (.scalar kind)
@[inherit_doc toZeta] def toZetas : List GoType → Res (List SqlType)
  | [] => .ok []
  | t :: ts => (toZeta t).bind fun u => (toZetas ts).bind fun us => .ok (u :: us)
end

/-- The text kept for a type (and returned by ColumnTypeDatabaseTypeName, rows.go:39-42). -/
def write (typeName : SqlType → List Char) (t : SqlType) : List Char := marshal (newType typeName t)

/-- The type a kept text stands for. -/
def read (s : List Char) : Res SqlType := match unmarshal (s.length + 1) s with
  | some (t, []) => toZeta t
  | _ => .err

end Verif.TypeSpec
