import Verif.Model.ToJson
import Verif.Spec.Json
import Verif.Go.FloatText

/-!
# JSON functions (internal/function_json.go, JsonValue in internal/value.go, their binders in internal/function_bind.go)

The JSON library is a parameter: which values a path selects, and how it reads and compacts texts, is the library's.
What it decodes into an interface is a `Json` of the specification.  Not represented: −0 (a JSON number is a rational
number here, the code has a float64), JSON_FIELD and JSON_SUBSCRIPT (see Model/JsonField.lean).
-/

namespace Verif.JsonFuncs

open Go JsonSpec ToJson

/-- github.com/goccy/go-json, the functions used, and fmt.Sprint of the float64 of a number. -/
structure Lib where
  Path : Type
  /-- json.CreatePath -/
  create : List Char → Res Path
  /-- (*Path).UsedDoubleQuotePathSelector, UsedSingleQuotePathSelector -/
  dq : Path → Bool
  sq : Path → Bool
  /-- (*Path).Unmarshal into []interface{} -/
  unmarshal : Path → List Char → Res (List Json)
  /-- (*Path).Extract -/
  extract : Path → List Char → Res (List (List Char))
  /-- json.Compact -/
  compact : List Char → Res (List Char)
  /-- json.Unmarshal into []json.RawMessage -/
  raws : List Char → Res (List (List Char))
  /-- json.Unmarshal into interface{} -/
  decode : List Char → Res Json
  /-- fmt.Sprint of the float64 nearest to a number -/
  sprint : Rat → List Char
  /-- fmt.Sprint of a map or a slice -/
  sprintAny : Json → List Char

/-- fmt.Sprint of what json.Unmarshal puts into an interface{}: nil, bool, float64, string.  Maps and slices do not get
here but in STRING (function_json.go:103, 230, 172, 299). -/
def sprintJson (L : Lib) : Json → List Char
  | .null => ['<', 'n', 'i', 'l', '>']
  | .bool b => if b then ['t', 'r', 'u', 'e'] else ['f', 'a', 'l', 's', 'e']
  | .num r => L.sprint r
  | .str s => s
  | x => L.sprintAny x

/-- `reflect.ValueOf(v).Type().Kind()` is Map or Slice. -/
def isMapOrSlice : Json → Bool
  | .arr _ => true
  | .obj _ => true
  | _ => false

/-- `reflect.ValueOf(v).IsValid()` -/
def isValid : Json → Bool
  | .null => false
  | _ => true

/-- `reflect.ValueOf(v).Type()`: panics for nil. -/
def typed {α} (v : Json) (k : Res α) : Res α := if isValid v then k else .panic

/-- function_json.go:210-234 JSON_VALUE -/
def jsonValue (L : Lib) (v path : List Char) : Res (Option (List Char)) :=
  (L.create path).bind fun p =>
    if L.sq p then .err
    else (L.unmarshal p v).bind fun
      | [] => .ok none
      | x :: _ =>
        if isValid x = false then .ok none
        else typed x (if isMapOrSlice x then .ok none else .ok (some (sprintJson L x)))

/-- function_json.go:86-107 JSON_EXTRACT_SCALAR -/
def jsonExtractScalar (L : Lib) (v path : List Char) : Res (Option (List Char)) :=
  (L.create path).bind fun p =>
    if L.dq p then .err
    else (L.unmarshal p v).bind fun
      | [] => .ok none
      | x :: _ => typed x (if isMapOrSlice x then .ok none else .ok (some (sprintJson L x)))

/-- The loops function_json.go:167-180 and 294-307; the outer `none` is the early `return nil, nil`. -/
def scalarLoop (L : Lib) : List Json → Res (Option (List (Option (List Char))))
  | [] => .ok (some [])
  | x :: xs => typed x
    (if isMapOrSlice x then .ok none
     else (scalarLoop L xs).bind fun
      | none => .ok none
      | some ts => .ok (some ((if sprintJson L x = nullText then none else some (sprintJson L x)) :: ts)))

/-- From `p.Unmarshal` on, function_json.go:153-182 and 280-309: a library error gives NULL. -/
def scalarArray (L : Lib) (p : L.Path) (v : List Char) : Res (Option (List (Option (List Char)))) :=
  match L.unmarshal p v with
  | .panic => .panic
  | .err => .ok none
  | .ok [] => .ok none
  | .ok (x :: _) => match x with
    | .arr xs => scalarLoop L xs
    | _ => .ok none

/-- function_json.go:272-309 JSON_VALUE_ARRAY -/
def jsonValueArray (L : Lib) (v path : List Char) : Res (Option (List (Option (List Char)))) :=
  (L.create path).bind fun p => if L.sq p then .err else scalarArray L p v

/-- function_json.go:145-182 JSON_EXTRACT_STRING_ARRAY -/
def jsonExtractStringArray (L : Lib) (v path : List Char) : Res (Option (List (Option (List Char)))) :=
  (L.create path).bind fun p => if L.dq p then .err else scalarArray L p v

/-- From `p.Extract` on, function_json.go:68-84 and 192-208. -/
def queryText (L : Lib) (p : L.Path) (v : List Char) : Res (Option (List Char)) :=
  (L.extract p v).bind fun
    | [] => .ok none
    | t :: _ => (L.compact t).bind fun c => if c = nullText then .ok none else .ok (some c)

/-- function_json.go:184-208 JSON_QUERY -/
def jsonQuery (L : Lib) (v path : List Char) : Res (Option (List Char)) :=
  (L.create path).bind fun p => if L.sq p then .err else queryText L p v

/-- function_json.go:60-84 JSON_EXTRACT -/
def jsonExtract (L : Lib) (v path : List Char) : Res (Option (List Char)) :=
  (L.create path).bind fun p => if L.dq p then .err else queryText L p v

/-- From `p.Extract` on, function_json.go:117-143 and 244-270. -/
def queryTexts (L : Lib) (p : L.Path) (v : List Char) : Res (Option (List (Option (List Char)))) :=
  (L.extract p v).bind fun
    | [] => .ok none
    | t :: _ =>
      let content := t.dropWhile (· = ' ')
      if content ≠ [] ∧ content.head? ≠ some '[' then .ok none
      else (L.raws content).bind fun vs => .ok (some (vs.map fun x => if x = nullText then none else some x))

/-- function_json.go:236-270 JSON_QUERY_ARRAY -/
def jsonQueryArray (L : Lib) (v path : List Char) : Res (Option (List (Option (List Char)))) :=
  (L.create path).bind fun p => if L.sq p then .err else queryTexts L p v

/-- function_json.go:109-143 JSON_EXTRACT_ARRAY -/
def jsonExtractArray (L : Lib) (v path : List Char) : Res (Option (List (Option (List Char)))) :=
  (L.create path).bind fun p => if L.dq p then .err else queryTexts L p v

/-- The binders function_bind.go:1384-1495: existsNull, then the function. -/
def bound {α} (f : List Char → List Char → Res (Option α)) (v path : Option (List Char)) : Res (Option α) :=
  match v, path with
  | some v, some path => f v path
  | _, _ => .ok none

/-- function_json.go:311-317 PARSE_JSON: the mode is not used, the text is kept. -/
def parseJson (L : Lib) (s _mode : List Char) : Res (List Char) := (L.decode s).bind fun _ => .ok s

/-- value.go:988-994 (JsonValue).Interface: nil if the text is not JSON. -/
def interface (L : Lib) (s : List Char) : Json :=
  match L.decode s with
  | .ok j => j
  | _ => .null

/-- value.go:996-1014 reflectTypeToJsonType, of the types json.Unmarshal makes. -/
def kindText : Json → List Char
  | .num _ => ['n', 'u', 'm', 'b', 'e', 'r']
  | .str _ => ['s', 't', 'r', 'i', 'n', 'g']
  | .bool _ => ['b', 'o', 'o', 'l', 'e', 'a', 'n']
  | .arr _ => ['a', 'r', 'r', 'a', 'y']
  | .obj _ => ['o', 'b', 'j', 'e', 'c', 't']
  | .null => ['u', 'n', 'k', 'n', 'o', 'w', 'n']

/-- function_json.go:335-337 JSON_TYPE and value.go:1016-1022 (JsonValue).Type -/
def jsonType (L : Lib) (s : List Char) : Res (List Char) :=
  if s = nullText then .ok nullText else typed (interface L s) (.ok (kindText (interface L s)))

/-- function_bind.go:2462-2472 STRING(json): the text fmt.Sprint gives, whatever the JSON is. -/
def stringOfJson (L : Lib) (s : List Char) : Res (List Char) := .ok (sprintJson L (interface L s))

end Verif.JsonFuncs
