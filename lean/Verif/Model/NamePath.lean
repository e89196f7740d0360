/-!
# Model of `internal/name_path.go`

A path component is a list of characters, a path a list of components.
-/

namespace Verif.NamePath

abbrev Comp := List Char
abbrev Path := List Comp

/-- name_path.go:8-11 `type NamePath struct`.  `maxNum` is a Go `int` that starts
at 0 and is only ever assigned positive values (name_path.go:26-30), hence `Nat`. -/
structure NamePath where
  path : Path
  maxNum : Nat
  deriving Repr, DecidableEq

/-- The zero value, as created in analyzer.go:23-33 (`namePath: &NamePath{}`). -/
def init : NamePath := { path := [], maxNum := 0 }

/-- Case folding of one character against an ASCII letter, as done by
`strings.EqualFold` (name_path.go:19).  Besides ASCII case, Unicode simple folding
relates `ſ` (U+017F) to `s` and `K` (U+212A) to `k`; nothing else folds to ASCII. -/
def foldChar (c : Char) : Char :=
  if c = Char.ofNat 0x17F then 's'
  else if c = Char.ofNat 0x212A then 'k'
  else if 'A' ≤ c ∧ c ≤ 'Z' then Char.ofNat (c.toNat + 32)
  else c

/-- name_path.go:19 `strings.EqualFold(subPath, "information_schema")`. -/
def isInfoSchemaName (c : Comp) : Bool :=
  c.map foldChar == "information_schema".toList

/-- name_path.go:13-24 `isInformationSchema`: any component but the last. -/
def isInformationSchema (path : Path) : Bool :=
  path.dropLast.any isInfoSchemaName

/-- name_path.go:26-30 `setMaxNum`. -/
def setMaxNum (p : NamePath) (num : Int) : NamePath :=
  if 0 < num then { p with maxNum := num.toNat } else p

/-- name_path.go:32-42 `getMaxNum`. -/
def getMaxNum (p : NamePath) (path : Path) : Nat :=
  if p.maxNum = 0 then 0
  else if isInformationSchema path then p.maxNum + 1
  else p.maxNum

/-- `strings.Split(p, ".")` as used at name_path.go:47. -/
def splitDot : List Char → List Comp
  | [] => [[]]
  | c :: cs =>
    if c = '.' then [] :: splitDot cs
    else match splitDot cs with
      | [] => [[c]]
      | h :: t => (c :: h) :: t

/-- name_path.go:44-51 `normalizePath`. -/
def normalizePath (path : Path) : Path := path.flatMap splitDot

/-- The loop of name_path.go:62-71; `merged` is the accumulator. -/
def mergeLoop (path : Path) (maxNum : Nat) : Path → Path → Path
  | merged, [] => merged
  | merged, b :: bs =>
    if path.head? = some b then merged
    else if 0 < maxNum ∧ maxNum ≤ merged.length + path.length then merged
    else mergeLoop path maxNum (merged ++ [b]) bs

/-- name_path.go:53-73 `mergePath`.  The Go `append(merged, path...)` may reuse
`merged`'s backing array, which is local, so no aliasing is observable. -/
def mergePath (p : NamePath) (path₀ : Path) : Path :=
  let path := normalizePath path₀
  let maxNum := getMaxNum p path
  if 0 < maxNum ∧ path.length = maxNum then path
  else if path.length = 0 then p.path
  else mergeLoop path maxNum [] p.path ++ path

/-- name_path.go:79-81 `formatPath` = `strings.Join(path, "_")`. -/
def formatPath : Path → List Char
  | [] => []
  | [c] => c
  | c :: cs => c ++ '_' :: formatPath cs

/-- name_path.go:75-77 `format`. -/
def format (p : NamePath) (path : Path) : List Char := formatPath (mergePath p path)

/-- name_path.go:83-91 `setPath`.  The Boolean is "returned nil".  Note that the
limit is computed from the path as passed, not from the normalised one. -/
def setPath (p : NamePath) (path : Path) : NamePath × Bool :=
  let normalized := normalizePath path
  let maxNum := getMaxNum p path
  if 0 < maxNum ∧ maxNum < normalized.length then (p, false)
  else ({ p with path := normalized }, true)

/-- name_path.go:93-107 `addPath`.  Simplification: the error branch evaluates
`append(p.path, normalizedPath...)` for the message, which can write into spare
capacity of the backing array of `p.path`, never into its visible elements. -/
def addPath (p : NamePath) (path : Comp) : NamePath × Bool :=
  let normalized := normalizePath [path]
  let total := p.path.length + normalized.length
  let maxNum := getMaxNum p normalized
  if 0 < maxNum ∧ maxNum < total then (p, false)
  else ({ p with path := p.path ++ normalized }, true)

/-- The configuration calls of driver.go:110-134 (each forwards to the analyzer,
analyzer.go:118-136, which forwards to `NamePath`). -/
inductive Op where
  | setMax (n : Int)
  | set (path : Path)
  | add (path : Comp)

/-- One configuration call and whether it returned nil. -/
def step (p : NamePath) : Op → NamePath × Bool
  | .setMax n => (setMaxNum p n, true)
  | .set path => setPath p path
  | .add path => addPath p path

/-- State after a history of configuration calls on a new connection. -/
def run (ops : List Op) : NamePath := ops.foldl (fun p op => (step p op).1) init

end Verif.NamePath
