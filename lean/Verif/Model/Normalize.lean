import Verif.Go.Strings
import Verif.Model.Cast
import Verif.Model.Logic

/-!
# NORMALIZE, NORMALIZE_AND_CASEFOLD, COLLATE and CONTAINS_SUBSTR

internal/function_string.go:69-112 and 456-483, their binders
internal/function_bind.go:770-813 and 1007-1049.  golang.org/x/text/unicode/norm and the
tables of package unicode are parameters.
-/

namespace Verif.Normalize

open Go Verif.Val Verif.Cast Verif.Logic

/-- The normalization forms of Unicode. -/
inductive Form where
  | nfc | nfd | nfkc | nfkd
deriving DecidableEq, Repr

/-- golang.org/x/text/unicode/norm and unicode.ToLower.  Assumed are: the laws of the
forms that define canonical and compatibility equivalence (Unicode Standard Annex
15), ASCII texts are in every form, and a few entries of the tables. -/
structure Lib where
  norm : Form → List Char → List Char
  lower : Char → Char
  idem : ∀ f s, norm f (norm f s) = norm f s
  canon : ∀ s t, norm .nfc s = norm .nfc t ↔ norm .nfd s = norm .nfd t
  compat : ∀ s t, norm .nfkc s = norm .nfkc t ↔ norm .nfkd s = norm .nfkd t
  ascii : ∀ f s, (∀ c ∈ s, c.toNat < 128) → norm f s = s
  lower_ascii : ∀ c : Char, c.toNat < 128 → lower c = if 65 ≤ c.toNat ∧ c.toNat ≤ 90 then Char.ofNat (c.toNat + 32) else c
  /-- U+00DF LATIN SMALL LETTER SHARP S -/
  lower_sharp : lower 'ß' = 'ß'
  norm_sharp : ∀ f, norm f ['ß'] = ['ß']
  /-- U+03A3, U+03C3, U+03C2: capital, small and final sigma -/
  lower_sigma : lower 'Σ' = 'σ'
  lower_final : lower 'ς' = 'ς'
  norm_sigma : ∀ f, norm f ['σ'] = ['σ']
  norm_final : ∀ f, norm f ['ς'] = ['ς']
  /-- U+1D400 MATHEMATICAL BOLD CAPITAL A has no lower case and is compatible with A. -/
  lower_bold : lower '𝐀' = '𝐀'
  norm_bold : norm .nfkc ['𝐀'] = ['A'] ∧ norm .nfkd ['𝐀'] = ['A']

/-- The switch over the names of the forms, function_string.go:457-466 and 472-481. -/
def form (mode : List Char) : Option Form :=
  if mode = ['N', 'F', 'C'] then some .nfc
  else if mode = ['N', 'F', 'D'] then some .nfd
  else if mode = ['N', 'F', 'K', 'C'] then some .nfkc
  else if mode = ['N', 'F', 'K', 'D'] then some .nfkd
  else none

/-- function_string.go:456-468 NORMALIZE -/
def normalize (L : Lib) (v mode : List Char) : Res Val :=
  match form mode with
  | some f => .ok (.str (L.norm f v))
  | none => .err

/-- function_string.go:470-483 NORMALIZE_AND_CASEFOLD; strings.ToLower maps the characters one by one. -/
def normalizeFold (L : Lib) (v mode : List Char) : Res Val :=
  let v := v.map L.lower
  match form mode with
  | some f => .ok (.str (L.norm f v))
  | none => .err

/-- function_bind.go:1007-1027 bindNormalize and 1029-1049 bindNormalizeAndCasefold around `f`. -/
def bindNorm (f : List Char → List Char → Res Val) (args : List Val) : Res Val :=
  match args with
  | [a] => if existsNull [a] then .ok .null else (toStr a).bind fun v => f v ['N', 'F', 'C']
  | [a, b] =>
    if existsNull [a, b] then .ok .null
    else (toStr b).bind fun mode => (toStr a).bind fun v => f v mode
  | _ => .err

/-- function_string.go:69-88 COLLATE: the collation key is computed and dropped. -/
def collate (v spec : List Char) : Res Val :=
  match split spec [':'] with
  | [_, attr] => if attr = ['c', 'i'] then .ok (.str v) else .err
  | _ => .err

/-- function_bind.go:770-789 bindCollate -/
def bindCollate (args : List Val) : Res Val :=
  match args with
  | [a, b] =>
    if a.isNull then .ok .null else if b.isNull then .err
    else (toStr a).bind fun v => (toStr b).bind fun spec => collate v spec
  | _ => .err

/-- function_string.go:110-112 CONTAINS_SUBSTR -/
def containsSubstr (_v : Val) (_search : List Char) : Res Val := .ok .null

/-- function_bind.go:801-813 bindContainsSubstr -/
def bindContainsSubstr (args : List Val) : Res Val :=
  match args with
  | a :: b :: _ =>
    if b.isNull then .err else if existsNull args then .ok .null
    else (toStr b).bind fun s => containsSubstr a s
  | _ => .panic

end Verif.Normalize
