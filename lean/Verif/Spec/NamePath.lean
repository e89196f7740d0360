import Verif.Model.NamePath

/-! # Specification vocabulary for name resolution (C01–C05) -/

namespace Verif.NamePath.Spec

/-- Text of a path with its components separated by dots. -/
def dotted : Path → List Char
  | [] => []
  | [c] => c
  | c :: cs => c ++ '.' :: dotted cs

/-- `qs` is the path `ps` with dots inside components expanded: no component of `qs`
contains a dot and the dotted texts agree (and neither is empty unless both are). -/
def Expands (ps qs : Path) : Prop :=
  (∀ c ∈ qs, '.' ∉ c) ∧ dotted qs = dotted ps ∧ (ps = [] ↔ qs = [])

/-- The characters that are a small ASCII letter but for case: the letter, the capital, and for s and k the long s and the Kelvin sign. -/
def variants (a : Char) : List Char :=
  a :: if 'a' ≤ a ∧ a ≤ 'z' then Char.ofNat (a.toNat - 32) :: if a = 's' then ['\u017F'] else if a = 'k' then ['\u212A'] else [] else []

/-- A word spelled like another one but for case. -/
def Spelled : List Char → List Char → Prop
  | [], [] => True
  | c :: cs, a :: as => c ∈ variants a ∧ Spelled cs as
  | _, _ => False

/-- A path mentions INFORMATION_SCHEMA before its last component. -/
def viaInformationSchema (qs : Path) : Prop := ∃ c ∈ qs.dropLast, Spelled c "information_schema".toList

end Verif.NamePath.Spec
