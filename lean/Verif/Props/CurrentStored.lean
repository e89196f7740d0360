import Verif.Props.Current

/-!
# The current time in views and functions

C232.
-/

namespace Verif.Current

open Go Verif.Val Cast Zone

/-- C232: CURRENT_DATE and the like in the body of a function or the query of a view have the value they have in the statement that uses the function
or view. -/
def C232_full : Prop := ∀ (offset : Loc → Int → Int) (load : List Char → Option Loc) (m : Cache) (k : TimeKind) (created fixed : Option Int) (now : Int)
  (zone : Option (List Char)), stored offset load m k created fixed now zone = current offset load m k fixed now zone

/-- What is proved: this holds if WithCurrentTime is never used, or always with the same time. -/
theorem C232_partial (offset : Loc → Int → Int) (load : List Char → Option Loc) (m : Cache) (k : TimeKind) (fixed : Option Int) (now : Int)
    (zone : Option (List Char)) : stored offset load m k fixed fixed now zone = current offset load m k fixed now zone := rfl

/-- An object created with WithCurrentTime has the time of its creation for ever: right exactly if the statement that uses it has the same time
(times from 1677 to 2262, no zone). -/
theorem C232_frozen (offset : Loc → Int → Int) (load : List Char → Option Loc) (m : Cache) (k : TimeKind) (a b now : Int) (ha : InI64 a) (hb : InI64 b) :
    stored offset load m k (some a) (some b) now none = .ok (.time k a) ∧
    (stored offset load m k (some a) (some b) now none = current offset load m k (some b) now none ↔ a = b) := by
  have h : ∀ x, InI64 x → bind offset load m k now (arguments (some x) none) = .ok (.time k x) := by
    intro x hx
    simp only [arguments, Option.toList, List.map_nil, List.map_cons, List.nil_append, bind, wrap64_eq hx]
  refine ⟨h a ha, ?_⟩
  unfold stored current
  rw [h a ha, h b hb]
  simp

/-- An object created without WithCurrentTime ignores it: with the clock at another time the value is not the one asked for. -/
theorem C232_ignored (offset : Loc → Int → Int) (load : List Char → Option Loc) (m : Cache) (b now : Int) (l : Loc) (hb : InI64 b)
    (hl : (toLocation load m []).1 = some l) :
    stored offset load m .timestamp none (some b) now none = .ok (.time .timestamp now) ∧
    current offset load m .timestamp (some b) now none = .ok (.time .timestamp b) := by
  constructor
  · simp [stored, arguments, bind, hl, atTime]
  · simp only [current, arguments, Option.toList, List.map_nil, List.map_cons, List.nil_append, bind, wrap64_eq hb]

/-- A view created at one time and read at another. -/
theorem C232_full_false : ¬ C232_full := by
  intro h
  have := h (fun _ _ => 0) (fun _ => none) [] .timestamp (some 0) (some 1) 0 none
  rw [(C232_frozen _ _ _ _ 0 1 0 (by decide) (by decide)).2] at this
  exact absurd this (by decide)

example : InI64 1700000000000000000 ∧ (toLocation (fun _ => some (.fixed 0)) [] []).1 ≠ none := by decide

end Verif.Current
