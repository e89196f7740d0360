import Verif.Model.Current
import Verif.Lemmas.Cast
import Verif.Props.TimeZone

/-!
# The current time: C76, C112
-/

namespace Verif.Current

open Go Verif.Val Cast Zone

/-! ### C76 -/

/-- C76: with WithCurrentTime(t), the functions give `t`, in UTC or in the zone that is the argument. -/
def C76_full : Prop := ∀ (offset : Loc → Int → Int) (load : List Char → Option Loc) (hist : List (List Char)) (k : TimeKind) (t now : Int),
  current offset load (after load hist) k (some t) now none = .ok (.time k t) ∧
  ∀ z l, (toLocation load (after load hist) z).1 = some l →
    current offset load (after load hist) k (some t) now (some z) = .ok (.time k (if k = .timestamp then t else t + offset l t * 1000000000))

/-- C76, partial: right without a zone from 1677 to 2262, the range of UnixNano, and only there.  A call with a
zone is an error unless the zone is the text of an integer.  Missing: other times and all zones. -/
theorem C76_partial (offset : Loc → Int → Int) (load : List Char → Option Loc) (m : Cache) (k : TimeKind) (t now : Int) :
    (current offset load m k (some t) now none = .ok (.time k t) ↔ InI64 t) ∧
    (∀ z, strInt z = .err → current offset load m k (some t) now (some z) = .err) := by
  constructor
  · have e : current offset load m k (some t) now none = .ok (.time k (wrap64 t)) := rfl
    rw [e]
    constructor
    · intro h
      injection h with h
      injection h with _ h
      rw [← h]
      exact wrap64_inI64 t
    · intro h
      rw [wrap64_eq h]
  · intro z hz
    have e : current offset load m k (some t) now (some z) = (strInt z).bind fun n => (toStr (.int (wrap64 t))).bind fun z => match (toLocation load m z).1 with
      | some l => .ok (atTime offset k l n)
      | none => .err := rfl
    rw [e, hz]
    rfl

/-- CURRENT_DATE("+09:00") with a fixed time is an error. -/
theorem C76_full_false : ¬ C76_full := by
  intro h
  have h1 := (h (fun l _ => match l with | .fixed o => o | .db _ => 0) (fun _ => none) [] .date 0 0).2 ['+', '0', '9', ':', '0', '0'] (.fixed 32400) (by decide)
  rw [(C76_partial _ _ _ _ 0 0).2 _ (by rfl)] at h1
  cases h1

/-- Times after 2262 come out wrong even without a zone. -/
theorem C76_range_false : ¬ ∀ (offset : Loc → Int → Int) (load : List Char → Option Loc) (m : Cache) (k : TimeKind) (t now : Int),
    current offset load m k (some t) now none = .ok (.time k t) := by
  intro h
  have h1 := (C76_partial (fun _ _ => 0) (fun _ => none) [] .date 9223372036854775808 0).1.1 (h _ _ _ _ _ _)
  revert h1
  decide

/-- Without WithCurrentTime a zone is respected. -/
theorem C76_now (offset : Loc → Int → Int) (load : List Char → Option Loc) (m : Cache) (k : TimeKind) (now : Int) (z : List Char) (l : Loc)
    (h : (toLocation load m z).1 = some l) :
    current offset load m k none now (some z) = .ok (.time k (if k = .timestamp then now else now + offset l now * 1000000000)) := by
  have e : current offset load m k none now (some z) = match (toLocation load m z).1 with
    | some l => .ok (atTime offset k l now)
    | none => .err := rfl
  rw [e, h]
  rfl

example : InI64 1700000000000000000 ∧ strInt ['A', 's', 'i', 'a', '/', 'T', 'o', 'k', 'y', 'o'] = .err ∧ strInt ['+', '0', '9', ':', '0', '0'] = .err :=
  ⟨by decide, by rfl, by rfl⟩

/-! ### C112: one current time per query -/

/-- C112: two calls of the same function in one query give the same value, whenever they are evaluated.  `now` and `now'` are the
clock at the two evaluations. -/
def C112_full : Prop := ∀ (offset : Loc → Int → Int) (load : List Char → Option Loc) (m : Cache) (k : TimeKind) (fixed : Option Int) (now now' : Int)
    (zone : Option (List Char)), now ≤ now' → current offset load m k fixed now zone = current offset load m k fixed now' zone

/-- The clock is read at each evaluation. -/
theorem C112_full_false : ¬ C112_full := by
  intro h
  have := h (fun _ _ => 0) (fun _ => some (.fixed 0)) [] .timestamp none 0 1 none (by decide)
  have e : ∀ now, current (fun _ _ => 0) (fun _ => some (.fixed 0)) [] .timestamp none now none = .ok (.time .timestamp now) := fun _ => rfl
  rw [e, e] at this
  cases this

/-- C112, partial: right with WithCurrentTime.  Missing: without it, the clock is read at each evaluation. -/
theorem C112_partial (offset : Loc → Int → Int) (load : List Char → Option Loc) (m : Cache) (k : TimeKind) (t now now' : Int) (zone : Option (List Char)) :
    current offset load m k (some t) now zone = current offset load m k (some t) now' zone := by
  cases zone <;> rfl

end Verif.Current
