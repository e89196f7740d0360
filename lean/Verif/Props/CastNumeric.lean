import Verif.Props.Cast

/-!
# C272 and C273: casts from INT64 to NUMERIC and between NUMERIC and BIGNUMERIC
-/

namespace Verif.Cast

open Go Verif.Val

/-! ### C272: INT64 to NUMERIC -/

/-- **C272** CAST and SAFE_CAST of an INT64 to NUMERIC or BIGNUMERIC is the number, and the cast back gives the INT64 again. -/
theorem C272 (other : List Char → Rat) (big safe : Bool) (i : Int) (hi : InI64 i) :
    cast other .int (.num big) safe (.int i) = .ok (.num i big) ∧
    ∀ x, cast other .int (.num big) safe (.int i) = .ok x → cast other (.num big) .int safe x = .ok (.int i) := by
  have h1 : cast other .int (.num big) safe (.int i) = .ok (.num i big) := rfl
  refine ⟨h1, fun x e => ?_⟩
  rw [h1] at e
  cases e
  show Res.ok (Val.int (wrap64 i)) = _
  rw [wrap64_eq hi]

/-- The largest INT64, as a BIGNUMERIC. -/
example : cast (fun _ => 0) .int (.num true) false (.int 9223372036854775807) = .ok (.num 9223372036854775807 true) := rfl

/-! ### C273: NUMERIC and BIGNUMERIC -/

/-- Full C273: CAST of a NUMERIC to BIGNUMERIC changes nothing; CAST of a BIGNUMERIC to NUMERIC rounds to nine decimals, halves away from
zero, and is an error if the result has more than 29 digits before the point. -/
def C273_full : Prop := ∀ (other : List Char → Rat) (r : Rat),
  cast other (.num false) (.num true) false (.num r false) = .ok (.num r true) ∧
  ∀ n : Int, Rounded 9 r n →
    cast other (.num true) (.num false) false (.num r true) = if n.natAbs < 10 ^ 38 then .ok (.num (mkRat n (10 ^ 9)) false) else .err

/-- **C273** NUMERIC to BIGNUMERIC is right; BIGNUMERIC to NUMERIC is right exactly for numbers in range with at most nine decimals: the
number is never changed. -/
theorem C273_iff (other : List Char → Rat) (r : Rat) :
    cast other (.num false) (.num true) false (.num r false) = .ok (.num r true) ∧
    cast other (.num true) (.num false) false (.num r true) = .ok (.num r false) ∧
    ∀ n : Int, (cast other (.num true) (.num false) false (.num r true) =
        (if n.natAbs < 10 ^ 38 then .ok (.num (mkRat n (10 ^ 9)) false) else .err) ↔ n.natAbs < 10 ^ 38 ∧ r = mkRat n (10 ^ 9)) := by
  have h : cast other (.num true) (.num false) false (.num r true) = .ok (.num r false) := rfl
  refine ⟨rfl, h, fun n => ?_⟩
  rw [h]
  by_cases hn : n.natAbs < 10 ^ 38
  · rw [if_pos hn]
    simp [hn]
  · rw [if_neg hn]
    simp [hn]

/-- 1/10^10 as a BIGNUMERIC stays so as a NUMERIC, instead of 0. -/
theorem C273_full_false : ¬ C273_full := by
  intro h
  have h1 := (h (fun _ => 0) (mkRat 1 (10 ^ 10))).2 0 (by unfold Rounded; decide_cbv)
  have h2 := (((C273_iff (fun _ => 0) (mkRat 1 (10 ^ 10))).2.2 0).1 h1).2
  exact absurd h2 (by decide_cbv)

/-- 2.5 has at most nine decimals. -/
example : Rounded 9 (mkRat 5 2) 2500000000 ∧ mkRat 5 2 = mkRat 2500000000 (10 ^ 9) := by
  refine ⟨by unfold Rounded; decide_cbv, by decide_cbv⟩

end Verif.Cast
