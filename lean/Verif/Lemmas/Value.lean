import Verif.Spec.Sql
import Verif.Model.Logic

/-! # Comparison methods on scalar arguments -/

namespace Verif.Val

open Go Verif.Sql

/-- What a comparison method means in terms of the SQL order. -/
def OpHolds : Op → Scalar → Scalar → Prop
  | .eq, x, y => x = y
  | .gt, x, y => Lt y x
  | .gte, x, y => Lt y x ∨ x = y
  | .lt, x, y => Lt x y
  | .lte, x, y => Lt x y ∨ x = y

theorem utf8_eq_iff (a b : List Char) : utf8 a = utf8 b ↔ a = b := ⟨utf8_injective, fun h => h ▸ rfl⟩

theorem cmp_scalar (op : Op) {a b : Val} {x y : Scalar} (ha : Arg1 a x) (hb : Arg1 b y) (h : SameTy x y) :
    ∃ r, cmp op a b = .ok r ∧ (r = true ↔ OpHolds op x y) := by
  cases ha <;> cases hb <;> simp only [SameTy] at h <;>
    simp only [cmp, cmpAux, cmpLeaf, toInt64, Res.bind'_ok, Res.ok.injEq, exists_eq_left'] <;>
    (try subst h) <;> cases op <;>
    simp [Op.run, OpHolds, Lt, utf8_lt_iff, utf8_eq_iff]

theorem _root_.Verif.Sql.Arg1.not_null {v x} (h : Arg1 v x) : v.isNull = false := by cases h <;> rfl

theorem _root_.Verif.Sql.Arg.isNull_iff {v x} (h : Arg v x) : v.isNull = x.isNone := by
  cases h with
  | null => rfl
  | some h => rw [h.not_null]; rfl

end Verif.Val

namespace Verif.Logic
open Go Verif.Val Verif.Sql

theorem existsNull_eq (vs : List Val) : existsNull vs = vs.any Val.isNull := by
  induction vs with
  | nil => rfl
  | cons v vs ih => simp [existsNull, ih]

end Verif.Logic
