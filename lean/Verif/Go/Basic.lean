/-!
# Go runtime conventions

`Res α` is the outcome of a Go call: it returned a value, it returned a non-nil
`error`, or it panicked.  Error texts are not modelled (no property depends on
them).  `Verif/Go` models the language and standard library, not the repository.
-/

namespace Verif.Go

/-- Outcome of a Go call.  `err` is a non-nil `error` result (text dropped),
`panic` a run-time panic (nil dereference, index out of range, explicit). -/
inductive Res (α : Type u) where
  | ok (a : α)
  | err
  | panic
  deriving Repr, DecidableEq

namespace Res

/-- Sequencing of Go calls with the usual `if err != nil { return err }`. -/
@[inline] def bind {α β} : Res α → (α → Res β) → Res β
  | ok a, f => f a
  | err, _ => err
  | panic, _ => panic

instance : Monad Res where
  pure := ok
  bind := bind

@[simp] theorem pure_eq {α} (a : α) : (pure a : Res α) = ok a := rfl
@[simp] theorem bind_ok {α β} (a : α) (f : α → Res β) : (ok a >>= f) = f a := rfl
@[simp] theorem bind_err {α β} (f : α → Res β) : ((err : Res α) >>= f) = err := rfl
@[simp] theorem bind_panic {α β} (f : α → Res β) : ((panic : Res α) >>= f) = panic := rfl
@[simp] theorem bind'_ok {α β} (a : α) (f : α → Res β) : bind (ok a) f = f a := rfl
@[simp] theorem bind'_err {α β} (f : α → Res β) : bind (err : Res α) f = err := rfl
@[simp] theorem bind'_panic {α β} (f : α → Res β) : bind (panic : Res α) f = panic := rfl

/-- The call returned normally. -/
def isOk {α} : Res α → Bool
  | ok _ => true
  | _ => false

end Res

/-- Go's `int64` conversion: two's complement wrap-around into
`[-2^63, 2^63)`.  64-bit integers are represented as `Int` in that range. -/
def wrap64 (x : Int) : Int := (x + 9223372036854775808) % 18446744073709551616 - 9223372036854775808

/-- `x` is representable as a Go `int64`. -/
def InI64 (x : Int) : Prop := -9223372036854775808 ≤ x ∧ x ≤ 9223372036854775807

instance (x : Int) : Decidable (InI64 x) := by unfold InI64; infer_instance

theorem wrap64_inI64 (x : Int) : InI64 (wrap64 x) := by
  unfold InI64 wrap64; omega

theorem wrap64_eq {x : Int} (h : InI64 x) : wrap64 x = x := by
  unfold InI64 at h; unfold wrap64; omega

theorem wrap64_eq_iff (x : Int) : wrap64 x = x ↔ InI64 x :=
  ⟨fun h => h ▸ wrap64_inI64 x, wrap64_eq⟩

end Verif.Go
