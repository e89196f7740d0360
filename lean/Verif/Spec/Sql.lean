import Verif.Model.Value

/-!
# What SQL prescribes for scalar values

Independent of the model's methods.  `Scalar` is a non-NULL SQL value of a scalar
type, `Option Scalar` a nullable one.  `Arg v x` says that the Go value `v` is
what a function registered with SQLite receives for `x`: BOOL values travel as
the SQLite integers 0 and 1 and arrive as `IntValue`.
-/

namespace Verif.Sql

open Verif.Val

/-- A non-NULL SQL value of a scalar type (FLOAT64, JSON, INTERVAL left out). -/
inductive Scalar where
  | int (i : Int)
  | bool (b : Bool)
  | str (s : List Char)
  | bytes (b : List UInt8)
  | num (r : Rat) (big : Bool)
  | time (k : TimeKind) (ns : Int)
  deriving DecidableEq

/-- Two scalars of the same SQL type. -/
def SameTy : Scalar → Scalar → Prop
  | .int _, .int _ => True
  | .bool _, .bool _ => True
  | .str _, .str _ => True
  | .bytes _, .bytes _ => True
  | .num _ p, .num _ q => p = q
  | .time k _, .time l _ => k = l
  | _, _ => False

theorem SameTy_refl (x : Scalar) : SameTy x x := by cases x <;> simp [SameTy]

theorem SameTy_symm {x y : Scalar} (h : SameTy x y) : SameTy y x := by
  cases x <;> cases y <;> first | exact h.elim | exact h.symm | trivial

/-- The SQL order of a type: numbers by value, FALSE before TRUE, strings by code
point, bytes lexicographically, dates and times chronologically. -/
def Lt : Scalar → Scalar → Prop
  | .int a, .int b => a < b
  | .bool a, .bool b => a = false ∧ b = true
  | .str a, .str b => a < b
  | .bytes a, .bytes b => a < b
  | .num a _, .num b _ => a < b
  | .time _ a, .time _ b => a < b
  | _, _ => False

/-- The order of each type is a strict linear order. -/
theorem Lt_irrefl (x : Scalar) : ¬ Lt x x := by
  cases x <;> simp only [Lt]
  · omega
  · simp
  · exact List.lt_irrefl _
  · exact List.lt_irrefl _
  · exact Rat.lt_irrefl
  · omega

theorem Lt_trans {x y z : Scalar} (h : Lt x y) (h' : Lt y z) : Lt x z := by
  cases x <;> cases y <;> simp only [Lt] at h <;> cases z <;> simp only [Lt] at h' ⊢
  · omega
  · simp_all
  · exact List.lt_trans h h'
  · exact List.lt_trans h h'
  · exact Std.lt_trans h h'
  · omega

theorem Lt_total {x y : Scalar} (h : SameTy x y) : Lt x y ∨ x = y ∨ Lt y x := by
  cases x <;> cases y <;> simp only [SameTy] at h <;> simp only [Lt]
  · rename_i a b; simp; omega
  · rename_i a b; cases a <;> cases b <;> simp
  · rename_i a b
    rcases List.le_total a b with h1 | h1 <;> rcases List.le_iff_lt_or_eq.mp h1 with h2 | h2 <;> simp_all
  · rename_i a b
    rcases List.le_total a b with h1 | h1 <;> rcases List.le_iff_lt_or_eq.mp h1 with h2 | h2 <;> simp_all
  · rename_i a p b q
    subst h
    rcases Rat.le_total (a := a) (b := b) with h1 | h1 <;> rcases Rat.le_iff_lt_or_eq.mp h1 with h2 | h2 <;> simp_all
  · rename_i k a l b
    subst h
    simp; omega

/-- `v` is the argument a registered function receives for `x`. -/
inductive Arg1 : Val → Scalar → Prop where
  | int (i) : Arg1 (.int i) (.int i)
  | true : Arg1 (.int 1) (.bool true)
  | false : Arg1 (.int 0) (.bool false)
  | str (s) : Arg1 (.str s) (.str s)
  | bytes (b) : Arg1 (.bytes b) (.bytes b)
  | num (r big) : Arg1 (.num r big) (.num r big)
  | time (k ns) : Arg1 (.time k ns) (.time k ns)

/-- The same for nullable values. -/
inductive Arg : Val → Option Scalar → Prop where
  | null : Arg .null none
  | some {v x} : Arg1 v x → Arg v (some x)

/-- Two nullable scalars of one type. -/
def SameTyN : Option Scalar → Option Scalar → Prop
  | some x, some y => SameTy x y
  | _, _ => True

/-- An SQL truth value, `none` for NULL. -/
abbrev Tri := Option Bool

/-- `v` is a truth value as a registered function receives it, either straight
from SQLite (0/1) or as a BOOL taken out of an array or struct. -/
inductive ArgTri : Val → Tri → Prop where
  | null : ArgTri .null none
  | true : ArgTri (.bool true) (some Bool.true)
  | false : ArgTri (.bool false) (some Bool.false)
  | one : ArgTri (.int 1) (some Bool.true)
  | zero : ArgTri (.int 0) (some Bool.false)

/-- Kleene conjunction. -/
def kAnd : Tri → Tri → Tri
  | some Bool.false, _ => some Bool.false
  | _, some Bool.false => some Bool.false
  | some Bool.true, some Bool.true => some Bool.true
  | _, _ => none

/-- Kleene disjunction. -/
def kOr : Tri → Tri → Tri
  | some Bool.true, _ => some Bool.true
  | _, some Bool.true => some Bool.true
  | some Bool.false, some Bool.false => some Bool.false
  | _, _ => none

/-- Kleene negation. -/
def kNot : Tri → Tri
  | some b => some (!b)
  | none => none

/-- The Go value a function returns for a truth value. -/
def ofTri : Tri → Val
  | some b => .bool b
  | none => .null

end Verif.Sql

namespace Verif.Logic

/-- Element-wise relation of two lists. -/
inductive All2 {α β} (R : α → β → Prop) : List α → List β → Prop where
  | nil : All2 R [] []
  | cons {a b as bs} : R a b → All2 R as bs → All2 R (a :: as) (b :: bs)

end Verif.Logic
