/-!
# Functions with arguments of ANY TYPE

CREATE FUNCTION with templated arguments (internal/analyzer.go:334-358 and 373-440, internal/spec.go:330-345 and 406-470) and calls of such
a function (internal/spec.go:68-93, internal/analyzer.go:247-262).

The analyzer of ZetaSQL is a parameter: the type of the body for given types of the arguments, if it has one.  Simplified: ZetaSQL's
coercions of arguments (a literal of INT64 for FLOAT64, say) are left out, so an argument matches a fixed type only if it has that type, and
all arguments of type ANY1 have one type.
-/

namespace Verif.Templated

/-- Types that are no arrays.  `struct 0` is STRUCT<>, the other numbers stand for the other struct types. -/
inductive Base where
  | int64 | double | bool | string | bytes | json | date | datetime | time | timestamp | interval | geography
  | struct (n : Nat)
  | numeric | bignumeric
deriving DecidableEq, Repr

/-- Types; there are no arrays of arrays. -/
inductive Ty where
  | one (b : Base)
  | arr (b : Base)
deriving DecidableEq, Repr

/-- Type.IsArray -/
def Ty.isArray : Ty → Bool
  | .one _ => false
  | .arr _ => true

/-- A statement CREATE FUNCTION: the declared types of the arguments (none: ANY TYPE), that of the result if there is RETURNS, and
the type of the body for given types of the arguments (none: the analyzer rejects it). -/
structure Fn where
  args : List (Option Ty)
  returns : Option Ty
  body : List Ty → Option Ty

/-- buildScalarTypeFuncFromTemplatedFunc, buildArrayTypeFuncFromTemplatedFunc (analyzer.go:408-440): every templated argument gets
the same type. -/
def Fn.at (f : Fn) (t : Ty) : List Ty := f.args.map fun a => a.getD t

/-- analyzer.go:380-385 -/
def inferTypes : List Base :=
  [.int64, .double, .bool, .string, .bytes, .json, .date, .datetime, .time, .timestamp, .interval, .geography, .struct 0]

/-- inferTemplatedTypeByRealType (analyzer.go:387-406): the types tried for the templated arguments with those of the body; none if no type
fits. -/
def infer (f : Fn) : List (Ty × Ty) :=
  let tried (g : Base → Ty) := inferTypes.filterMap fun b => (f.body (f.at (g b))).map fun r => (g b, r)
  if tried .one ≠ [] then tried .one else tried .arr

/-- An argument or a result in the signature: a fixed type, ANY1, ARRAY<ANY1>, or any type at all. -/
inductive Kind where
  | fixed (t : Ty)
  | any1
  | arrAny1
  | arbitrary
deriving DecidableEq, Repr

/-- FunctionSpec: what the catalog keeps of the signature (spec.go:33-42). -/
structure Sig where
  args : List Kind
  result : Kind
deriving DecidableEq, Repr

/-- newTypeFromFunctionArgumentType (spec.go:330-335) -/
def kindOf : Option Ty → Kind
  | some t => .fixed t
  | none => .arbitrary

/-- newTypeFromFunctionArgumentTypeByRealType (spec.go:406-414) -/
def kindBy (a : Option Ty) (real : Ty) : Kind :=
  match a with
  | some t => .fixed t
  | none => if real.isArray then .arrAny1 else .any1

/-- newCreateFunctionStmtAction (analyzer.go:334-358): newFunctionSpec (spec.go:336-404) if the type of the result is known, otherwise
newTemplatedFunctionSpec (416-470).  None: the statement fails.  A function without templated arguments and without RETURNS has the type of
its body. -/
def create (f : Fn) : Option Sig :=
  match f.returns with
  | some r => some ⟨f.args.map kindOf, .fixed r⟩
  | none =>
    if ∀ a ∈ f.args, a ≠ none then
      (f.body (f.args.filterMap id)).map fun r => ⟨f.args.map kindOf, .fixed r⟩
    else match infer f with
      | [] => none
      | (t0, r0) :: rest =>
        let result := if rest.all fun x => x.2 = r0 then .fixed r0 else kindBy none r0
        some ⟨f.args.map fun a => kindBy a (a.getD t0), result⟩

/-- Whether an argument of this type matches, ANY1 being bound to `b`. -/
def Kind.matches (b : Ty) : Kind → Ty → Bool
  | .fixed t, u => t = u
  | .any1, u => u = b
  | .arrAny1, u => match b with | .one x => u = .arr x | .arr _ => false
  | .arbitrary, _ => true

/-- The arguments of a call against the signature. -/
def matchAll (b : Ty) : List Kind → List Ty → Bool
  | [], [] => true
  | k :: ks, u :: us => k.matches b u && matchAll b ks us
  | _, _ => false

/-- The type of a result, ANY1 being bound to `b`. -/
def Kind.type (b : Ty) : Kind → Option Ty
  | .fixed t => some t
  | .any1 => some b
  | .arrAny1 => match b with | .one x => some (.arr x) | .arr _ => none
  | .arbitrary => none

/-- The analyzer gives a call with arguments of these types this type. -/
def Sig.Call (s : Sig) (us : List Ty) (r : Ty) : Prop := ∃ b, matchAll b s.args us = true ∧ s.result.type b = some r

/-- CallSQL (spec.go:68-93) and analyzeTemplatedFunctionWithRuntimeArgument (analyzer.go:247-262): the type of the expression a call is
replaced with.  The body of a function with templated arguments is analysed again with the types of the arguments, and without RETURNS; that
of another function has been converted to the declared type when the function was created. -/
def computed (f : Fn) (us : List Ty) : Option Ty :=
  if ∀ a ∈ f.args, a ≠ none then (f.body us).map fun r => f.returns.getD r else f.body us

end Verif.Templated
