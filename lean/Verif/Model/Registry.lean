import Verif.Go.Basic
import Verif.Model.FuncTable

/-!
# Registration of scalar functions (internal/function_register.go:378-545)

`Bind` names a bind function (its Go identifier).  A function registered with
SQLite is either the plain or the SAFE wrapper of one.  SQLite keeps the last
registration of a name.
-/

namespace Verif.Registry

open Go

abbrev Name := List Char

/-- A registered Go closure: `plain b` function_register.go:503-514, `safe b` 515-530. -/
inductive Impl where
  | plain (b : Name)
  | safe (b : Name)
  deriving DecidableEq, Repr

/-- `"zetasqlite_"` -/
def pfx : Name := ['z','e','t','a','s','q','l','i','t','e','_']
/-- `"safe_"` -/
def safePfx : Name := ['s','a','f','e','_']

/-- function_register.go:499-531 setupNormalFuncMap: the two closures of an entry. -/
def entryImpls (n b : Name) : List (Name × Impl) := [(pfx ++ n, .plain b), (pfx ++ (safePfx ++ n), .safe b)]

/-- `normalFuncMap[n]` after setup: the closures of all entries named `n`, in table order. -/
def mapEntry (table : List (Name × Name)) (n : Name) : List (Name × Impl) :=
  (table.filter fun e => e.1 = n).flatMap fun e => entryImpls e.1 e.2

/-- function_register.go:471-477: ranging over `normalFuncMap` visits every key
once, in an arbitrary order, and registers its closures. -/
def registrations (table : List (Name × Name)) (order : List Name) : List (Name × Impl) :=
  order.flatMap (mapEntry table)

/-- A possible iteration order of the map: every name of the table once. -/
def IsOrder (table : List (Name × Name)) (order : List Name) : Prop :=
  order.Nodup ∧ ∀ n, n ∈ order ↔ n ∈ table.map Prod.fst

/-- What SQLite calls for a name: the last registration. -/
def resolve (regs : List (Name × Impl)) (n : Name) : Option Impl :=
  match regs.reverse.find? fun r => r.1 = n with
  | some r => some r.2
  | none => none

/-- formatter.go:151-158: the SQLite name of a call, with or without `SAFE.` -/
def calledName (safe : Bool) (n : Name) : Name := if safe then pfx ++ (safePfx ++ n) else pfx ++ n

/-- Running a registered closure (function_register.go:503-530).  `V` is the type
of stored values, `W` of Go values; `none` is SQL NULL. -/
def call {V W : Type} (dec : V → Res W) (enc : W → Res V) (null : V) (bind : Name → List W → Res W) (f : Impl) (args : List V) : Res V :=
  (args.mapM dec).bind fun values =>
    match f with
    | .plain b => (bind b values).bind enc
    | .safe b => match bind b values with
      | .ok r => enc r
      | .err => .ok null
      | .panic => .panic

end Verif.Registry
