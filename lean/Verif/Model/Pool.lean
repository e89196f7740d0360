import Verif.Model.Memory

/-!
# Opening and closing connections to `:memory:` (driver.go:40-98, 234-236)

The `*sql.DB` of SQLite that belongs to a name is made once and never closed (driver.go:40-57).  A connection takes one of its
connections (driver.go:83-84) and gives it back when it is closed (driver.go:234-236): package database/sql keeps up to two of them idle and
gives one of these to the next that asks.  Each has a database in memory of its own.

Simplified as `Memory`; connections have numbers, and a number is that of at most one open connection.
-/

namespace Verif.Memory

open Go

/-- Which of the idle connections package database/sql takes (the first or the last, depending on its version). -/
structure Pick where
  pick : List Nat → Nat
  mem : ∀ l, l ≠ [] → pick l ∈ l

/-- What connection `c` is told to do. -/
inductive Event (N V : Type) where
  | opens (c : Nat)
  | call (c : Nat) (x : Call N V)
  | closes (c : Nat)

section
variable {N V : Type} [DecidableEq N]

/-- The catalog and the databases in memory, by the number of their connection of SQLite; which of these each open connection holds; the
idle ones; and the number of the next. -/
structure PSt (N V : Type) where
  st : St N V
  held : Nat → Option Nat
  idle : List Nat
  next : Nat

/-- `ZetaSQLiteDriver.Open` (driver.go:63-98), the statements, and `ZetaSQLiteConn.Close` (driver.go:234-236), which keeps at most two
connections idle (DefaultMaxIdleConns of database/sql). -/
def pstep (P : Pick) (s : PSt N V) : Event N V → PSt N V × Res (List V)
  | .opens c => match s.held c with
    | some _ => (s, .err)
    | none =>
      if s.idle = [] then ({ s with held := fun d => if d = c then some s.next else s.held d, next := s.next + 1 }, .ok [])
      else ({ s with held := fun d => if d = c then some (P.pick s.idle) else s.held d,
                     idle := s.idle.filter (· ≠ P.pick s.idle) }, .ok [])
  | .call c x => match s.held c with
    | none => (s, .err)
    | some k => ({ s with st := (step .memory k s.st x).1 }, (step .memory k s.st x).2)
  | .closes c => match s.held c with
    | none => (s, .err)
    | some k => ({ s with held := fun d => if d = c then none else s.held d,
                          idle := if s.idle.length < 2 then s.idle ++ [k] else s.idle }, .ok [])

/-- What the events of a history return. -/
def prun (P : Pick) : PSt N V → List (Event N V) → List (Res (List V))
  | _, [] => []
  | s, e :: h => (pstep P s e).2 :: prun P (pstep P s e).1 h

/-- Nothing has been opened yet. -/
def PSt.empty : PSt N V := { st := .empty, held := fun _ => none, idle := [], next := 0 }

end

end Verif.Memory
