/-!
# Calls that SQLite makes once per statement

RegisterFunctions (internal/function_register.go:416-496) registers every SQL function with `pure` true, that is as
SQLITE_DETERMINISTIC, also RAND (internal/function_math.go:86-89), GENERATE_UUID (internal/function.go:508-511) and the functions
of the current time.  SQLite is trusted to do with them what its code generator does (sqlite3ExprCodeTarget, TK_FUNCTION, and
sqlite3ExprCodeRunJustOnce): a call of deterministic functions in which no column occurs is made the first time it is reached and
its value is kept in a register for the rest of the statement, one register for each place in the text.

Simplified: expressions consist of literals, columns and calls, and a call that fails is a value like any other (in SQLite it ends
the statement).  `W` is the state of the world that a function may read and change: the clock, the source of random numbers.
-/

namespace Verif.Once

/-- An expression as the formatter writes it; the first argument of `call` is its place in the text. -/
inductive Expr (F V : Type) where
  | lit (v : V)
  | col (i : Nat)
  | call (place : Nat) (f : F) (args : List (Expr F V))

mutual
/-- sqlite3ExprIsConstantNotJoin: no column occurs (all functions are registered as deterministic). -/
def constant {F V : Type} : Expr F V → Bool
  | .lit _ => true
  | .col _ => false
  | .call _ _ args => constants args
def constants {F V : Type} : List (Expr F V) → Bool
  | [] => true
  | e :: es => constant e && constants es
end

section
variable {F V W : Type} (run : F → List V → W → V × W) (row : Nat → V)

mutual
/-- The code of an expression without registers: every call is made. -/
def eval : Expr F V → W → V × W
  | .lit v, w => (v, w)
  | .col i, w => (row i, w)
  | .call _ f args, w => run f (evals args w).1 (evals args w).2
def evals : List (Expr F V) → W → List V × W
  | [], w => ([], w)
  | e :: es, w => ((eval e w).1 :: (evals es (eval e w).2).1, (evals es (eval e w).2).2)
end

/-- The registers of the calls made once. -/
abbrev Regs (V : Type) := Nat → Option V

def Regs.set (m : Regs V) (o : Nat) (v : V) : Regs V := fun p => if p = o then some v else m p

mutual
/-- The code SQLite generates: OP_Once before the outermost calls without columns. -/
def code : Expr F V → W × Regs V → V × W × Regs V
  | .lit v, s => (v, s)
  | .col i, s => (row i, s)
  | .call o f args, s =>
    if constants args then match s.2 o with
      | some v => (v, s)
      | none =>
        let r := eval run row (.call o f args) s.1
        (r.1, r.2, s.2.set o r.1)
    else
      let a := codes args s
      let r := run f a.1 a.2.1
      (r.1, r.2, a.2.2)
def codes : List (Expr F V) → W × Regs V → List V × W × Regs V
  | [], s => ([], s)
  | e :: es, s =>
    let a := code e s
    let b := codes es a.2
    (a.1 :: b.1, b.2)
end

end

/-- The rows of a query that selects the expressions, from the rows it reads. -/
def selected {F V W : Type} (run : F → List V → W → V × W) (es : List (Expr F V)) : List (Nat → V) → W × Regs V → List (List V)
  | [], _ => []
  | row :: rows, s => (codes run row es s).1 :: selected run es rows (codes run row es s).2

/-- A statement starts without values in the registers. -/
def query {F V W : Type} (run : F → List V → W → V × W) (es : List (Expr F V)) (rows : List (Nat → V)) (w : W) : List (List V) :=
  selected run es rows (w, fun _ => none)

end Verif.Once
