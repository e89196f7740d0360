import Verif.Go.Basic

/-!
# MERGE (internal/analyzer.go:550-686, internal/stmt_action.go MergeStmtAction)

The statement is carried out by several SQLite statements over a table `zetasqlite_merged_table`.  Rows are lists of cells;
`none` is NULL.  The values of the cells are arbitrary: two cells are equal in SQLite when they are the same value
(`Codec.C91`).  The expressions of the statement are functions of the rows.  Column names are taken to need no quotes.
-/

namespace Verif.Merge

variable {V : Type} [DecidableEq V]

abbrev Cell (V : Type) := Option V
abbrev Row (V : Type) := List (Cell V)

/-- The `c`-th cell of a row. -/
def col (r : Row V) (c : Nat) : Cell V := (r[c]?).join

/-- SQL equality that is TRUE. -/
def keyEq : Cell V → Cell V → Bool
  | some a, some b => decide (a = b)
  | _, _ => false

/-- The three kinds of WHEN clauses. -/
inductive Kind where
  | matched
  | notBySource
  | notByTarget
  deriving DecidableEq, Repr

/-- The action of a clause.  `insert` has the new row as a function of a row of the source, and as a function of a row of
the target read by the same column names.  `update` has the columns of the target with their new values, as functions of
the source row and the target row. -/
inductive Action (V : Type) where
  | insert (f f' : Row V → Row V)
  | update (items : List (Nat × (Row V → Row V → Cell V)))
  | delete

/-- A WHEN clause; `cond` is its AND condition, on the source row and the target row. -/
structure Clause (V : Type) where
  kind : Kind
  cond : Row V → Row V → Bool
  action : Action V

/-- MERGE target USING source ON target.key = source.key: the numbers of columns of target and source, the positions of the
key columns, and the clauses. -/
structure Stmt (V : Type) where
  n : Nat
  m : Nat
  i : Nat
  j : Nat
  clauses : List (Clause V)

/-- `l LEFT JOIN r ON …`; `w` is the number of columns of `r`. -/
def leftJoin (on : Row V → Row V → Bool) (w : Nat) (L R : List (Row V)) : List (Row V) :=
  L.flatMap fun l => match R.filter (on l) with
    | [] => [l ++ List.replicate w none]
    | rs => rs.map fun r => l ++ r

/-- The table of analyzer.go:600-603: the second half has the columns of the target first, below the names of the columns of
the source. -/
def mergedTable (st : Stmt V) (S T : List (Row V)) : List (Row V) :=
  (leftJoin (fun s t => keyEq (col s st.j) (col t st.i)) st.n S T ++
    leftJoin (fun t s => keyEq (col s st.j) (col t st.i)) st.m T S).eraseDups

/-- analyzer.go:582-591: is the column of the target table taken for that of the source table?  `a` is the left operand's
table, `text` the SQL text of the source. -/
def swapped (aIsTarget : Bool) (aTable text : List Char) : Bool := aIsTarget && decide (aTable <:+: text)

/-- Which positions of the merged table hold the columns called target and source: analyzer.go:593-594. -/
def pos (st : Stmt V) (swap : Bool) : Nat × Nat := if swap then (st.j, st.m + st.i) else (st.m + st.i, st.j)

/-- analyzer.go:605-627: the condition on a row of the merged table, for the key of the outer row. -/
def from' (p : Nat × Nat) (k : Kind) (key : Cell V) (r : Row V) : Bool :=
  match k with
  | .matched => keyEq (col r p.2) key && keyEq (col r p.1) key
  | .notBySource => keyEq (col r p.1) key && (col r p.2).isNone
  | .notByTarget => keyEq (col r p.2) key && (col r p.1).isNone

/-- Assignments to columns. -/
def assign (items : List (Nat × Cell V)) (t : Row V) : Row V := items.foldl (fun t x => t.set x.1 x.2) t

/-- The statement for a clause, analyzer.go:628-683: the new rows of `A`, the table of the column called target; `B` is the
other table.  The condition of the clause is not looked at.  UPDATE … FROM takes one of the rows that fit (`pick`; SQLite
leaves open which one).  `m` is the number of columns of the source, the first ones of the merged table. -/
def clauseStmt (pick : List (Row V) → Option (Row V)) (p : Nat × Nat) (ka kb m : Nat) (swap : Bool) (merged B : List (Row V)) (A : List (Row V))
    (c : Clause V) : List (Row V) :=
  match c.action with
  | .insert f f' => A ++ ((B.filter fun b => merged.any (from' p c.kind (col b kb))).map (if swap then f' else f))
  | .update items => A.map fun a => match pick (merged.filter (from' p c.kind (col a ka))) with
      | none => a
      | some r => assign (items.map fun x => (x.1, x.2 (r.take m) (r.drop m))) a
  | .delete => A.filter fun a => !merged.any (from' p c.kind (col a ka))

/-- All clauses in order. -/
def clauses (pick : List (Row V) → Option (Row V)) (st : Stmt V) (swap : Bool) (S T : List (Row V)) : List (Row V) × List (Row V) :=
  if swap then (st.clauses.foldl (clauseStmt pick (pos st true) st.j st.i st.m true (mergedTable st S T) T) S, T)
  else (S, st.clauses.foldl (clauseStmt pick (pos st false) st.i st.j st.m false (mergedTable st S T) S) T)

/-! ### The statements one by one -/

/-- The database: the two tables, and the auxiliary table if it exists. -/
structure World (V : Type) where
  source : List (Row V)
  target : List (Row V)
  merged : Option (List (Row V))

/-- MergeStmtAction.exec, stmt_action.go:497-504, without swapped columns: CREATE TABLE fails if the table exists; `fails` tells
which of the statements of the clauses fail (constraints of the target, errors in expressions).  After a failure nothing else is
run, DROP TABLE neither.  The second component is true if the MERGE succeeded. -/
def exec (pick : List (Row V) → Option (Row V)) (st : Stmt V) (fails : Nat → Bool) (w : World V) : World V × Bool :=
  match w.merged with
  | some _ => (w, false)
  | none =>
    let tab := mergedTable st w.source w.target
    let rec go : Nat → List (Clause V) → List (Row V) → List (Row V) × Bool
      | _, [], A => (A, true)
      | k, c :: cs, A => if fails k then (A, false) else go (k + 1) cs (clauseStmt pick (pos st false) st.i st.j st.m false tab w.source A c)
    let r := go 0 st.clauses w.target
    if r.2 then ({ w with target := r.1 }, true) else ({ w with target := r.1, merged := some tab }, false)

end Verif.Merge
