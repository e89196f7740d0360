import Verif.Go.Basic
import Verif.Go.Strconv

/-!
# The translation of queries (internal/formatter.go)

A query is given as the tree of scans which the analyzer resolved (`Scan`, `Expr`), and is translated to the text of a SQLite
query.  The text is modelled as a list of tokens (`Tok`): a text in parentheses is one token holding the tokens between the
parentheses, and what one `Sprintf` writes as a unit (`SELECT` with its list, `WHERE` with its expression, …) is one token.
`evalQ` is what SQLite makes of the tokens: they are parsed, and a list which is no query has no value.  The meaning of a
resolved query, which does not speak of names or texts, is `evalS`.

The scalar functions, the aggregate functions, literals and the order of values are parameters (`Sem`).

Simplified: an entry of `columnRefMap` is used by the node which made it (the columns of a resolved query have different
identifiers); CASE, IF and IFNULL are written as calls; the rows of a table expression without ORDER BY have the order in
which nested loops yield them; a name which two tables of a FROM clause have denotes the first (SQLite reports an error; the
columns of a resolved query have different names); names are case sensitive; `*` leaves out the columns of `json_each`,
which no text refers to; CTEs are evaluated in the order they are written; an aggregate function whose arguments refer to
columns, but to none of the SELECT it is in, has no value (SQLite takes it for an aggregate of an outer SELECT).  Not modelled
here: wildcard tables (`Model/Wildcard`).
-/

namespace Verif.Query

/-! ## Resolved queries -/

/-- A column of a resolved query: `ast.Column` with its name and identifier. -/
structure Col where
  name : List Char
  id : Nat
  deriving DecidableEq, Repr

/-- The name of a table or of a WITH query. -/
abbrev TName := List Char

/-- Join types (formatter.go:654-664). -/
inductive JK where
  | cross | inner | left | right | full
  deriving DecidableEq, Repr

/-- Set operations (formatter.go:908-924). -/
inductive SetOp where
  | unionAll | union | intersectAll | intersect | exceptAll | except
  deriving DecidableEq, Repr

/-- The order of NULLs an ORDER BY item asks for (`ast.NullOrderMode`). -/
inductive NullOrder where
  | unspecified | first | last
  deriving DecidableEq, Repr

/-- An item of ORDER BY. -/
structure OrdItem where
  col : Col
  desc : Bool
  nulls : NullOrder
  deriving DecidableEq, Repr

mutual
/-- Resolved expressions; literals and functions are numbered. -/
inductive Expr where
  | col (c : Col)
  | lit (k : Nat)
  | call (f : Nat) (args : Exprs)
  | scalar (s : Scan)
  | exists_ (s : Scan)
  | inq (e : Expr) (s : Scan)
  | arr (s : Scan)

inductive Exprs where
  | nil
  | cons (e : Expr) (es : Exprs)

inductive OExpr where
  | none
  | some (e : Expr)

/-- Computed columns. -/
inductive CExprs where
  | nil
  | cons (c : Col) (e : Expr) (es : CExprs)

/-- Computed aggregate columns. -/
inductive Aggs where
  | nil
  | cons (c : Col) (f : Nat) (args : Exprs) (as : Aggs)

/-- The analytic functions of a scan, those of one function group after those of another; each with the PARTITION BY
columns and the ORDER BY items of its group. -/
inductive Wins where
  | nil
  | cons (c : Col) (f : Nat) (args : Exprs) (parts : List Col) (ords : List OrdItem) (ws : Wins)

/-- Resolved scans; `gsets` is an aggregation with grouping sets (ROLLUP) `set :: sets`, `win` an analytic scan. -/
inductive Scan where
  | single
  | table (t : TName) (cols : List Col)
  | join (k : JK) (l r : Scan) (on : OExpr)
  | unnest (e : Expr) (elem : Col) (off : Option Col)
  | array (s : Scan) (e : Expr) (elem : Col) (off : Option Col) (on : OExpr) (outer : Bool)
  | filter (s : Scan) (e : Expr)
  | project (s : Scan) (exprs : CExprs) (cols : List Col)
  | agg (s : Scan) (groups : CExprs) (aggs : Aggs) (cols : List Col)
  | setop (o : SetOp) (items : Items) (cols : List Col)
  | order (s : Scan) (items : List OrdItem) (cols : List Col)
  | limit (s : Scan) (n : Nat) (off : Option Nat) (cols : List Col)
  | with_ (es : Entries) (body : Scan)
  | ref (n : TName) (cols : List Col)
  | gsets (s : Scan) (groups : CExprs) (aggs : Aggs) (set : List Col) (sets : List (List Col)) (cols : List Col)
  | win (s : Scan) (ws : Wins) (cols : List Col)

/-- The inputs of a set operation, each with its output columns. -/
inductive Items where
  | nil
  | cons (s : Scan) (outs : List Col) (is : Items)

/-- The queries of a WITH clause. -/
inductive Entries where
  | nil
  | cons (n : TName) (s : Scan) (es : Entries)
end

def CExprs.cols : CExprs → List Col
  | .nil => []
  | .cons c _ es => c :: es.cols

def Aggs.cols : Aggs → List Col
  | .nil => []
  | .cons c _ _ as => c :: as.cols

def Wins.cols : Wins → List Col
  | .nil => []
  | .cons c _ _ _ _ ws => c :: ws.cols

/-- The ORDER BY items of a column list: ascending. -/
def ascending (cs : List Col) : List OrdItem := cs.map fun c => ⟨c, false, .unspecified⟩

/-- The order of the rows of an analytic scan: the partition columns and the ORDER BY items of the last function group
(`scanOrderBy`, formatter.go:1112-1146), with NULLs where SQLite puts them. -/
def Wins.order : Wins → List OrdItem
  | .nil => []
  | .cons _ _ _ parts ords .nil => ascending parts ++ ords.map fun i => ⟨i.col, i.desc, .unspecified⟩
  | .cons _ _ _ _ _ ws => ws.order

/-- Does an ORDER BY item ask for NULLs first? -/
def OrdItem.nullsFirst (i : OrdItem) : Bool :=
  match i.nulls with
  | .first => true
  | .last => false
  | .unspecified => !i.desc

def Entries.names : Entries → List TName
  | .nil => []
  | .cons n _ es => n :: es.names

/-- `ColumnList()` of a scan. -/
def Scan.cols : Scan → List Col
  | .single => []
  | .table _ cols => cols
  | .join _ l r _ => l.cols ++ r.cols
  | .unnest _ elem off => elem :: off.toList
  | .array s _ elem off _ _ => s.cols ++ elem :: off.toList
  | .filter s _ => s.cols
  | .project _ _ cols => cols
  | .agg _ _ _ cols => cols
  | .setop _ _ cols => cols
  | .order _ _ cols => cols
  | .limit _ _ _ cols => cols
  | .with_ _ body => body.cols
  | .ref _ cols => cols
  | .gsets _ _ _ _ _ cols => cols
  | .win _ _ cols => cols

/-! ## The values -/

/-- Aggregate functions.  `win f k ords` is the analytic function `f` for `k` partition columns and ORDER BY items which are
descending or not and put NULLs first or not: it is given, for each row of the scan, the arguments, the partition columns, the
ORDER BY columns and, last, the number of the row whose value it yields. -/
inductive AggFn where
  | fn (f : Nat)
  | win (f k : Nat) (ords : List (Bool × Bool))
  deriving DecidableEq, Repr

instance : Coe Nat AggFn := ⟨.fn⟩

/-- Scalar functions, aggregate functions, literals, arrays and the order of values; `agg (.fn 0)` is the function which
collects an array. -/
structure Sem (V : Type) where
  null : V
  lit : Nat → V
  fn : Nat → List V → V
  agg : AggFn → List (List V) → V
  truth : V → Bool
  elems : V → List V
  ofNat : Nat → V
  ofBool : Bool → V
  isIn : V → List V → V
  cmp : V → V → Ordering
  count : Nat → Nat

section
variable {V : Type} [DecidableEq V]

/-- All the values, if there are all. -/
def mapO {α β : Type} (f : α → Option β) : List α → Option (List β)
  | [] => some []
  | a :: as => match f a, mapO f as with
    | some b, some bs => some (b :: bs)
    | _, _ => none

/-- The elements for which the condition holds, if it has a value for all. -/
def filtO {α : Type} (f : α → Option Bool) : List α → Option (List α)
  | [] => some []
  | a :: as => match f a, filtO f as with
    | some b, some bs => some (if b then a :: bs else bs)
    | _, _ => none

/-- The value below a name. -/
def lk {α : Type} [DecidableEq α] : List α → List V → α → Option V
  | h :: hs, v :: vs, n => if h = n then some v else lk hs vs n
  | _, _, _ => none

/-- The values of the columns of a row, and else those of the outer rows. -/
def bindR {α : Type} [DecidableEq α] (h : List α) (vs : List V) (env : α → Option V) : α → Option V :=
  fun n => match lk h vs n with
    | some v => some v
    | none => env n

/-- A join by nested loops: `p l r` tells whether two rows match; `wl` and `wr` are the numbers of columns. -/
def joinRows (null : V) (k : JK) (wl wr : Nat) (p : List V → List V → Option Bool) (L R : List (List V)) :
    Option (List (List V)) :=
  match mapO (fun l => (filtO (p l) R).map fun rs => (l, rs)) L with
  | none => none
  | some pairs =>
    let matched := pairs.flatMap fun x => x.2.map fun r => x.1 ++ r
    let leftOuter := pairs.flatMap fun x =>
      if x.2 = [] then [x.1 ++ List.replicate wr null] else x.2.map fun r => x.1 ++ r
    let lonely := (R.filter fun r => !(pairs.any fun x => decide (r ∈ x.2))).map fun r => List.replicate wl null ++ r
    match k with
    | .cross => some matched
    | .inner => some matched
    | .left => some leftOuter
    | .right => some (matched ++ lonely)
    | .full => some (leftOuter ++ lonely)

/-- The rows of `l` with the elements of its array; `p` is the join condition. -/
def eachRows (null : V) (outer : Bool) (w : Nat) (p : List V → List V → Option Bool) (arr : List V → Option (List (List V)))
    (L : List (List V)) : Option (List (List V)) :=
  match mapO (fun l => match arr l with
      | none => none
      | some es => (filtO (p l) es).map fun rs => (l, rs)) L with
  | none => none
  | some pairs => some (pairs.flatMap fun x =>
      if outer && decide (x.2 = []) then [x.1 ++ List.replicate w null] else x.2.map fun r => x.1 ++ r)

/-- The rows which the elements of an array make; `off`: with their positions. -/
def elemRows (S : Sem V) (off : Bool) (a : V) : List (List V) :=
  (S.elems a).zipIdx.map fun x => if off then [x.1, S.ofNat x.2] else [x.1]

/-- The groups of rows with the same key; without grouping expressions, the rows are one group. -/
def grouped {α : Type} (all : Bool) (keyed : List (List V × α)) : List (List V × List α) :=
  if all then [([], keyed.map (·.2))]
  else (keyed.map (·.1)).eraseDups.map fun k => (k, (keyed.filter fun x => x.1 = k).map (·.2))

/-- The rows of a set operation. -/
def setRows (o : SetOp) (a b : List (List V)) : List (List V) :=
  match o with
  | .unionAll => a ++ b
  | .union => (a ++ b).eraseDups
  | .intersect => (a.filter fun r => decide (r ∈ b)).eraseDups
  | .except => (a.filter fun r => decide (r ∉ b)).eraseDups
  | .intersectAll => (b.foldl (fun x r => if r ∈ x.1 then (x.1.erase r, r :: x.2) else x) (a, [])).2
  | .exceptAll => b.foldl (fun x r => x.erase r) a

/-- The rows of a chain of set operations. -/
def foldSet (o : SetOp) : List (List (List V)) → List (List V)
  | [] => []
  | r :: rs => rs.foldl (setRows o) r

/-- How an ORDER BY item compares two values: NULLs first or last as asked for, and else first in ascending and last in
descending order. -/
def cmpItem (S : Sem V) (i : OrdItem) (a b : V) : Ordering :=
  let nullsFirst := i.nullsFirst
  if a = S.null then (if b = S.null then .eq else if nullsFirst then .lt else .gt)
  else if b = S.null then (if nullsFirst then .gt else .lt)
  else if i.desc then S.cmp b a else S.cmp a b

/-- How a list of items compares the keys of two rows. -/
def cmpItems (S : Sem V) : List OrdItem → List V → List V → Ordering
  | i :: is, a :: as, b :: bs => (cmpItem S i a b).then (cmpItems S is as bs)
  | _, _, _ => .eq

/-- The rows in the order of their keys. -/
def sortBy {α : Type} (cmp : List V → List V → Ordering) (rows : List (List V × α)) : List α :=
  (rows.mergeSort fun a b => cmp a.1 b.1 != .gt).map (·.2)

/-- The rows of LIMIT and OFFSET. -/
def limited {α : Type} (n off : Option Nat) (rows : List α) : List α :=
  let r := rows.drop (off.getD 0)
  match n with
  | none => r
  | some n => r.take n

/-- A database: the names of the columns of each table, and its rows. -/
abbrev Db (V : Type) := TName → Option (List (List Char) × List (List V))

/-- The values of columns of outer rows. -/
abbrev Env (V : Type) := Col → Option V

/-- The rows of the WITH queries. -/
abbrev WEnv (V : Type) := TName → Option (List (List V))

def upd {α : Type} (f : TName → Option α) (n : TName) (a : α) : TName → Option α := fun m => if m = n then some a else f m

/-- The values of the columns of a scan's column list. -/
def pick (h : List Col) (vs : List V) (cols : List Col) : Option (List V) := mapO (lk h vs) cols

/-- The values of the columns of a grouping set, of the values of all grouping columns. -/
def setKey (S : Sem V) (gcols set : List Col) (k : List V) : List V := set.map fun c => (lk gcols k c).getD S.null

/-- The values of all grouping columns, of those of a grouping set: the others are NULL. -/
def fullKey (S : Sem V) (gcols set : List Col) (k : List V) : List V := gcols.map fun c => (lk set k c).getD S.null

/-- The rows of all grouping sets, one set after the other, each with the values of the grouping columns; `row` makes the
row of a group. -/
def setRowsOf (S : Sem V) (gcols : List Col) (row : List V → List (List V) → Option (List V))
    (keyed : List (List V × List V)) (sets : List (List Col)) : Option (List (List V × List V)) :=
  (mapO (fun set => mapO (fun g : List V × List (List V) =>
      (row (fullKey S gcols set g.1) g.2).map fun r => (fullKey S gcols set g.1, r))
    (grouped set.isEmpty (keyed.map fun x => (setKey S gcols set x.1, x.2)))) sets).map List.flatten

/-! ## The meaning of a resolved query -/

mutual
/-- The value of an expression; none if it refers to a column that is not there, or if a scalar subquery has more than one
row. -/
def evalE (S : Sem V) (db : Db V) (w : WEnv V) (env : Env V) : Expr → Option V
  | .col c => env c
  | .lit k => some (S.lit k)
  | .call f args => (evalEs S db w env args).map (S.fn f)
  | .scalar s => match evalS S db w env s with
    | some [] => some S.null
    | some [r] => r.head?
    | _ => none
  | .exists_ s => match evalS S db w env s with
    | some rows => some (S.ofBool (!rows.isEmpty))
    | none => none
  | .inq e s => match evalE S db w env e, evalS S db w env s with
    | some v, some rows => (mapO List.head? rows).map (S.isIn v)
    | _, _ => none
  | .arr s => match evalS S db w env s with
    | some rows => (mapO List.head? rows).map fun vs => S.agg (.fn 0) (vs.map fun v => [v])
    | none => none

def evalEs (S : Sem V) (db : Db V) (w : WEnv V) (env : Env V) : Exprs → Option (List V)
  | .nil => some []
  | .cons e es => match evalE S db w env e, evalEs S db w env es with
    | some v, some vs => some (v :: vs)
    | _, _ => none

/-- A join condition. -/
def evalO (S : Sem V) (db : Db V) (w : WEnv V) (env : Env V) : OExpr → Option Bool
  | .none => some true
  | .some e => (evalE S db w env e).map S.truth

def evalCs (S : Sem V) (db : Db V) (w : WEnv V) (env : Env V) : CExprs → Option (List V)
  | .nil => some []
  | .cons _ e es => match evalE S db w env e, evalCs S db w env es with
    | some v, some vs => some (v :: vs)
    | _, _ => none

/-- The aggregates of a group of rows. -/
def evalAs (S : Sem V) (db : Db V) (w : WEnv V) (envs : List (Env V)) : Aggs → Option (List V)
  | .nil => some []
  | .cons _ f args as => match mapO (fun env => evalEs S db w env args) envs, evalAs S db w envs as with
    | some rows, some vs => some (S.agg f rows :: vs)
    | _, _ => none

/-- The values of the analytic functions for the row with a number, of the rows of the scan. -/
def evalFs (S : Sem V) (db : Db V) (w : WEnv V) (envs : List (Env V)) (i : Nat) : Wins → Option (List V)
  | .nil => some []
  | .cons _ f args parts ords ws =>
    match mapO (fun env => match evalEs S db w env args, mapO env parts, mapO env (ords.map (·.col)) with
        | some a, some p, some o => some (a ++ (p ++ (o ++ [S.ofNat (i + 1)])))
        | _, _, _ => none) envs, evalFs S db w envs i ws with
    | some rows, some vs => some (S.agg (.win f parts.length (ords.map fun o => (o.desc, o.nullsFirst))) rows :: vs)
    | _, _ => none

/-- The rows of a scan.  Those of grouping sets are ordered by the grouping columns, those of an analytic scan as
`Wins.order` has it. -/
def evalS (S : Sem V) (db : Db V) (w : WEnv V) (env : Env V) : Scan → Option (List (List V))
  | .single => some [[]]
  | .table t cols => match db t with
    | none => none
    | some (names, rows) => mapO (fun r => mapO (fun c => lk names r c.name) cols) rows
  | .join k l r on => match evalS S db w env l, evalS S db w env r with
    | some L, some R => joinRows S.null k l.cols.length r.cols.length
        (fun a b => evalO S db w (bindR (l.cols ++ r.cols) (a ++ b) env) on) L R
    | _, _ => none
  | .unnest e _ off => (evalE S db w env e).map (elemRows S off.isSome)
  | .array s e elem off on outer => match evalS S db w env s with
    | none => none
    | some L => eachRows S.null outer (elem :: off.toList).length
        (fun a b => evalO S db w (bindR (s.cols ++ elem :: off.toList) (a ++ b) env) on)
        (fun a => (evalE S db w (bindR s.cols a env) e).map (elemRows S off.isSome)) L
  | .filter s e => match evalS S db w env s with
    | none => none
    | some L => filtO (fun a => (evalE S db w (bindR s.cols a env) e).map S.truth) L
  | .project s exprs cols => match evalS S db w env s with
    | none => none
    | some L => mapO (fun a => match evalCs S db w (bindR s.cols a env) exprs with
        | none => none
        | some vs => pick (exprs.cols ++ s.cols) (vs ++ a) cols) L
  | .agg s groups aggs cols => match evalS S db w env s with
    | none => none
    | some L => match mapO (fun a => (evalCs S db w (bindR s.cols a env) groups).map fun k => (k, a)) L with
      | none => none
      | some keyed => mapO (fun g => match evalAs S db w (g.2.map fun a => bindR s.cols a env) aggs with
          | none => none
          | some vs => pick (groups.cols ++ aggs.cols) (g.1 ++ vs) cols) (grouped groups.cols.isEmpty keyed)
  | .setop o items _ => (evalIs S db w env items).map (foldSet o)
  | .order s items cols => match evalS S db w env s with
    | none => none
    | some L => match mapO (fun a => match pick s.cols a (items.map (·.col)), pick s.cols a cols with
        | some k, some r => some (k, r)
        | _, _ => none) L with
      | none => none
      | some keyed => some (sortBy (cmpItems S items) keyed)
  | .limit s n off cols => match evalS S db w env s with
    | none => none
    | some L => (mapO (fun a => pick s.cols a cols) L).map (limited (some (S.count n)) (off.map S.count))
  | .with_ es body => match evalWs S db w env es with
    | none => none
    | some w' => evalS S db w' env body
  | .ref n _ => w n
  | .gsets s groups aggs set sets cols => match evalS S db w env s with
    | none => none
    | some L => match mapO (fun a => (evalCs S db w (bindR s.cols a env) groups).map fun k => (k, a)) L with
      | none => none
      | some keyed => (setRowsOf S groups.cols (fun k rows =>
          match evalAs S db w (rows.map fun a => bindR s.cols a env) aggs with
          | none => none
          | some vs => pick (groups.cols ++ aggs.cols) (k ++ vs) cols) keyed (set :: sets)).map
            (sortBy (cmpItems S (ascending groups.cols)))
  | .win s ws cols => match evalS S db w env s with
    | none => none
    | some L => (mapO (fun x : List V × Nat =>
        match evalFs S db w (L.map fun a => bindR s.cols a env) x.2 ws, pick s.cols x.1 (ws.order.map (·.col)) with
        | some vs, some k => (pick (ws.cols ++ s.cols) (vs ++ x.1) cols).map fun r => (k, r)
        | _, _ => none) L.zipIdx).map (sortBy (cmpItems S ws.order))

/-- The rows of the inputs of a set operation. -/
def evalIs (S : Sem V) (db : Db V) (w : WEnv V) (env : Env V) : Items → Option (List (List (List V)))
  | .nil => some []
  | .cons s outs is => match evalS S db w env s, evalIs S db w env is with
    | some L, some Ls => (mapO (fun a => pick s.cols a outs) L).map fun r => r :: Ls
    | _, _ => none

/-- The WITH queries, each of which sees those before it. -/
def evalWs (S : Sem V) (db : Db V) (w : WEnv V) (env : Env V) : Entries → Option (WEnv V)
  | .nil => some w
  | .cons n s es => match evalS S db w env s with
    | none => none
    | some L => evalWs S db (upd w n L) env es
end
end

/-! ## The tokens of a SQLite query -/

/-- A column name in the text.  `uid` is the name `name#id` of a column (`uniqueColumnName`, formatter.go:85-95), `raw` any
other name; `eachValue` and `eachKey` are `json_each.value` and `json_each.key`. -/
inductive Nm where
  | raw (s : List Char)
  | uid (s : List Char) (id : Nat)
  | eachValue
  | eachKey
  deriving DecidableEq, Repr

/-- Terms of ORDER BY (formatter.go:991-1011). -/
inductive OTerm where
  | notNull (n : Nm)
  | isNull (n : Nm)
  | coll (n : Nm) (desc : Bool)
  deriving DecidableEq, Repr

mutual
/-- Expressions of the text; `opt` is a call of a function which makes an option of a window function of a value. -/
inductive SExpr where
  | name (n : Nm)
  | null
  | opt (e : SExpr)
  | lit (k : Nat)
  | call (f : Nat) (args : List SExpr)
  | scalar (q : List Tok)
  | exists_ (q : List Tok)
  | inq (e : SExpr) (q : List Tok)

/-- Entries of a SELECT list, with their AS names. -/
inductive Item where
  | star
  | ex (e : SExpr) (n : Option Nm)
  | agg (f : AggFn) (args : List SExpr) (n : Option Nm)

/-- `num ts` is `(SELECT *, ROW_NUMBER() OVER() AS row_id ts)`. -/
inductive Tok where
  | sel (items : List Item)
  | from
  | whr (e : SExpr)
  | groupBy (ns : List Nm)
  | orderBy (ts : List OTerm)
  | limit (k : Nat)
  | offset (k : Nat)
  | withs (es : List (TName × List Tok))
  | setop (o : SetOp)
  | join (k : JK)
  | on (e : SExpr)
  | tbl (n : TName)
  | each (e : SExpr)
  | grp (ts : List Tok)
  | num (ts : List Tok)
end

/-- The column of row numbers of an analytic scan, formatter.go:1188. -/
def rowId : Nm := .raw "row_id".toList

/-! ## The translation -/

/-- `uniqueColumnName` in a query (formatter.go:85-95 with column IDs). -/
def uid (c : Col) : Nm := .uid c.name c.id

/-- `uniqueColumnName` in UPDATE and DELETE (formatter.go:85-95 without column IDs). -/
def plain (c : Col) : Nm := .raw c.name

/-- The text of a column name. -/
def Nm.text : Nm → List Char
  | .raw s => s
  | .uid s id => s ++ '#' :: Go.decNat id
  | .eachValue => []
  | .eachKey => []

/-- The columns of the WITH queries: `tableNameToColumnListMap`. -/
abbrev WMap := TName → Option (List Col)

/-- Does the text begin with SELECT or WITH?  `getInputPattern`, formatter.go:105-120. -/
def startsSel : List Tok → Bool
  | .sel _ :: _ => true
  | .withs _ :: _ => true
  | _ => false

/-- `formatInput`, formatter.go:122-132. -/
def formatInput (ts : List Tok) : List Tok :=
  match ts with
  | [] => []
  | .from :: r => .from :: r
  | ts => if startsSel ts then [.from, .grp ts] else .from :: ts

/-- The parentheses of JoinScanNode, formatter.go:641-646. -/
def joinInput (ts : List Tok) : List Tok := if startsSel ts then [.grp ts] else ts

/-! ### When a filter puts its input in parentheses -/

/-- What the regular expression and the search of FilterScanNode tell apart: parentheses, the words of
`tokensAfterFromClause`, and other text. -/
inductive Sym where
  | op | cl | tk | ot
  deriving DecidableEq, Repr

/-- tokensAfterFromClause, formatter.go:734. -/
def words : List (List Char) :=
  ["WHERE".toList, "GROUP BY".toList, "HAVING".toList, "QUALIFY".toList, "WINDOW".toList, "ORDER BY".toList, "COLLATE".toList]

/-- A name between backquotes; names with parentheses in them are not modelled. -/
def symText (s : List Char) : Sym := if words.any (fun w => decide (w <:+: s)) then .tk else .ot

def symName (n : Nm) : Sym := symText n.text

mutual
def symE : SExpr → List Sym
  | .name n => [symName n]
  | .null => [.ot]
  | .opt e => .ot :: .op :: symE e ++ [.cl]
  | .lit _ => [.ot]
  | .call _ args => .ot :: .op :: symEs args ++ [.cl]
  | .scalar q => .op :: symTs q ++ [.cl]
  | .exists_ q => .ot :: .op :: symTs q ++ [.cl]
  | .inq e q => symE e ++ .ot :: .op :: symTs q ++ [.cl]

def symEs : List SExpr → List Sym
  | [] => []
  | e :: es => symE e ++ symEs es

def symI : Item → List Sym
  | .star => [.ot]
  | .ex e n => symE e ++ (n.map symName).toList
  | .agg _ args n => .ot :: .op :: symEs args ++ .cl :: (n.map symName).toList

def symIs : List Item → List Sym
  | [] => []
  | i :: is => symI i ++ symIs is

def symT : Tok → List Sym
  | .sel items => .ot :: symIs items
  | .from => [.ot]
  | .whr e => .tk :: symE e
  | .groupBy ns => .tk :: ns.flatMap fun n => [.ot, .op, symName n, .cl]
  | .orderBy ts => .tk :: ts.flatMap fun t => match t with
      | .notNull n => [.op, symName n, .ot, .cl]
      | .isNull n => [.op, symName n, .ot, .cl]
      | .coll n _ => [symName n, .tk]
  | .limit _ => [.ot]
  | .offset _ => [.ot]
  | .withs es => .ot :: symWs es
  | .setop _ => [.ot]
  | .join _ => [.ot]
  | .on e => .ot :: symE e
  | .tbl n => [symText n]
  | .each e => .ot :: .op :: .ot :: .op :: symE e ++ [.cl, .cl]
  | .grp ts => .op :: symTs ts ++ [.cl]
  | .num ts => .op :: .ot :: .op :: .cl :: .ot :: .op :: .cl :: .ot :: symTs ts ++ [.cl]

def symTs : List Tok → List Sym
  | [] => []
  | t :: ts => symT t ++ symTs ts

def symWs : List (TName × List Tok) → List Sym
  | [] => []
  | (n, q) :: es => symText n :: .op :: symTs q ++ .cl :: symWs es
end

/-- The rest after the first closing parenthesis. -/
def afterClose : List Sym → Option (List Sym)
  | [] => none
  | .cl :: r => some r
  | _ :: r => afterClose r

theorem afterClose_lt : ∀ {xs r : List Sym}, afterClose xs = some r → r.length < xs.length
  | .cl :: xs, r, h => by
    simp only [afterClose, Option.some.injEq] at h
    subst h
    simp
  | .op :: xs, r, h => by simp only [afterClose] at h; have := afterClose_lt h; simp; omega
  | .tk :: xs, r, h => by simp only [afterClose] at h; have := afterClose_lt h; simp; omega
  | .ot :: xs, r, h => by simp only [afterClose] at h; have := afterClose_lt h; simp; omega

/-- `removeExpressions.ReplaceAllString(text, "")` for the pattern `\(.+?\)`: from an opening parenthesis, past one more
symbol of any kind, to the next closing parenthesis. -/
def removeExprs : Nat → List Sym → List Sym
  | 0, xs => xs
  | _ + 1, [] => []
  | n + 1, .op :: r => match r with
    | [] => [.op]
    | _ :: r' => match afterClose r' with
      | some rest => removeExprs n rest
      | none => .op :: removeExprs n r
  | n + 1, x :: r => x :: removeExprs n r

/-- FilterScanNode, formatter.go:749-762: is the input put in parentheses? -/
def wraps (ts : List Tok) : Bool := decide (Sym.tk ∈ removeExprs (symTs ts).length (symTs ts))

/-! ### The nodes -/

/-- OrderByScanNode, formatter.go:991-1011: the terms of an item. -/
def ordTerms (nm : Col → Nm) (i : OrdItem) : List OTerm :=
  (match i.nulls with
    | .first => [.notNull (nm i.col)]
    | .last => [.isNull (nm i.col)]
    | .unspecified => []) ++ [.coll (nm i.col) i.desc]

/-- The text of a computed column, if the column is one. -/
def findItem (its : List (Col × Item)) (c : Col) : Option Item :=
  match its with
  | [] => none
  | (d, i) :: r => if d = c then some i else findItem r c

/-- The SELECT list of a scan's columns: those in `columnRefMap` with their texts (formatter.go:793-805, 979-990,
1279-1291). -/
def selList (nm : Col → Nm) (its : List (Col × Item)) (cols : List Col) : List Item :=
  cols.map fun c => (findItem its c).getD (.ex (.name (nm c)) none)

/-- The texts of the grouping columns for one grouping set: `NULL` for those not in it, formatter.go:809-831. -/
def maskItems (nm : Col → Nm) (set : List Col) (its : List (Col × Item)) : List (Col × Item) :=
  its.map fun x => (x.1, if x.1 ∈ set then x.2 else .ex .null (some (nm x.1)))

/-- The queries of the grouping sets joined by UNION ALL, formatter.go:842-865; `t` is the FROM clause. -/
def fmtGSets (nm : Col → Nm) (gs as : List (Col × Item)) (cols : List Col) (t : List Tok) : List (List Col) → List Tok
  | [] => []
  | set :: sets => .sel (selList nm (maskItems nm set gs ++ as) cols) :: (t ++ ((match set with
      | [] => []
      | g => [.groupBy (g.map nm)]) ++ match fmtGSets nm gs as cols t sets with
        | [] => []
        | q => .setop .unionAll :: q))

mutual
/-- FormatSQL of expressions: LiteralNode, ColumnRefNode, FunctionCallNode (formatter.go:193-307), SubqueryExprNode
(formatter.go:549-579). -/
def fmtE (nm : Col → Nm) (w : WMap) : Expr → Option SExpr
  | .col c => some (.name (nm c))
  | .lit k => some (.lit k)
  | .call f args => (fmtEs nm w args).map (.call f)
  | .scalar s => (fmtS nm w s).map .scalar
  | .exists_ s => (fmtS nm w s).map .exists_
  | .inq e s => match fmtS nm w s, fmtE nm w e with
    | some q, some x => some (.inq x q)
    | _, _ => none
  | .arr s => match s.cols, fmtS nm w s with
    | c :: _, some q => some (.scalar [.sel [.agg (.fn 0) [.name (nm c)] none], .from, .grp q])
    | _, _ => none

def fmtEs (nm : Col → Nm) (w : WMap) : Exprs → Option (List SExpr)
  | .nil => some []
  | .cons e es => match fmtE nm w e, fmtEs nm w es with
    | some x, some xs => some (x :: xs)
    | _, _ => none

def fmtO (nm : Col → Nm) (w : WMap) : OExpr → Option (Option SExpr)
  | .none => some none
  | .some e => (fmtE nm w e).map some

/-- ComputedColumnNode, formatter.go:1199-1217. -/
def fmtCs (nm : Col → Nm) (w : WMap) : CExprs → Option (List (Col × Item))
  | .nil => some []
  | .cons c e es => match fmtE nm w e, fmtCs nm w es with
    | some x, some xs => some ((c, .ex x (some (nm c))) :: xs)
    | _, _ => none

/-- ComputedColumnNode for AggregateFunctionCallNode, formatter.go:309-352. -/
def fmtAs (nm : Col → Nm) (w : WMap) : Aggs → Option (List (Col × Item))
  | .nil => some []
  | .cons c f args as => match fmtEs nm w args, fmtAs nm w as with
    | some xs, some ys => some ((c, .agg (.fn f) xs (some (nm c))) :: ys)
    | _, _ => none

/-- AnalyticFunctionCallNode, formatter.go:354-406; `t` is the FROM clause of the scan.  The order of NULLs is not passed on
to the function.  DISTINCT, IGNORE NULLS and the window frame are part of the function and its arguments. -/
def fmtFs (nm : Col → Nm) (w : WMap) (t : List Tok) :
    Wins → Option (List (Col × Item))
  | .nil => some []
  | .cons c f args parts ords ws => match fmtEs nm w args, fmtFs nm w t ws with
    | some xs, some ys => some ((c, .ex (.scalar (.sel [.agg (.win f parts.length (ords.map fun o => (o.desc, !o.desc)))
        (xs ++ (parts.map (fun p => .opt (.name (nm p))) ++ (ords.map (fun o => .opt (.name (nm o.col))) ++
          [.opt (.name rowId)]))) none] :: t)) (some (nm c))) :: ys)
    | _, _ => none

/-- FormatSQL of scans: SingleRowScan 597, TableScan 601-627, JoinScan 629-665, ArrayScan 667-728, FilterScan 737-763,
AggregateScan 769-891, SetOperationScan 897-967, OrderByScan 969-1022, LimitOffsetScan 1024-1073, WithRefScan 1075-1097,
AnalyticScan 1099-1193, ProjectScan 1264-1298, WithScan 1472-1493. -/
def fmtS (nm : Col → Nm) (w : WMap) : Scan → Option (List Tok)
  | .single => some []
  | .table t cols => some [.grp [.sel (cols.map fun c => .ex (.name (.raw c.name)) (some (nm c))), .from, .tbl t]]
  | .join k l r on => match fmtS nm w l, fmtS nm w r, fmtO nm w on with
    | some tl, some tr, some none => some (joinInput tl ++ .join .cross :: joinInput tr)
    | some tl, some tr, some (some x) => match k with
      | .cross => none
      | k => some (joinInput tl ++ .join k :: joinInput tr ++ [.on x])
    | _, _, _ => none
  | .unnest e elem off => match fmtE nm w e with
    | none => none
    | some x => some [.sel (.ex (.name .eachValue) (some (nm elem)) ::
        off.toList.map fun o => .ex (.name .eachKey) (some (nm o))), .from, .each x]
  | .array s e elem off on outer => match fmtE nm w e, fmtS nm w s, fmtO nm w on with
    | some x, some t, some j => some (.sel (.star :: .ex (.name .eachValue) (some (nm elem)) ::
          off.toList.map fun o => .ex (.name .eachKey) (some (nm o))) :: formatInput t ++
        match j with
        | none => [.join .cross, .each x]
        | some y => [.join (if outer then .left else .inner), .each x, .on y])
    | _, _, _ => none
  | .filter s e => match fmtS nm w s, fmtE nm w e with
    | some t, some x => some (if wraps t then [.grp t, .whr x] else t ++ [.whr x])
    | _, _ => none
  | .project s exprs cols => match fmtCs nm w exprs, fmtS nm w s with
    | some its, some t => some (.sel (selList nm its cols) :: formatInput t)
    | _, _ => none
  | .agg s groups aggs cols => match fmtAs nm w aggs, fmtS nm w s, fmtCs nm w groups with
    | some as, some t, some gs => some (.sel (selList nm (gs ++ as) cols) :: formatInput t ++
        match groups.cols with
        | [] => []
        | g => [.groupBy (g.map nm)])
    | _, _, _ => none
  | .setop o items cols => match fmtIs nm w o items with
    | none => none
    | some (outs, q) => some [.sel ((outs.zip cols).map fun x => .ex (.name (nm x.1)) (some (nm x.2))), .from, .grp q]
  | .order s items cols => match fmtS nm w s with
    | none => none
    | some t => some (.sel (selList nm [] cols) :: formatInput t ++ [.orderBy (items.flatMap (ordTerms nm))])
  | .limit s n off cols => match fmtS nm w s with
    | none => none
    | some t => some (.sel (selList nm [] cols) :: formatInput t ++ .limit n :: off.toList.map Tok.offset)
  | .with_ es body => match fmtWs nm w es with
    | none => none
    | some (qs, w') => match fmtS nm w' body with
      | none => none
      | some t => some (.withs qs :: t)
  | .ref n cols => match w n with
    | none => none
    | some defs => if defs.length = cols.length then
        some [.grp [.sel ((defs.zip cols).map fun x => .ex (.name (nm x.1)) (some (nm x.2))), .from, .tbl n]]
      else none
  | .gsets s groups aggs set sets cols => match fmtAs nm w aggs, fmtS nm w s, fmtCs nm w groups with
    | some as, some t, some gs => some (fmtGSets nm gs as cols (formatInput t) (set :: sets) ++
        [.orderBy ((ascending groups.cols).flatMap (ordTerms nm))])
    | _, _, _ => none
  | .win s ws cols => match fmtS nm w s with
    | none => none
    | some t => match fmtFs nm w (formatInput t) ws with
      | none => none
      | some its => some (.sel (selList nm its cols) :: .from :: .num (formatInput t) :: match ws.order with
          | [] => []
          | o => [.orderBy (o.flatMap (ordTerms nm))])

/-- The queries of a set operation joined by the operator, and the output columns of the first. -/
def fmtIs (nm : Col → Nm) (w : WMap) (o : SetOp) : Items → Option (List Col × List Tok)
  | .nil => some ([], [])
  | .cons s outs is => match fmtS nm w s, fmtIs nm w o is with
    | some t, some (_, q) => some (outs, .sel (outs.map fun c => .ex (.name (nm c)) none) :: formatInput t ++
        match q with
        | [] => []
        | q => .setop o :: q)
    | _, _ => none

/-- WithEntryNode, formatter.go:1495-1507. -/
def fmtWs (nm : Col → Nm) (w : WMap) : Entries → Option (List (TName × List Tok) × WMap)
  | .nil => some ([], w)
  | .cons n s es => match fmtS nm w s with
    | none => none
    | some t => match fmtWs nm (upd w n s.cols) es with
      | none => none
      | some (qs, w') => some ((n, t) :: qs, w')
end

/-- QueryStmtNode, formatter.go:1316-1345: the output columns with the names the user sees. -/
def fmtQuery (out : List (Col × List Char)) (s : Scan) : Option (List Tok) :=
  match fmtS uid (fun _ => none) s with
  | none => none
  | some t => some [.sel (out.map fun x => .ex (.name (uid x.1)) (some (.raw x.2))), .from, .grp t]

/-! ## What SQLite makes of the tokens -/

/-- A table of a FROM clause. -/
inductive Tref where
  | tbl (n : TName)
  | grp (ts : List Tok)
  | num (ts : List Tok)
  | each (e : SExpr)

/-- A FROM clause: joins associate to the left. -/
inductive PT where
  | leaf (t : Tref)
  | join (k : JK) (l : PT) (r : Tref) (on : Option SExpr)

structure Core where
  items : List Item
  frm : Option PT
  whr : Option SExpr
  grp : List Nm

structure PQ where
  ctes : List (TName × List Tok)
  core : Core
  more : List (SetOp × Core)
  order : List OTerm
  limit : Option Nat
  offset : Option Nat

def trefOf : Tok → Option Tref
  | .tbl n => some (.tbl n)
  | .grp ts => some (.grp ts)
  | .num ts => some (.num ts)
  | .each e => some (.each e)
  | _ => none

def pLoop (acc : PT) : List Tok → Option (PT × List Tok)
  | .join k :: x :: .on e :: r => match trefOf x with
    | some t => pLoop (.join k acc t (some e)) r
    | none => none
  | .join k :: x :: r => match trefOf x with
    | some t => pLoop (.join k acc t none) r
    | none => none
  | .join _ :: [] => none
  | r => some (acc, r)

def pChain : List Tok → Option (PT × List Tok)
  | [] => none
  | x :: r => match trefOf x with
    | some t => pLoop (.leaf t) r
    | none => none

def pFrom : List Tok → Option (Option PT × List Tok)
  | .from :: r => (pChain r).map fun x => (some x.1, x.2)
  | r => some (none, r)

def pWhere : List Tok → Option SExpr × List Tok
  | .whr e :: r => (some e, r)
  | r => (none, r)

def pGroup : List Tok → List Nm × List Tok
  | .groupBy ns :: r => (ns, r)
  | r => ([], r)

def pCore : List Tok → Option (Core × List Tok)
  | .sel items :: r => if items.isEmpty then none else match pFrom r with
    | none => none
    | some (f, r) => some (⟨items, f, (pWhere r).1, (pGroup (pWhere r).2).1⟩, (pGroup (pWhere r).2).2)
  | _ => none

/-- SQLite has no INTERSECT ALL and no EXCEPT ALL. -/
def sqliteHas : SetOp → Bool
  | .intersectAll => false
  | .exceptAll => false
  | _ => true

def pMore : Nat → List Tok → Option (List (SetOp × Core) × List Tok)
  | n + 1, .setop o :: r => if sqliteHas o then match pCore r with
      | none => none
      | some (c, r') => (pMore n r').map fun x => ((o, c) :: x.1, x.2)
    else none
  | _, r => some ([], r)

def pOrder : List Tok → List OTerm × List Tok
  | .orderBy ts :: r => (ts, r)
  | r => ([], r)

def pLimit : List Tok → Option Nat × Option Nat × List Tok
  | .limit n :: .offset m :: r => (some n, some m, r)
  | .limit n :: r => (some n, none, r)
  | r => (none, none, r)

/-- A query after its WITH clause; nothing may follow it. -/
def pBody (ctes : List (TName × List Tok)) (ts : List Tok) : Option PQ :=
  match pCore ts with
  | none => none
  | some (c, r) => match pMore r.length r with
    | none => none
    | some (more, r) => match pLimit (pOrder r).2 with
      | (n, m, []) => some ⟨ctes, c, more, (pOrder r).1, n, m⟩
      | _ => none

def pQuery : List Tok → Option PQ
  | .withs es :: r => pBody es r
  | r => pBody [] r

section
variable {V : Type} [DecidableEq V]

/-- A table: the names of its columns and its rows. -/
abbrev Rel (V : Type) := List Nm × List (List V)

/-- The values of column names. -/
abbrev SEnv (V : Type) := Nm → Option V

/-- The common table expressions in scope; `some none`: one which is being defined. -/
abbrev CTE (V : Type) := TName → Option (Option (Rel V))

mutual
/-- The value of an expression; `q` evaluates subqueries.  A scalar subquery has the value of its first row. -/
def evalX (S : Sem V) (q : SEnv V → List Tok → Option (Rel V)) (env : SEnv V) : SExpr → Option V
  | .name n => env n
  | .null => some S.null
  | .opt e => evalX S q env e
  | .lit k => some (S.lit k)
  | .call f args => (evalXs S q env args).map (S.fn f)
  | .scalar ts => match q env ts with
    | none => none
    | some (_, []) => some S.null
    | some (_, r :: _) => r.head?
  | .exists_ ts => match q env ts with
    | none => none
    | some (_, rows) => some (S.ofBool (!rows.isEmpty))
  | .inq e ts => match evalX S q env e, q env ts with
    | some v, some (_, rows) => (mapO List.head? rows).map (S.isIn v)
    | _, _ => none

def evalXs (S : Sem V) (q : SEnv V → List Tok → Option (Rel V)) (env : SEnv V) : List SExpr → Option (List V)
  | [] => some []
  | e :: es => match evalX S q env e, evalXs S q env es with
    | some v, some vs => some (v :: vs)
    | _, _ => none
end

/-- The expression with an AS name. -/
def alias (items : List Item) (n : Nm) : Option SExpr :=
  match items with
  | [] => none
  | .ex e (some m) :: r => if m = n then some e else alias r n
  | _ :: r => alias r n

/-- The scope of WHERE, ON and GROUP BY: the columns of the FROM clause, then the AS names, then the outer scopes. -/
def scope (S : Sem V) (q : SEnv V → List Tok → Option (Rel V)) (items : List Item) (env : SEnv V) (h : List Nm)
    (vs : List V) : SEnv V := fun n =>
  match lk h vs n with
  | some v => some v
  | none => match alias items n with
    | some e => evalX S q (bindR h vs env) e
    | none => env n

/-- An ON condition; without one, all rows match. -/
def evalOn (S : Sem V) (q : SEnv V → List Tok → Option (Rel V)) (env : SEnv V) : Option SExpr → Option Bool
  | none => some true
  | some e => (evalX S q env e).map S.truth

/-- A table of the FROM clause that does not depend on the tables before it.  A text in parentheses which is no query is a
join. -/
def evalTref (db : Db V) (q : SEnv V → List Tok → Option (Rel V)) (cte : CTE V) (env : SEnv V) : Tref → Option (Rel V)
  | .tbl n => match cte n with
    | some r => r
    | none => (db n).map fun x => (x.1.map Nm.raw, x.2)
  | .grp ts => if startsSel ts then q env ts else match pChain ts with
    | some (_, []) => q env (.sel [.star] :: .from :: ts)
    | _ => none
  | .num _ => none
  | .each _ => none

/-- The FROM clause; `sc` is the scope of conditions. -/
def evalPT (S : Sem V) (db : Db V) (q : SEnv V → List Tok → Option (Rel V)) (cte : CTE V) (env : SEnv V)
    (sc : List Nm → List V → SEnv V) : PT → Option (Rel V)
  | .leaf (.each e) => (evalX S q env e).map fun v => ([.eachValue, .eachKey], elemRows S true v)
  | .leaf (.num ts) => match q env (.sel [.star] :: ts) with
    | none => none
    | some (h, rows) => some (h ++ [rowId], rows.zipIdx.map fun x => x.1 ++ [S.ofNat (x.2 + 1)])
  | .leaf t => evalTref db q cte env t
  | .join k l (.each e) on => match evalPT S db q cte env sc l with
    | none => none
    | some (h, L) =>
      let go (outer : Bool) := (eachRows S.null outer 2
        (fun a b => evalOn S q (sc (h ++ [.eachValue, .eachKey]) (a ++ b)) on)
        (fun a => (evalX S q (bindR h a env) e).map (elemRows S true)) L).map
          fun rows => (h ++ [.eachValue, .eachKey], rows)
      match k with
      | .cross => go false
      | .inner => go false
      | .left => go true
      | _ => none
  | .join k l t on => match evalPT S db q cte env sc l, evalTref db q cte env t with
    | some (h, L), some (h', R) => (joinRows S.null k h.length h'.length
        (fun a b => evalOn S q (sc (h ++ h') (a ++ b)) on) L R).map fun rows => (h ++ h', rows)
    | _, _ => none

/-- The columns which `*` stands for. -/
def starred (n : Nm) : Bool := n != .eachValue && n != .eachKey

def starVals : List Nm → List V → List V
  | h :: hs, v :: vs => if starred h then v :: starVals hs vs else starVals hs vs
  | _, _ => []

/-- The names of the columns of a SELECT list. -/
def itemHdr (h : List Nm) : Item → List Nm
  | .star => h.filter starred
  | .ex _ (some n) => [n]
  | .ex (.name n) none => [n]
  | .ex _ none => [.raw []]
  | .agg _ _ (some n) => [n]
  | .agg _ _ none => [.raw []]

mutual
/-- The column names in an expression, at any depth. -/
def nmE : SExpr → List Nm
  | .name n => [n]
  | .null => []
  | .opt e => nmE e
  | .lit _ => []
  | .call _ args => nmEs args
  | .scalar q => nmTs q
  | .exists_ q => nmTs q
  | .inq e q => nmE e ++ nmTs q

def nmEs : List SExpr → List Nm
  | [] => []
  | e :: es => nmE e ++ nmEs es

def nmI : Item → List Nm
  | .star => []
  | .ex e _ => nmE e
  | .agg _ args _ => nmEs args

def nmIs : List Item → List Nm
  | [] => []
  | i :: is => nmI i ++ nmIs is

def nmT : Tok → List Nm
  | .sel items => nmIs items
  | .whr e => nmE e
  | .on e => nmE e
  | .each e => nmE e
  | .grp ts => nmTs ts
  | .num ts => nmTs ts
  | .withs es => nmWs es
  | _ => []

def nmTs : List Tok → List Nm
  | [] => []
  | t :: ts => nmT t ++ nmTs ts

def nmWs : List (TName × List Tok) → List Nm
  | [] => []
  | (_, q) :: es => nmTs q ++ nmWs es
end

/-- Does an aggregate function with these arguments belong to a SELECT whose FROM clause has the columns `h`?  To SQLite it
belongs to the innermost SELECT of which it refers to a column; one that refers to no column is where it stands. -/
def owned (h : List Nm) (args : List SExpr) : Bool := (nmEs args).isEmpty || (nmEs args).any fun n => decide (n ∈ h)

def ownedI (h : List Nm) : Item → Bool
  | .agg _ args _ => owned h args
  | _ => true

def isAgg : Item → Bool
  | .agg _ _ _ => true
  | _ => false

/-- An entry of the SELECT list for a row. -/
def itemVal (S : Sem V) (q : SEnv V → List Tok → Option (Rel V)) (env : SEnv V) (h : List Nm) (vs : List V) :
    Item → Option (List V)
  | .star => some (starVals h vs)
  | .ex e _ => (evalX S q (bindR h vs env) e).map fun v => [v]
  | .agg _ _ _ => none

/-- An entry of the SELECT list for a group of rows: an expression outside an aggregate has the value for one row of the
group. -/
def itemAgg (S : Sem V) (q : SEnv V → List Tok → Option (Rel V)) (env : SEnv V) (h : List Nm) (rows : List (List V)) :
    Item → Option (List V)
  | .star => none
  | .ex e _ => match rows with
    | [] => some [S.null]
    | vs :: _ => (evalX S q (bindR h vs env) e).map fun v => [v]
  | .agg f args _ => (mapO (fun vs => evalXs S q (bindR h vs env) args) rows).map fun as => [S.agg f as]

/-- The rows of the FROM clause for which WHERE holds. -/
def evalFW (S : Sem V) (db : Db V) (q : SEnv V → List Tok → Option (Rel V)) (cte : CTE V) (env : SEnv V)
    (items : List Item) (f : Option PT) (wh : Option SExpr) : Option (Rel V) :=
  match (match f with
    | none => some ([], [[]])
    | some pt => evalPT S db q cte env (scope S q items env) pt) with
  | none => none
  | some (h, L) => match wh with
    | none => some (h, L)
    | some e => (filtO (fun vs => (evalX S q (scope S q items env h vs) e).map S.truth) L).map fun rows => (h, rows)

/-- The names and rows of a SELECT, each row with the scope of the row it comes from. -/
def evalRows (S : Sem V) (q : SEnv V → List Tok → Option (Rel V)) (env : SEnv V) (items : List Item) (g : List Nm)
    (h : List Nm) (L : List (List V)) : Option (List Nm × List (List V × SEnv V)) :=
  if g.isEmpty && !items.any isAgg then
    (mapO (fun vs => (mapO (itemVal S q env h vs) items).map fun o => (o.flatten, bindR h vs env)) L).map
      fun rows => (items.flatMap (itemHdr h), rows)
  else if !items.all (ownedI h) then none
  else
    match mapO (fun vs => (mapO (scope S q items env h vs) g).map fun k => (k, vs)) L with
    | none => none
    | some keyed =>
      (mapO (fun x => (mapO (itemAgg S q env h x.2) items).map fun o => (o.flatten, fun _ => none))
        (grouped g.isEmpty keyed)).map fun rows => (items.flatMap (itemHdr h), rows)

def evalCore (S : Sem V) (db : Db V) (q : SEnv V → List Tok → Option (Rel V)) (cte : CTE V) (env : SEnv V) (c : Core) :
    Option (List Nm × List (List V × SEnv V)) :=
  match evalFW S db q cte env c.items c.frm c.whr with
  | none => none
  | some (h, L) => evalRows S q env c.items c.grp h L

def OTerm.nm : OTerm → Nm
  | .notNull n => n
  | .isNull n => n
  | .coll n _ => n

/-- SQLite compares NULLs as the smallest values, without asking the collation. -/
def cmpTerm (S : Sem V) : OTerm → V → V → Ordering
  | .notNull _, a, b => compare (decide (a ≠ S.null)).toNat (decide (b ≠ S.null)).toNat
  | .isNull _, a, b => compare (decide (a = S.null)).toNat (decide (b = S.null)).toNat
  | .coll _ desc, a, b =>
    let asc (a b : V) : Ordering :=
      if a = S.null then (if b = S.null then .eq else .lt) else if b = S.null then .gt else S.cmp a b
    if desc then asc b a else asc a b

def cmpTerms (S : Sem V) : List OTerm → List V → List V → Ordering
  | t :: ts, a :: as, b :: bs => (cmpTerm S t a b).then (cmpTerms S ts as bs)
  | _, _, _ => .eq

/-- ORDER BY: a term is a column of the result, or else of the FROM clause. -/
def evalOrder (S : Sem V) (ts : List OTerm) (h : List Nm) (rows : List (List V × SEnv V)) : Option (List (List V)) :=
  if ts.isEmpty then some (rows.map (·.1))
  else match mapO (fun r => (mapO (fun t => bindR h r.1 r.2 t.nm) ts).map fun k => (k, r.1)) rows with
    | none => none
    | some keyed => some (sortBy (cmpTerms S ts) keyed)

/-- The common table expressions, each of which sees those before it; the names of all are taken from the start. -/
def evalCtes (q : CTE V → SEnv V → List Tok → Option (Rel V)) (env : SEnv V) :
    List (TName × List Tok) → CTE V → Option (CTE V)
  | [], cte => some cte
  | (n, ts) :: es, cte => match q cte env ts with
    | none => none
    | some r => evalCtes q env es (upd cte n (some r))

/-- The rows of the further queries of a compound. -/
def evalMore (S : Sem V) (db : Db V) (q : SEnv V → List Tok → Option (Rel V)) (cte : CTE V) (env : SEnv V) :
    List (SetOp × Core) → List (List V) → Option (List (List V))
  | [], rows => some rows
  | (o, c) :: cs, rows => match evalCore S db q cte env c with
    | none => none
    | some (_, R) => evalMore S db q cte env cs (setRows o rows (R.map (·.1)))

/-- A query whose subqueries `q` evaluates. -/
def evalBody (S : Sem V) (db : Db V) (q : CTE V → SEnv V → List Tok → Option (Rel V)) (cte : CTE V) (env : SEnv V)
    (ts : List Tok) : Option (Rel V) :=
  match pQuery ts with
  | none => none
  | some p => match evalCtes q env p.ctes (p.ctes.foldl (fun c e => upd c e.1 none) cte) with
    | none => none
    | some cte' => match evalCore S db (q cte') cte' env p.core with
      | none => none
      | some (h, rows) => match (match p.more with
          | [] => evalOrder S p.order h rows
          | more => match evalMore S db (q cte') cte' env more (rows.map (·.1)) with
            | none => none
            | some rows => evalOrder S p.order h (rows.map fun r => (r, fun _ => none))) with
        | none => none
        | some rows => some (h, limited (p.limit.map S.count) (p.offset.map S.count) rows)

/-- The table a query yields; none if it is no query of SQLite or refers to names that are not there.  The number bounds the
nesting of queries. -/
def evalQ (S : Sem V) (db : Db V) : Nat → CTE V → SEnv V → List Tok → Option (Rel V)
  | 0, _, _, _ => none
  | n + 1, cte, env, ts => evalBody S db (evalQ S db n) cte env ts

/-- The text is a query which yields the table. -/
def Yields (S : Sem V) (db : Db V) (ts : List Tok) (r : Rel V) : Prop :=
  ∃ N, ∀ n, N ≤ n → evalQ S db n (fun _ => none) (fun _ => none) ts = some r

/-- SQLite reports an error for the text. -/
def Fails (S : Sem V) (db : Db V) (ts : List Tok) : Prop :=
  ∀ n, evalQ S db n (fun _ => none) (fun _ => none) ts = none
end

end Verif.Query
