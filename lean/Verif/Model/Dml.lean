import Verif.Model.Query

/-!
# INSERT, UPDATE, DELETE and CREATE TABLE … AS SELECT

The statements that change rows (formatter.go:1562-1684, spec.go:128-136 and 551-575, stmt_action.go:63-87): their meaning, the
SQLite statements they become, and what SQLite does with those.

Simplified: names of tables and columns are taken after folding upper and lower case, which neither ZetaSQL nor SQLite
distinguishes; constraints of tables are left out (`Model/Schema`); UPDATE of a field of a struct or of array elements is left
out; a WHERE clause is always there, as ZetaSQL demands; the columns of the query of INSERT are the output columns of the
statement; parameters are literals.
-/

namespace Verif.Query

/-! ## Resolved statements -/

/-- Resolved DML statements.  `tcols` are the columns of the scan of the target, `src` the scan of FROM. -/
inductive Dml where
  | insertRows (t : TName) (cols : List (List Char)) (rows : List Exprs)
  | insertQuery (t : TName) (cols : List (List Char)) (s : Scan)
  | update (t : TName) (tcols : List Col) (sets : List (Col × Expr)) (src : Option Scan) (wh : Expr)
  | delete (t : TName) (tcols : List Col) (wh : Expr)

section
variable {V : Type} [DecidableEq V]

/-! ## The meaning of statements -/

/-- The columns of a row of the target. -/
def tenv (names : List (List Char)) (tcols : List Col) (r : List V) : Env V :=
  fun c => if c ∈ tcols then lk names r c.name else none

/-- A new row with these values for these columns; NULL for the others. -/
def newRow (null : V) (names cols : List (List Char)) (vals : List V) : List V := names.map fun n => (lk cols vals n).getD null

/-- Appends rows with values for some columns to a table. -/
def insertInto (null : V) (db : Db V) (t : TName) (cols : List (List Char)) (rows : List (List V)) : Option (Db V) :=
  match db t with
  | none => none
  | some (names, old) =>
    if cols.all (· ∈ names) && rows.all (fun r => r.length == cols.length) then
      some (upd db t (names, old ++ rows.map (newRow null names cols)))
    else none

/-- The row with new values for some columns. -/
def setRow (names : List (List Char)) (r : List V) (cols : List (List Char)) (vals : List V) : Option (List V) :=
  mapO (fun n => (lk cols vals n).or (lk names r n)) names

/-- The values of SET. -/
def evalSets (S : Sem V) (db : Db V) (env : Env V) (sets : List (Col × Expr)) : Option (List V) :=
  mapO (fun x => evalE S db (fun _ => none) env x.2) sets

/-- What a DML statement should do; none if it is an error.  A row of the target of UPDATE may match at most one row of
FROM. -/
def runDml (S : Sem V) (db : Db V) : Dml → Option (Db V)
  | .insertRows t cols rows => match mapO (evalEs S db (fun _ => none) (fun _ => none)) rows with
    | none => none
    | some vals => insertInto S.null db t cols vals
  | .insertQuery t cols s => match evalS S db (fun _ => none) (fun _ => none) s with
    | none => none
    | some rows => insertInto S.null db t cols rows
  | .update t tcols sets none wh => match db t with
    | none => none
    | some (names, rows) =>
      if sets.all (fun x => decide (x.1.name ∈ names)) then
        (mapO (fun r => match evalE S db (fun _ => none) (tenv names tcols r) wh with
          | none => none
          | some v =>
            if S.truth v then
              match evalSets S db (tenv names tcols r) sets with
              | none => none
              | some vals => setRow names r (sets.map (·.1.name)) vals
            else some r) rows).map fun rows' => upd db t (names, rows')
      else none
  | .update t tcols sets (some src) wh => match db t, evalS S db (fun _ => none) (fun _ => none) src with
    | some (names, rows), some from_ =>
      if sets.all (fun x => decide (x.1.name ∈ names)) then
        (mapO (fun r => match filtO (fun b => (evalE S db (fun _ => none) (bindR src.cols b (tenv names tcols r)) wh).map S.truth)
            from_ with
          | some [] => some r
          | some [b] => match evalSets S db (bindR src.cols b (tenv names tcols r)) sets with
            | none => none
            | some vals => setRow names r (sets.map (·.1.name)) vals
          | _ => none) rows).map fun rows' => upd db t (names, rows')
      else none
    | _, _ => none
  | .delete t tcols wh => match db t with
    | none => none
    | some (names, rows) =>
      (filtO (fun r => (evalE S db (fun _ => none) (tenv names tcols r) wh).map fun v => !S.truth v) rows).map
        fun rows' => upd db t (names, rows')
end

/-! ## The SQLite statements -/

/-- A DML statement of SQLite. -/
inductive DmlText where
  | insertRows (t : TName) (cols : List (List Char)) (rows : List (List SExpr))
  | insertQuery (t : TName) (cols : List (List Char)) (q : List Tok)
  | update (t : TName) (sets : List (Nm × SExpr)) (wh : SExpr)
  | delete (t : TName) (wh : SExpr)

/-- UpdateItemNode.FormatSQL, formatter.go:1637-1650: the target is always the plain name; the value has the plain names of
the statement. -/
def fmtSets (sets : List (Col × Expr)) : Option (List (Nm × SExpr)) :=
  mapO (fun x => (fmtE plain (fun _ => none) x.2).map fun e => (plain x.1, e)) sets

/-- InsertStmtNode (formatter.go:1579-1616), UpdateStmtNode (1656-1684) and DeleteStmtNode (1618-1635).  DML statements are
formatted without column identifiers (analyzer.go:280-281), except the query of INSERT (formatter.go:1593).  FROM of UPDATE is
not used. -/
def fmtDml : Dml → Option DmlText
  | .insertRows t cols rows => (mapO (fmtEs plain (fun _ => none)) rows).map fun rs => .insertRows t cols rs
  | .insertQuery t cols s => (fmtS uid (fun _ => none) s).map fun q => .insertQuery t cols q
  | .update t _ sets _ wh => match fmtSets sets, fmtE plain (fun _ => none) wh with
    | some xs, some x => some (.update t xs x)
    | _, _ => none
  | .delete t _ wh => (fmtE plain (fun _ => none) wh).map fun x => .delete t x

/-! ## What SQLite does (trusted) -/

section
variable {V : Type} [DecidableEq V]

/-- The columns of a row of the target. -/
def rowEnv (names : List (List Char)) (r : List V) : SEnv V := bindR (names.map .raw) r (fun _ => none)

/-- The column a name in SET refers to. -/
def Nm.target : Nm → Option (List Char)
  | .raw s => some s
  | _ => none

/-- The database after a DML statement; none if SQLite reports an error.  Conditions and values are those before the
statement.  The number bounds the nesting of queries. -/
def evalDml (S : Sem V) (db : Db V) (n : Nat) : DmlText → Option (Db V)
  | .insertRows t cols rows => match mapO (evalXs S (evalQ S db n (fun _ => none)) (fun _ => none)) rows with
    | none => none
    | some vals => insertInto S.null db t cols vals
  | .insertQuery t cols q => match evalQ S db n (fun _ => none) (fun _ => none) q with
    | none => none
    | some (_, rows) => insertInto S.null db t cols rows
  | .update t sets wh => match db t, mapO (fun x => x.1.target) sets with
    | some (names, rows), some cols =>
      if cols.all (· ∈ names) then
        (mapO (fun r => match evalX S (evalQ S db n (fun _ => none)) (rowEnv names r) wh with
          | none => none
          | some v =>
            if S.truth v then
              match mapO (fun x => evalX S (evalQ S db n (fun _ => none)) (rowEnv names r) x.2) sets with
              | none => none
              | some vals => setRow names r cols vals
            else some r) rows).map fun rows' => upd db t (names, rows')
      else none
    | _, _ => none
  | .delete t wh => match db t with
    | none => none
    | some (names, rows) =>
      (filtO (fun r => (evalX S (evalQ S db n (fun _ => none)) (rowEnv names r) wh).map fun v => !S.truth v) rows).map
        fun rows' => upd db t (names, rows')

/-! ## CREATE TABLE … AS SELECT -/

/-- `ast.CreateMode`. -/
inductive CMode where
  | default | orReplace | ifNotExists
  deriving DecidableEq, Repr

/-- `DROP TABLE IF EXISTS`. -/
def dropT (db : Db V) (t : TName) : Db V := fun m => if m = t then none else db m

/-- What SQLite does with `CREATE TABLE t AS q`: the database afterwards, and whether it worked. -/
def createAs (S : Sem V) (db : Db V) (n : Nat) (t : TName) (q : List Tok) : Db V × Bool :=
  match db t with
  | some _ => (db, false)
  | none => match evalQ S db n (fun _ => none) (fun _ => none) q with
    | none => (db, false)
    | some (h, rows) => match mapO Nm.target h with
      | none => (db, false)
      | some names => (upd db t (names, rows), true)

/-- CreateTableStmtAction.exec (stmt_action.go:63-87) for a table with a query: OR REPLACE drops the table first; the text
(TableSpec.SQLiteSchema, spec.go:128-136) does not mention IF NOT EXISTS; the query is that of newTableAsSelectSpec
(spec.go:551-575), the same as for a query (`fmtQuery`). -/
def execCtas (S : Sem V) (db : Db V) (n : Nat) (mode : CMode) (t : TName) (out : List (Col × List Char)) (s : Scan) :
    Db V × Bool :=
  match fmtQuery out s with
  | none => (db, false)
  | some q => createAs S (if mode = .orReplace then dropT db t else db) n t q

/-- What the statement should do, if the query has these rows. -/
def ctas (db : Db V) (mode : CMode) (t : TName) (names : List (List Char)) (rows : List (List V)) : Db V × Bool :=
  match db t, mode with
  | none, _ => (upd db t (names, rows), true)
  | some _, .default => (db, false)
  | some _, .ifNotExists => (db, true)
  | some _, .orReplace => (upd db t (names, rows), true)
end

end Verif.Query
