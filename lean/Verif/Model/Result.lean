import Verif.Model.Dml

/-!
# The result of Exec
(internal/result.go, internal/stmt_action.go, internal/stmt.go, driver.go:166-198)

Which number RowsAffected gives.  Simplified: a call has at least one statement; LastInsertId is left out.
-/

namespace Verif.Query

section
variable {V : Type} [DecidableEq V]

/-- The actions of statements, stmt_action.go, by the results of their ExecContext.  The effects of those that do not report rows are
arbitrary: CREATE, DROP, BEGIN, COMMIT and queries run at most one statement of SQLite (lines 88-93, 177-182, 218-223, 283-288,
386-391, 434-436, 458-460), TRUNCATE one (486-491) and MERGE several (517-531). -/
inductive SAction (V : Type) where
  | dml (t : DmlText)
  | truncate (f : Db V → Option (Db V))
  | merge (fs : List (Db V → Option (Db V)))
  | other (f : Db V → Option (Db V))

/-- The number of rows SQLite reports for a statement (trusted): the rows that are inserted; the rows for which the condition of UPDATE
or DELETE is true. -/
def changes (S : Sem V) (db : Db V) (n : Nat) : DmlText → Option Nat
  | .insertRows _ _ rows => some rows.length
  | .insertQuery _ _ q => (evalQ S db n (fun _ => none) (fun _ => none) q).map fun r => r.2.length
  | .update t _ wh | .delete t wh => match db t with
    | none => none
    | some (names, rows) =>
      (filtO (fun r => (evalX S (evalQ S db n (fun _ => none)) (rowEnv names r) wh).map S.truth) rows).map List.length

/-- ExecContext of an action: the database, and the result of SQLite that is kept in the Result (result.go:5-8; DMLStmtAction:
stmt_action.go:341-347; the others leave it nil).  None if it fails. -/
def SAction.exec (S : Sem V) (db : Db V) (n : Nat) : SAction V → Option (Db V × Option Nat)
  | .dml t => match evalDml S db n t, changes S db n t with
    | some db', some k => some (db', some k)
    | _, _ => none
  | .truncate f => (f db).map fun db' => (db', none)
  | .merge fs => (fs.foldl (fun d f => d.bind f) (some db)).map fun db' => (db', none)
  | .other f => (f db).map fun db' => (db', none)

/-- driver.go:183-197: the loop of ExecContext; the result is that of the last statement. -/
def execAll (S : Sem V) (n : Nat) : Db V → Option Nat → List (SAction V) → Option (Db V × Option Nat)
  | db, r, [] => some (db, r)
  | db, _, a :: as => match a.exec S db n with
    | none => none
    | some (db', r') => execAll S n db' r' as

/-- result.go:21-26 RowsAffected. -/
def rowsAffected : Option Nat → Nat
  | none => 0
  | some k => k

end

/-! ### Prepared statements -/

/-- The prepared statements of stmt.go that Exec can run. -/
inductive PStmt where
  | createTable
  | createView
  | createFunction
  | dml

/-- `Exec` and then `RowsAffected` on the result: the Exec methods of CREATE statements return a nil result (stmt.go:44-52, 80-88,
108-113), on which database/sql calls the method (`driverResult.RowsAffected`); a DML statement returns that of SQLite (144-165). -/
def PStmt.rowsAffected (sqlite : Nat) : PStmt → Verif.Go.Res Nat
  | .createTable | .createView | .createFunction => .panic
  | .dml => .ok sqlite

end Verif.Query
