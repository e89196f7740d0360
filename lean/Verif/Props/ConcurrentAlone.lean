import Verif.Model.Concurrent
import Verif.Props.EngineScripts

/-!
# A call that runs alone is the call of `Verif.Engine`
-/

namespace Verif.Concurrent
open Verif.Catalog Verif.Catalog.Spec Verif.Driver Verif.Engine

/-- The state of `Verif.Engine` without what belongs to the call. -/
def toShared (st : St) (last : Nat) : Shared :=
  { world := { proc := { mem := st.mem, lastSyncedAt := last }, rows := st.rows, clock := st.now }, phys := st.phys }

/-- Operations until one fails. -/
def doOps : List Op → Shared → Shared × Bool
  | [], sh => (sh, true)
  | o :: os, sh => if (o.run 0 sh).2.ok then doOps os (o.run 0 sh).1 else ((o.run 0 sh).1, false)

theorem runAlone_runOps {α : Type} (k : Bool → Prog α) : ∀ (os : List Op) (sh : Shared),
    runAlone (runOps os k) sh = runAlone (k (doOps os sh).2) (doOps os sh).1
  | [], sh => rfl
  | o :: os, sh => by
    simp only [runOps, runAlone, doOps]
    cases (o.run 0 sh).2.ok with
    | true => simpa using runAlone_runOps k os _
    | false => simp

/-- The state and the success of an `Engine` step. -/
def shOf (last : Nat) (r : St × Option Err) : Shared × Bool := (toShared r.1 last, r.2.isNone)

theorem bool_cases (b : Bool) : b = false ∨ b = true := by cases b <;> simp

theorem sqlDrop_failed {phys : Name → Option Bool} {n : Name} {view ie : Bool} (h : (sqlDrop phys n view ie).2 = false) :
    (sqlDrop phys n view ie).1 = phys := by
  revert h; unfold sqlDrop
  split
  · simp
  · split <;> simp

theorem doOps_create (s : Catalog.Spec) (view : Bool) (mode : Mode) (a : Bool) (st : St) (last : Nat) :
    doOps ((if mode = .orReplace then [.drop s.key view true] else []) ++
      [.create s.key view (mode = .ifNotExists && !a), .cat (.createTable s)]) (toShared st last) =
    shOf last (execCreate s view mode a st) := by
  have tail : ∀ st : St, doOps [.create s.key view (mode = .ifNotExists && !a), .cat (.createTable s)] (toShared st last) =
      shOf last (
        let c := sqlCreate st.phys s.key view (mode = .ifNotExists && !a)
        if c.2 = false then ({ st with phys := c.1 }, fail)
        else
          let r := addNewTableSpec st.mem st.rows s st.now
          let st' := { st with phys := c.1, mem := r.1, rows := r.2.1 }
          if r.2.2 = false then (st', fail)
          else if !view && !s.isTemp then ({ st' with evs := st'.evs ++ [.addTable s] }, none)
          else (st', none)) := by
    intro st
    simp only [doOps, Op.run, toShared, World.step, Nat.add_zero]
    rcases bool_cases (sqlCreate st.phys s.key view (mode = .ifNotExists && !a)).2 with hc | hc
    · simp [hc, shOf, fail, toShared]
    · rcases bool_cases (addNewTableSpec st.mem st.rows s st.now).2.2 with hr | hr
      · simp [hc, hr, shOf, fail, toShared]
      · simp only [hc, hr, if_true, Bool.true_eq_false, if_false]
        split <;> simp [shOf, toShared]
  by_cases hm : mode = .orReplace
  · subst hm
    simp only [if_true, List.cons_append, List.nil_append]
    rw [doOps]
    simp only [execCreate, if_true]
    have hrun : Op.run 0 (toShared st last) (.drop s.key view true) =
        (toShared { st with phys := (sqlDrop st.phys s.key view true).1 } last, ⟨(sqlDrop st.phys s.key view true).2, none⟩) := rfl
    rw [hrun]
    rcases bool_cases (sqlDrop st.phys s.key view true).2 with hd | hd
    · simp [hd, shOf, fail, sqlDrop_failed hd]
    · simp only [hd, if_true, Bool.true_eq_false, if_false]
      have := tail { st with phys := (sqlDrop st.phys s.key view true).1 }
      simpa using this
  · simp only [hm, if_false, List.nil_append, execCreate, Bool.true_eq_false]
    exact tail st

theorem doOps_drop (n : Name) (view ie : Bool) (st : St) (last : Nat) :
    doOps [.drop n view ie, .cat (.dropTable n)] (toShared st last) = shOf last (execDrop n view ie st) := by
  simp only [doOps, Op.run, toShared, World.step, execDrop, Nat.add_zero]
  rcases bool_cases (sqlDrop st.phys n view ie).2 with hd | hd
  · simp [hd, shOf, fail, sqlDrop_failed hd, toShared]
  · cases ht : st.mem.tableMap n with
    | none =>
      have : deleteTableSpec st.mem st.rows n = (st.mem, st.rows, false) := by
        simp only [deleteTableSpec, deleteTableSpecByName, ht]
      simp [hd, this, shOf, fail, toShared]
    | some s =>
      rcases bool_cases (deleteTableSpec st.mem st.rows n).2.2 with hr | hr <;> simp [hd, hr, shOf, fail, toShared]

theorem doOps_cleanup (s : Catalog.Spec) (view : Bool) (st : St) (last : Nat) (h : s.isTemp = true) :
    doOps [.drop s.key view true, .cat (.dropTable s.key)] (toShared st last) = shOf last (cleanupCreate s view st) := by
  simp only [doOps, Op.run, toShared, World.step, cleanupCreate, h, Nat.add_zero]
  rcases bool_cases (sqlDrop st.phys s.key view true).2 with hd | hd
  · simp [hd, shOf, fail, sqlDrop_failed hd, toShared]
  · rcases bool_cases (deleteTableSpec st.mem st.rows s.key).2.2 with hr | hr <;> simp [hd, hr, shOf, fail, toShared]

/-- Executing a statement. -/
theorem doOps_exec (x : Engine.Stmt) (a : Action St) (ha : x.action = some a) (hx : x ≠ .other false) (st : St) (last : Nat) :
    doOps (ops x) (toShared st last) = shOf last (a.exec st) := by
  cases x with
  | createTable s mode as => simp only [Stmt.action, Option.some.injEq] at ha; subst ha; exact doOps_create s false mode as st last
  | createView s mode =>
    simp only [Stmt.action, Option.some.injEq] at ha; subst ha
    have := doOps_create s true mode false st last
    simpa [ops] using this
  | createFunction s =>
    simp only [Stmt.action, Option.some.injEq] at ha; subst ha
    simp only [ops, doOps, Op.run, toShared, World.step, execCreateFunction, Nat.add_zero]
    rcases bool_cases (addNewFunctionSpec st.mem st.rows s st.now).2.2 with hr | hr <;> simp [hr, shOf, fail, toShared]
  | dropTable n ie => simp only [Stmt.action, Option.some.injEq] at ha; subst ha; exact doOps_drop n false ie st last
  | dropView n ie => simp only [Stmt.action, Option.some.injEq] at ha; subst ha; exact doOps_drop n true ie st last
  | dropFunction n =>
    simp only [Stmt.action, Option.some.injEq] at ha; subst ha
    simp only [ops, doOps, Op.run, toShared, World.step, execDropFunction, Nat.add_zero]
    rcases bool_cases (deleteFunctionSpec st.mem st.rows n).2.2 with hr | hr <;> simp [hr, shOf, fail, toShared]
  | other ok =>
    simp only [Stmt.action, Option.some.injEq] at ha; subst ha
    cases ok with
    | true => simp [ops, doOps, shOf]
    | false => exact absurd rfl hx
  | rejected => simp [Stmt.action] at ha

/-- Cleaning up after a statement. -/
theorem doOps_cleanups (x : Engine.Stmt) (a : Action St) (ha : x.action = some a) (st : St) (last : Nat) :
    doOps (cleanupOps x) (toShared st last) = shOf last (a.cleanup st) := by
  cases x with
  | createTable s mode as =>
    simp only [Stmt.action, Option.some.injEq] at ha; subst ha
    cases h : s.isTemp with
    | true => simp only [cleanupOps, h, if_true]; exact doOps_cleanup s false st last h
    | false => simp [cleanupOps, h, doOps, cleanupCreate, shOf]
  | createView s mode =>
    simp only [Stmt.action, Option.some.injEq] at ha; subst ha
    cases h : s.isTemp with
    | true => simp only [cleanupOps, h, if_true]; exact doOps_cleanup s true st last h
    | false => simp [cleanupOps, h, doOps, cleanupCreate, shOf, toShared]
  | createFunction s =>
    simp only [Stmt.action, Option.some.injEq] at ha; subst ha
    cases h : s.isTemp with
    | true =>
      simp only [cleanupOps, h, if_true, doOps, Op.run, toShared, World.step, cleanupCreateFunction, Nat.add_zero, Bool.true_eq_false, if_false]
      rcases bool_cases (deleteFunctionSpec st.mem st.rows s.key).2.2 with hr | hr <;> simp [hr, shOf, fail, toShared]
    | false => simp [cleanupOps, h, doOps, cleanupCreateFunction, shOf]
  | dropTable n ie => simp only [Stmt.action, Option.some.injEq] at ha; subst ha; rfl
  | dropView n ie => simp only [Stmt.action, Option.some.injEq] at ha; subst ha; rfl
  | dropFunction n => simp only [Stmt.action, Option.some.injEq] at ha; subst ha; rfl
  | other ok => simp only [Stmt.action, Option.some.injEq] at ha; subst ha; rfl
  | rejected => simp [Stmt.action] at ha

/-- Every error of the catalog statements has the same code. -/
theorem cleanup_err (x : Engine.Stmt) (a : Action St) (ha : x.action = some a) (st : St) :
    (a.cleanup st).2 = none ∨ (a.cleanup st).2 = some 1 := by
  cases x <;> simp only [Stmt.action, Option.some.injEq, reduceCtorEq] at ha <;> subst ha
  · simp only [cleanupCreate, fail]; repeat' split
    all_goals simp
  · simp only [cleanupCreate, fail]; repeat' split
    all_goals simp
  · simp only [cleanupCreateFunction, fail]; repeat' split
    all_goals simp
  all_goals simp

theorem exec_err (x : Engine.Stmt) (a : Action St) (ha : x.action = some a) (st : St) :
    (a.exec st).2 = none ∨ (a.exec st).2 = some 1 := by
  cases x <;> simp only [Stmt.action, Option.some.injEq, reduceCtorEq] at ha <;> subst ha
  · simp only [execCreate, fail]; repeat' split
    all_goals simp
  · simp only [execCreate, fail]; repeat' split
    all_goals simp
  · simp only [execCreateFunction, fail]; repeat' split
    all_goals simp
  · simp only [execDrop, fail]; repeat' split
    all_goals simp
  · simp only [execDrop, fail]; repeat' split
    all_goals simp
  · simp only [execDropFunction, fail]; repeat' split
    all_goals simp
  · simp only [fail]; split <;> simp

theorem runAlone_cleanup (last : Nat) (seen : List Catalog.Spec) : ∀ (xs : List Engine.Stmt) (errs : List Err) (st : St),
    (∀ x ∈ xs, x ≠ .rejected) →
    runAlone (cleanupProg xs ⟨errs, seen⟩) (toShared st last) =
      (toShared (cleanups (xs.filterMap Stmt.action) st).1 last, ⟨errs ++ (cleanups (xs.filterMap Stmt.action) st).2, seen⟩)
  | [], errs, st, _ => by simp [cleanupProg, runAlone, cleanups]
  | x :: xs, errs, st, h => by
    cases ha : x.action with
    | none => exact absurd (by revert ha; cases x <;> simp [Stmt.action]) (h x (by simp))
    | some a =>
      rw [cleanupProg, runAlone_runOps, doOps_cleanups x a ha]
      simp only [shOf]
      rw [runAlone_cleanup last seen xs _ _ (fun y hy => h y (by simp [hy]))]
      simp only [List.filterMap_cons, ha, cleanups]
      rcases cleanup_err x a ha st with e | e <;> simp [e]

theorem runAlone_body (last : Nat) : ∀ (xs : List Engine.Stmt) (started : List Engine.Stmt) (st : St),
    (∀ x ∈ started, x ≠ .rejected) →
    runAlone (bodyProg (xs.map .ddl) started []) (toShared st last) =
      (let r := loop (xs.map Stmt.func) st (started.filterMap Stmt.action)
       let c := cleanups r.2.1 r.1
       (toShared c.1 last, ⟨r.2.2.toList ++ c.2, []⟩))
  | [], started, st, h => by
    simp only [List.map_nil, bodyProg, loop]
    rw [runAlone_cleanup last [] started [] st h]
    simp
  | x :: xs, started, st, h => by
    cases ha : x.action with
    | none =>
      have hx : x = .rejected := by revert ha; cases x <;> simp [Stmt.action]
      subst hx
      simp only [List.map_cons, bodyProg, loop, Stmt.func, ha]
      rw [runAlone_cleanup last [] started _ st h]
      simp
    | some a =>
      have hx : x ≠ .rejected := by rintro rfl; simp [Stmt.action] at ha
      have h' : ∀ y ∈ started ++ [x], y ≠ Engine.Stmt.rejected := by
        intro y hy
        rcases List.mem_append.1 hy with hy | hy
        · exact h y hy
        · simp only [List.mem_singleton] at hy; rw [hy]; exact hx
      have hf : (started ++ [x]).filterMap Stmt.action = started.filterMap Stmt.action ++ [a] := by simp [ha]
      by_cases ho : x = .other false
      · subst ho
        simp only [Stmt.action, Option.some.injEq] at ha
        subst ha
        simp only [List.map_cons, bodyProg, loop, Stmt.func, Stmt.action, fail]
        rw [runAlone_cleanup last [] _ _ st h', hf]
        simp [fail]
      · have hb : bodyProg ((x :: xs).map Stmt.ddl) started [] = runOps (ops x) fun ok =>
            if ok then bodyProg (xs.map Stmt.ddl) (started ++ [x]) [] else cleanupProg (started ++ [x]) ⟨[1], []⟩ := by
          rw [List.map_cons]
          cases x <;> first | rfl | exact absurd rfl hx | skip
          rename_i ok; cases ok
          · exact absurd rfl ho
          · rfl
        rw [hb, runAlone_runOps, doOps_exec x a ha ho]
        simp only [shOf, List.map_cons, loop, Stmt.func, ha]
        rcases exec_err x a ha st with e | e
        · have e' : a.exec st = ((a.exec st).1, none) := Prod.ext rfl e
          simp only [e, Option.isNone_none, if_true]
          rw [runAlone_body last xs _ _ h', hf, e']
        · have e' : a.exec st = ((a.exec st).1, some 1) := Prod.ext rfl e
          simp only [e, Option.isNone_some, Bool.false_eq_true, if_false]
          rw [runAlone_cleanup last [] _ _ _ h', hf, e']
          simp

/-- `Sync` changes nothing of a catalog that is up to date. -/
theorem sync_known {sh : Shared} {d : Dict} (h : Inv sh.world d) (dt : Nat) :
    ((Op.cat .sync).run dt sh) =
      ({ sh with world := { sh.world with proc := { mem := sh.world.proc.mem, lastSyncedAt := sh.world.clock + dt }, clock := sh.world.clock + dt } }, ⟨true, none⟩) := by
  have hload := loadRows_known d.tables d.functions h.kt h.kf
    (sh.world.rows.filter fun r => sh.world.proc.lastSyncedAt ≤ r.updatedAt)
    (fun r hr => h.rows.good r (List.mem_filter.1 hr).1)
    (fun r hr => by
      have hr := (List.mem_filter.1 hr).1
      cases hfn : r.isFn
      · simpa using (h.rows.mem_table hr hfn).1
      · simpa using (h.rows.mem_fn hr hfn).1)
  simp only [Op.run, World.step, Catalog.sync, h.mem, hload]

/-- A call of catalog statements that runs alone does what `Engine.exec` says: the same catalog, rows and SQLite objects, and the
same errors. -/
theorem alone_exec (xs : List Engine.Stmt) (st : St) (d : Dict) (last : Nat) (h : EInv st d) :
    runAlone (callProg (xs.map .ddl)) (toShared st last) = (toShared (exec xs st).1 st.now, ⟨(exec xs st).2, []⟩) := by
  have hs := sync_known (sh := toShared st last) (d := d) ⟨h.mem, h.kt, h.kf, h.disj, h.rows⟩ 0
  simp only [callProg, runAlone, hs, if_true]
  have := runAlone_body st.now xs [] st (by simp)
  simpa [exec, execContext, toShared] using this

end Verif.Concurrent
