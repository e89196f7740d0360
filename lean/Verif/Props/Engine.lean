import Verif.Model.Engine
import Verif.Lemmas.CatalogHistory
import Verif.Props.Catalog

/-!
# Statements that change the catalog (C13, C78–C81)
-/

namespace Verif.Engine
open Verif.Catalog Verif.Catalog.Spec Verif.Driver

/-- A database just opened. -/
def St.init : St :=
  { mem := Mem.empty, rows := [], phys := fun _ => none, evs := [], fm := fun _ => none, now := 0 }

def tSpec (temp : Bool) (body : Nat) : Catalog.Spec := { path := [['t']], isTemp := temp, isView := false, body := body }
def fSpec (temp : Bool) (body : Nat) : Catalog.Spec := { path := [['f']], isTemp := temp, isView := false, body := body }

/-- What a user can see of the object named `n`: the SQLite object, the catalog's table and function. -/
def seen (st : St) (n : Name) : Option Bool × Option Catalog.Spec × Option Catalog.Spec :=
  (st.phys n, st.mem.tableMap n, queryFuncMap st.mem [] n)

/-! ## C78: temporary objects never destroy permanent ones -/

/-- States reached by running scripts one after the other. -/
inductive Reachable : St → Prop
  | init : Reachable St.init
  | exec {st} (script : List Stmt) : Reachable st → Reachable (exec script st).1

/-- C78 at full strength: a CREATE TEMP statement that ends in an error, or that is cleaned up at the end of
the call, leaves what existed before as it was. -/
def C78_full : Prop := ∀ st s n, Reachable st → s.isTemp = true →
  seen (exec [.createTable s .default false] st).1 n = seen st n ∧
  seen (exec [.createFunction s] st).1 n = seen st n

/-- The code violates C78: `CREATE TEMP TABLE t` fails if `t` exists, and then drops the permanent `t`. -/
theorem C78_full_false : ¬ C78_full := by
  intro h
  have := (h (exec [.createTable (tSpec false 1) .default false] St.init).1 (tSpec true 2) ['t']
    (.exec _ .init) rfl).1
  revert this; decide

/-- The destroyed table is also removed from the persistent catalog, and the statement reported an error. -/
theorem C78_temp_table_destroys_permanent :
    let st := (exec [.createTable (tSpec false 1) .default false] St.init).1
    let r := exec [.createTable (tSpec true 2) .default false] st
    st.rows.length = 1 ∧ seen st ['t'] = (some false, some (tSpec false 1), none) ∧
    r.2 ≠ [] ∧ r.1.rows = [] ∧ seen r.1 ['t'] = (none, none, none) := by decide

/-- The same for functions: after `CREATE TEMP FUNCTION f` the permanent `f` is gone for good. -/
theorem C78_temp_function_destroys_permanent :
    let st := (exec [.createFunction (fSpec false 1)] St.init).1
    let r := exec [.createFunction (fSpec true 2)] st
    st.rows.length = 1 ∧ seen st ['f'] = (none, none, some (fSpec false 1)) ∧
    r.2 = [] ∧ r.1.rows = [] ∧ seen r.1 ['f'] = (none, none, none) := by decide

/-- The part of C78 that holds: a plain CREATE of a permanent table or view over an existing SQLite object
fails and changes nothing (a permanent view is still recorded as added in the change record of
the failed call). -/
theorem C78_failed_create_partial (st : St) (s : Catalog.Spec) (hs : s.isTemp = false) (v : Bool)
    (hex : st.phys s.key = some v) (asSelect : Bool) :
    exec [.createTable s .default asSelect] st = (st, [1]) ∧
    ∃ evs, exec [.createView s .default] st = ({ st with evs := evs }, [1]) := by
  constructor
  · simp [exec, execContext, loop, Stmt.func, Stmt.action, execCreate, sqlCreate, hex, fail, cleanups, cleanupCreate, hs]
  · refine ⟨st.evs ++ [.addTable s], ?_⟩
    simp [exec, execContext, loop, Stmt.func, Stmt.action, execCreate, sqlCreate, hex, fail, cleanups, cleanupCreate, hs]

example : (exec [.createTable (tSpec false 1) .default false] St.init).1.phys (tSpec false 2).key = some false := by decide

/-! ## C79: DROP IF EXISTS -/

/-- C79 at full strength: dropping a missing table with IF EXISTS succeeds and does nothing. -/
def C79_full : Prop := ∀ st n, Reachable st → st.phys n = none → st.mem.tableMap n = none →
  exec [.dropTable n true] st = (st, []) ∧ exec [.dropView n true] st = (st, [])

/-- The code violates C79: the statement reports an error. -/
theorem C79_full_false : ¬ C79_full := by
  intro h
  have := congrArg Prod.snd (h St.init ['t'] .init rfl rfl).1
  revert this; decide

/-- The part of C79 that holds: the statement changes nothing; and it succeeds, removing the table from SQLite, when
the table exists. -/
theorem C79_drop_if_exists_partial (st : St) (n : Name) :
    (st.phys n = none → st.mem.tableMap n = none → (exec [.dropTable n true] st).1 = st ∧ (exec [.dropView n true] st).1 = st) ∧
    (∀ ts fs s, st.mem = canon ts fs → Keys ts → Keys fs → s ∈ ts → s.key = n → st.phys n = some false →
      let r := exec [.dropTable n true] st
      r.2 = [] ∧ r.1.phys n = none ∧ r.1.mem.tableMap n = none ∧ ∀ m, m ≠ n → r.1.phys m = st.phys m ∧ r.1.mem.tableMap m = st.mem.tableMap m) := by
  constructor
  · intro h1 h2
    constructor <;>
      simp [exec, execContext, loop, Stmt.func, Stmt.action, execDrop, sqlDrop, h1, h2, deleteTableSpec, deleteTableSpecByName,
        fail, cleanups]
  · intro ts fs s hm ht hf hs hk hp
    have hl : lookup ts n = some s := hk ▸ lookup_mem ht hs
    have hdel := deleteTable_eq ts fs ht hf n
    rw [hl] at hdel
    have htm : st.mem.tableMap n = some s := by rw [hm]; exact hl
    have hr : exec [.dropTable n true] st =
        ({ st with phys := fun m => if m = n then none else st.phys m, mem := canon (remove ts n) fs,
                   rows := deleteRow st.rows n, evs := st.evs ++ [.delTable s] }, []) := by
      have hd : deleteTableSpec st.mem st.rows n = (canon (remove ts n) fs, deleteRow st.rows n, true) := by
        simp only [deleteTableSpec, hm, hdel, Option.isSome_some]
      have he : execDrop n false true st = ({ st with phys := fun m => if m = n then none else st.phys m, mem := canon (remove ts n) fs, rows := deleteRow st.rows n, evs := st.evs ++ [.delTable s] }, none) := by
        simp only [execDrop, sqlDrop, hp, hd, htm]; simp
      simp [exec, execContext, loop, Stmt.func, Stmt.action, he, cleanups]
    simp only [hr]
    refine ⟨trivial, by simp, lookup_remove_self ts n, ?_⟩
    intro m hne
    refine ⟨by simp [hne], ?_⟩
    rw [hm]
    exact lookup_remove_ne (Ne.symm hne)

/-! ## C80: preparing has no effect -/

/-- C80 at full strength. -/
def C80_full : Prop := ∀ st x, Reachable st → (prepare x st).1 = st

/-- The code violates C80: preparing `CREATE OR REPLACE TABLE t` drops the stored `t`. -/
theorem C80_full_false : ¬ C80_full := by
  intro h
  have := congrArg (fun s => s.phys ['t'])
    (h (exec [.createTable (tSpec false 1) .default false] St.init).1 (.createTable (tSpec false 2) .orReplace false) (.exec _ .init))
  revert this; decide

/-- C80 for every statement that is not CREATE OR REPLACE. -/
theorem C80_prepare_partial (st : St) (x : Stmt)
    (h1 : ∀ s a, x ≠ .createTable s .orReplace a) (h2 : ∀ s, x ≠ .createView s .orReplace) : (prepare x st).1 = st := by
  cases x with
  | createTable s mode a =>
    have hm : mode ≠ .orReplace := fun e => h1 s a (by rw [e])
    simp [prepare, hm]
  | createView s mode =>
    have hm : mode ≠ .orReplace := fun e => h2 s (by rw [e])
    simp [prepare, hm]
  | _ => rfl

/-- **C80** exactly: preparing changes the store if and only if the statement is CREATE OR REPLACE and the object is there, and then it takes
that object away and nothing else. -/
theorem C80_iff (st : St) (x : Stmt) :
    ((prepare x st).1 ≠ st ↔ ∃ s, (∃ a, x = .createTable s .orReplace a ∧ st.phys s.key = some false) ∨ (x = .createView s .orReplace ∧ st.phys s.key = some true)) ∧
    ∀ s, (∃ a, x = .createTable s .orReplace a) ∨ x = .createView s .orReplace →
      (prepare x st).1 ≠ st → (prepare x st).1 = { st with phys := fun m => if m = s.key then none else st.phys m } := by
  have key : ∀ (s : Catalog.Spec) (view asSelect : Bool), x = (if view then .createView s .orReplace else .createTable s .orReplace asSelect) →
      (prepare x st).1 = (if st.phys s.key = some view then { st with phys := fun m => if m = s.key then none else st.phys m } else st) := by
    intro s view asSelect hx
    subst hx
    rcases hp : st.phys s.key with _ | v
    · cases view <;> simp [prepare, sqlDrop, hp]
    · cases view <;> cases v <;> simp [prepare, sqlDrop, hp]
  have ne : ∀ (n : Name) (v : Bool), st.phys n = some v → ({ st with phys := fun m => if m = n then none else st.phys m } : St) ≠ st := by
    intro n v hv h
    have := congrArg (fun s => s.phys n) h
    simp [hv] at this
  by_cases h1 : ∃ s a, x = .createTable s .orReplace a
  · obtain ⟨s, a, rfl⟩ := h1
    have k := key s false a rfl
    rw [k]
    refine ⟨?_, ?_⟩
    · constructor
      · intro h
        refine ⟨s, Or.inl ⟨a, rfl, ?_⟩⟩
        false_or_by_contra
        rename_i hn
        rw [if_neg hn] at h
        exact h rfl
      · rintro ⟨s', ⟨a', he, hp⟩ | ⟨he, hp⟩⟩
        · cases he
          rw [if_pos hp]; exact ne _ _ hp
        · cases he
    · intro s' hs h
      have : s' = s := by
        rcases hs with ⟨a', he⟩ | he
        · cases he; rfl
        · cases he
      subst this
      by_cases hp : st.phys s'.key = some false
      · rw [if_pos hp]
      · rw [if_neg hp] at h; exact absurd rfl h
  · by_cases h2 : ∃ s, x = .createView s .orReplace
    · obtain ⟨s, rfl⟩ := h2
      have k := key s true false rfl
      rw [k]
      refine ⟨?_, ?_⟩
      · constructor
        · intro h
          refine ⟨s, Or.inr ⟨rfl, ?_⟩⟩
          false_or_by_contra
          rename_i hn
          rw [if_neg hn] at h
          exact h rfl
        · rintro ⟨s', ⟨a', he, hp⟩ | ⟨he, hp⟩⟩
          · cases he
          · cases he
            rw [if_pos hp]; exact ne _ _ hp
      · intro s' hs h
        have : s' = s := by
          rcases hs with ⟨a', he⟩ | he
          · cases he
          · cases he; rfl
        subst this
        by_cases hp : st.phys s'.key = some true
        · rw [if_pos hp]
        · rw [if_neg hp] at h; exact absurd rfl h
    · have hs := C80_prepare_partial st x (fun s a e => h1 ⟨s, a, e⟩) (fun s e => h2 ⟨s, e⟩)
      refine ⟨⟨fun h => absurd hs h, ?_⟩, fun s he => ?_⟩
      · rintro ⟨s, ⟨a, he, _⟩ | ⟨he, _⟩⟩
        · exact absurd ⟨s, a, he⟩ h1
        · exact absurd ⟨s, he⟩ h2
      · rcases he with ⟨a, he⟩ | he
        · exact absurd ⟨s, a, he⟩ h1
        · exact absurd ⟨s, he⟩ h2

/-- Preparing CREATE OR REPLACE VIEW takes the view away. -/
example : (prepare (.createView (tSpec true 2) .orReplace) { St.init with phys := fun _ => some true }).1 ≠ { St.init with phys := fun _ => some true } :=
  (C80_iff _ _).1.2 ⟨_, Or.inr ⟨rfl, rfl⟩⟩

/-! ## C13 and C81: the net effect of a call -/

/-- The statement succeeds. -/
def Stmt.ok : Stmt → Bool
  | .other ok => ok
  | .rejected => false
  | _ => true

/-- Scripts that create only names that are free at that point (temporary or permanent, in any mode), mixed with
statements that do not touch the catalog and may fail. -/
def FreshScript : Dict → List Stmt → Prop
  | _, [] => True
  | d, .createTable s _ _ :: xs => s.isView = false ∧ FreshOp d (.createTable s) ∧ FreshScript (d.step (.createTable s)) xs
  | d, .createView s _ :: xs => s.isView = true ∧ FreshOp d (.createTable s) ∧ FreshScript (d.step (.createTable s)) xs
  | d, .createFunction s :: xs => FreshOp d (.createFunction s) ∧ FreshScript (d.step (.createFunction s)) xs
  | d, .other _ :: xs => FreshScript d xs
  | d, .rejected :: xs => FreshScript d xs
  | _, .dropTable _ _ :: _ => False
  | _, .dropView _ _ :: _ => False
  | _, .dropFunction _ :: _ => False

def Stmt.table : Stmt → Option Catalog.Spec
  | .createTable s _ _ => some s
  | .createView s _ => some s
  | _ => none

def Stmt.fn : Stmt → Option Catalog.Spec
  | .createFunction s => some s
  | _ => none

/-- The catalog and SQLite agree with the dictionary `d`. -/
structure EInv (st : St) (d : Dict) : Prop where
  mem : st.mem = canon d.tables d.functions
  kt : Keys d.tables
  kf : Keys d.functions
  disj : ∀ t ∈ d.tables, ∀ f ∈ d.functions, t.key ≠ f.key
  rows : RowsFor st.rows d.tables d.functions
  phys : ∀ n, st.phys n = (lookup d.tables n).map Catalog.Spec.isView

theorem EInv.init : EInv St.init Dict.empty :=
  ⟨canon_empty, ⟨by simp [Dict.empty], by simp [Dict.empty]⟩, ⟨by simp [Dict.empty], by simp [Dict.empty]⟩,
    by simp [Dict.empty], ⟨by simp [St.init], by simp [St.init, Dict.empty], by simp [St.init, Dict.empty]⟩, fun _ => rfl⟩

def worldOf (st : St) : World := { proc := { mem := st.mem, lastSyncedAt := 0 }, rows := st.rows, clock := st.now }

theorem EInv.world {st d} (h : EInv st d) : Inv (worldOf st) d := ⟨h.mem, h.kt, h.kf, h.disj, h.rows⟩

theorem execCreate_fresh {st : St} {d : Dict} (h : EInv st d) (s : Catalog.Spec) (view : Bool) (mode : Mode) (a : Bool)
    (hv : s.isView = view) (hf : FreshOp d (.createTable s)) :
    (execCreate s view mode a st).2 = none ∧ EInv (execCreate s view mode a st).1 (d.step (.createTable s)) ∧
    (execCreate s view mode a st).1.evs = st.evs ++ (if !view && !s.isTemp then [.addTable s] else []) ∧
    (execCreate s view mode a st).1.fm = st.fm ∧ (execCreate s view mode a st).1.now = st.now := by
  have hp : st.phys s.key = none := by
    rw [h.phys, lookup_none.2 hf.2.1]; rfl
  have hw := h.world.step 0 (.createTable s) hf
  have hw2 : (addNewTableSpec st.mem st.rows s st.now).2.2 = true := hw.2
  have hphys : ∀ n, (if n = s.key then some view else st.phys n) = (lookup (d.step (.createTable s)).tables n).map Catalog.Spec.isView := by
    intro n
    simp only [Dict.step, define_new hf.2.1, lookup_append_new hf.2.1, mapSet]
    split
    · simp [hv]
    · exact h.phys n
  have hstep := hw.1
  have key : ∀ evs, EInv { st with phys := fun m => if m = s.key then some view else st.phys m, mem := (addNewTableSpec st.mem st.rows s st.now).1, rows := (addNewTableSpec st.mem st.rows s st.now).2.1, evs := evs }
      (d.step (.createTable s)) := fun evs =>
    ⟨hstep.mem, hstep.kt, hstep.kf, hstep.disj, hstep.rows, hphys⟩
  simp only [execCreate, sqlDrop, sqlCreate, hp, ite_self, Bool.true_eq_false, if_false, hw2]
  cases hb : (!view && !s.isTemp)
  · simp; exact key st.evs
  · simp; exact key _

theorem execCreateFunction_fresh {st : St} {d : Dict} (h : EInv st d) (s : Catalog.Spec) (hf : FreshOp d (.createFunction s)) :
    (execCreateFunction s st).2 = none ∧ EInv (execCreateFunction s st).1 (d.step (.createFunction s)) ∧
    (execCreateFunction s st).1.evs = st.evs ++ [.addFn s] ∧ (execCreateFunction s st).1.now = st.now := by
  have hw := h.world.step 0 (.createFunction s) hf
  have hw2 : (addNewFunctionSpec st.mem st.rows s st.now).2.2 = true := hw.2
  have hs := hw.1
  simp only [execCreateFunction, hw2, Bool.true_eq_false, if_false]
  exact ⟨trivial, ⟨hs.mem, hs.kt, hs.kf, hs.disj, hs.rows, h.phys⟩, trivial, trivial⟩

/-- The statements whose action was created: up to the first failure. -/
def created : List Stmt → List Stmt
  | [] => []
  | .rejected :: _ => []
  | .other false :: _ => [.other false]
  | x :: xs => x :: created xs

/-- The change events of executing (not cleaning up) a statement. -/
def Stmt.execEvs : Stmt → List Ev
  | .createTable s _ _ => if s.isTemp then [] else [.addTable s]
  | .createFunction s => [.addFn s]
  | _ => []

theorem loop_fresh (xs : List Stmt) (d : Dict) (st : St) (acc : List (Action St)) (h : EInv st d) (hf : FreshScript d xs) :
    let r := loop (xs.map Stmt.func) st acc
    EInv r.1 ⟨d.tables ++ (created xs).filterMap Stmt.table, d.functions ++ (created xs).filterMap Stmt.fn⟩ ∧
    r.2.1 = acc ++ (created xs).filterMap Stmt.action ∧
    (r.2.2 = none ↔ ∀ x ∈ xs, x.ok = true) ∧
    r.1.evs = st.evs ++ (created xs).flatMap Stmt.execEvs := by
  induction xs generalizing d st acc with
  | nil => simp [loop, created]; exact h
  | cons x xs ih =>
    cases x with
    | createTable s mode a =>
      obtain ⟨hv, hfo, hfr⟩ := hf
      have hx := execCreate_fresh h s false mode a hv hfo
      have hi := ih (d.step (.createTable s)) (execCreate s false mode a st).1
        (acc ++ [{ exec := execCreate s false mode a, cleanup := cleanupCreate s false }]) hx.2.1 hfr
      have hl : loop ((Stmt.createTable s mode a :: xs).map Stmt.func) st acc
          = loop (xs.map Stmt.func) (execCreate s false mode a st).1 (acc ++ [{ exec := execCreate s false mode a, cleanup := cleanupCreate s false }]) := by
        simp only [List.map_cons, loop, Stmt.func, Stmt.action]
        rw [show execCreate s false mode a st = ((execCreate s false mode a st).1, none) from Prod.ext rfl hx.1]
      rw [hl]
      simp only [Dict.step, define_new hfo.2.1] at hi
      refine ⟨by simpa [created, Stmt.table, Stmt.fn, List.filterMap_cons] using hi.1, by simpa [created, Stmt.action] using hi.2.1, ?_, ?_⟩
      · simpa [Stmt.ok] using hi.2.2.1
      · rw [hi.2.2.2, hx.2.2.1]
        cases ht : s.isTemp <;> simp [created, Stmt.execEvs, ht]
    | createView s mode =>
      obtain ⟨hv, hfo, hfr⟩ := hf
      have hx := execCreate_fresh h s true mode false hv hfo
      have hi := ih (d.step (.createTable s)) (execCreate s true mode false st).1
        (acc ++ [{ exec := execCreate s true mode false, cleanup := cleanupCreate s true }]) hx.2.1 hfr
      have hl : loop ((Stmt.createView s mode :: xs).map Stmt.func) st acc
          = loop (xs.map Stmt.func) (execCreate s true mode false st).1 (acc ++ [{ exec := execCreate s true mode false, cleanup := cleanupCreate s true }]) := by
        simp only [List.map_cons, loop, Stmt.func, Stmt.action]
        rw [show execCreate s true mode false st = ((execCreate s true mode false st).1, none) from Prod.ext rfl hx.1]
      rw [hl]
      simp only [Dict.step, define_new hfo.2.1] at hi
      refine ⟨by simpa [created, Stmt.table, Stmt.fn, List.filterMap_cons] using hi.1, by simpa [created, Stmt.action] using hi.2.1, ?_, ?_⟩
      · simpa [Stmt.ok] using hi.2.2.1
      · rw [hi.2.2.2, hx.2.2.1]
        simp [created, Stmt.execEvs]
    | createFunction s =>
      obtain ⟨hfo, hfr⟩ := hf
      have hx := execCreateFunction_fresh h s hfo
      have hi := ih (d.step (.createFunction s)) (execCreateFunction s st).1
        (acc ++ [{ exec := execCreateFunction s, cleanup := cleanupCreateFunction s }]) hx.2.1 hfr
      have hl : loop ((Stmt.createFunction s :: xs).map Stmt.func) st acc
          = loop (xs.map Stmt.func) (execCreateFunction s st).1 (acc ++ [{ exec := execCreateFunction s, cleanup := cleanupCreateFunction s }]) := by
        simp only [List.map_cons, loop, Stmt.func, Stmt.action]
        rw [show execCreateFunction s st = ((execCreateFunction s st).1, none) from Prod.ext rfl hx.1]
      rw [hl]
      simp only [Dict.step, define_new hfo.2.2] at hi
      refine ⟨by simpa [created, Stmt.table, Stmt.fn, List.filterMap_cons] using hi.1, by simpa [created, Stmt.action] using hi.2.1, ?_, ?_⟩
      · simpa [Stmt.ok] using hi.2.2.1
      · rw [hi.2.2.2, hx.2.2.1]
        simp [created, Stmt.execEvs]
    | other ok =>
      cases ok with
      | true =>
        have hi := ih d st (acc ++ [{ exec := fun s => (s, none), cleanup := fun s => (s, none) }]) h hf
        have hl : loop ((Stmt.other true :: xs).map Stmt.func) st acc
            = loop (xs.map Stmt.func) st (acc ++ [{ exec := fun s => (s, none), cleanup := fun s => (s, none) }]) := by
          simp [loop, Stmt.func, Stmt.action]
        rw [hl]
        refine ⟨by simpa [created, Stmt.table, Stmt.fn, List.filterMap_cons] using hi.1, by simpa [created, Stmt.action] using hi.2.1, ?_, ?_⟩
        · simpa [Stmt.ok] using hi.2.2.1
        · rw [hi.2.2.2]; simp [created, Stmt.execEvs]
      | false =>
        simp [loop, Stmt.func, Stmt.action, created, Stmt.table, Stmt.fn, Stmt.ok, fail, Stmt.execEvs, List.filterMap_cons]; exact h
    | rejected =>
      simp [loop, Stmt.func, Stmt.action, created, Stmt.ok]; exact h
    | dropTable n ie => exact hf.elim
    | dropView n ie => exact hf.elim
    | dropFunction n => exact hf.elim

/-- A permanent table or view / function created by the statement. -/
def Stmt.permTable (x : Stmt) : Option Catalog.Spec := x.table.filter fun s => !s.isTemp
def Stmt.permFn (x : Stmt) : Option Catalog.Spec := x.fn.filter fun s => !s.isTemp

/-- The change events of cleaning a statement up. -/
def Stmt.cleanupEvs : Stmt → List Ev
  | .createView s _ => if s.isTemp then [] else [.addTable s]
  | _ => []

theorem remove_mid {A B : List Catalog.Spec} {s : Catalog.Spec} (hk : Keys (A ++ s :: B)) : remove (A ++ s :: B) s.key = A ++ B := by
  have h1 := keys_fresh hk
  have h2 : ∀ t ∈ B, t.key ≠ s.key := by
    have := hk.1
    rw [List.map_append, List.map_cons, List.nodup_append] at this
    have := this.2.1
    rw [List.nodup_cons] at this
    intro t ht e
    exact this.1 (e ▸ List.mem_map_of_mem ht)
  have e1 := remove_of_absent h1
  have e2 := remove_of_absent h2
  simp only [remove] at e1 e2 ⊢
  rw [List.filter_append, List.filter_cons, e1, e2]
  simp

theorem EInv.removeTable {st : St} {d : Dict} (h : EInv st d) (s : Catalog.Spec) (hs : s ∈ d.tables) :
    (deleteTableSpec st.mem st.rows s.key).2.2 = true ∧
    ∀ evs, EInv { st with phys := fun m => if m = s.key then none else st.phys m, mem := (deleteTableSpec st.mem st.rows s.key).1,
                          rows := (deleteTableSpec st.mem st.rows s.key).2.1, evs := evs }
      ⟨remove d.tables s.key, d.functions⟩ := by
  have hw := h.world.step 0 (.dropTable s.key) trivial
  refine ⟨hw.2.trans ?_, fun evs => ⟨hw.1.mem, hw.1.kt, hw.1.kf, hw.1.disj, hw.1.rows, ?_⟩⟩
  · simp [Dict.succeeds, lookup_mem h.kt hs]
  · intro n
    simp only
    split
    · rename_i e; rw [e, lookup_remove_self]; rfl
    · rename_i e; rw [lookup_remove_ne (Ne.symm e)]; exact h.phys n

theorem EInv.removeFn {st : St} {d : Dict} (h : EInv st d) (s : Catalog.Spec) (hs : s ∈ d.functions) :
    (deleteFunctionSpec st.mem st.rows s.key).2.2 = true ∧
    ∀ fm, EInv { st with mem := (deleteFunctionSpec st.mem st.rows s.key).1, rows := (deleteFunctionSpec st.mem st.rows s.key).2.1, fm := fm }
      ⟨d.tables, remove d.functions s.key⟩ := by
  have hw := h.world.step 0 (.dropFunction s.key) trivial
  refine ⟨hw.2.trans ?_, fun fm => ⟨hw.1.mem, hw.1.kt, hw.1.kf, hw.1.disj, hw.1.rows, h.phys⟩⟩
  simp [Dict.succeeds, lookup_mem h.kf hs]

theorem cleanupCreate_fresh {st : St} {d : Dict} (h : EInv st d) (s : Catalog.Spec) (view : Bool) (hv : s.isView = view) (hs : s ∈ d.tables) :
    (cleanupCreate s view st).2 = none ∧
    EInv (cleanupCreate s view st).1 ⟨if s.isTemp then remove d.tables s.key else d.tables, d.functions⟩ ∧
    (cleanupCreate s view st).1.evs = st.evs ++ (if view && !s.isTemp then [.addTable s] else []) := by
  cases ht : s.isTemp
  · cases view <;> simp [cleanupCreate, ht]
    · exact h
    · exact ⟨h.mem, h.kt, h.kf, h.disj, h.rows, h.phys⟩
  · have hr := h.removeTable s hs
    have hp : st.phys s.key = some view := by rw [h.phys, lookup_mem h.kt hs]; simp [hv]
    simp only [cleanupCreate, ht, sqlDrop, hp, hr.1]
    simp
    exact hr.2 st.evs

theorem cleanupCreateFunction_fresh {st : St} {d : Dict} (h : EInv st d) (s : Catalog.Spec) (hs : s ∈ d.functions) :
    (cleanupCreateFunction s st).2 = none ∧
    EInv (cleanupCreateFunction s st).1 ⟨d.tables, if s.isTemp then remove d.functions s.key else d.functions⟩ ∧
    (cleanupCreateFunction s st).1.evs = st.evs := by
  cases ht : s.isTemp
  · simp [cleanupCreateFunction, ht]; exact h
  · have hr := h.removeFn s hs
    simp only [cleanupCreateFunction, ht, hr.1]
    simp
    exact hr.2 _

/-- Views are created with view specifications, tables with table specifications; no drops. -/
def Stmt.wf : Stmt → Prop
  | .createTable s _ _ => s.isView = false
  | .createView s _ => s.isView = true
  | .createFunction _ | .other _ => True
  | _ => False

theorem created_wf (xs : List Stmt) (d : Dict) (hf : FreshScript d xs) : ∀ x ∈ created xs, x.wf := by
  induction xs generalizing d with
  | nil => simp [created]
  | cons x xs ih =>
    cases x with
    | createTable s m a =>
      intro y hy; simp [created] at hy
      rcases hy with rfl | hy
      · exact hf.1
      · exact ih _ hf.2.2 y hy
    | createView s m =>
      intro y hy; simp [created] at hy
      rcases hy with rfl | hy
      · exact hf.1
      · exact ih _ hf.2.2 y hy
    | createFunction s =>
      intro y hy; simp [created] at hy
      rcases hy with rfl | hy
      · trivial
      · exact ih _ hf.2 y hy
    | other ok =>
      cases ok
      · intro y hy; simp [created] at hy; subst hy; trivial
      · intro y hy; simp [created] at hy
        rcases hy with rfl | hy
        · trivial
        · exact ih _ hf y hy
    | rejected => simp [created]
    | dropTable n ie => exact hf.elim
    | dropView n ie => exact hf.elim
    | dropFunction n => exact hf.elim

theorem cleanups_fresh (ys : List Stmt) (A B : List Catalog.Spec) (st : St) (hy : ∀ x ∈ ys, x.wf)
    (h : EInv st ⟨A ++ ys.filterMap Stmt.table, B ++ ys.filterMap Stmt.fn⟩) :
    let r := cleanups (ys.filterMap Stmt.action) st
    r.2 = [] ∧ EInv r.1 ⟨A ++ ys.filterMap Stmt.permTable, B ++ ys.filterMap Stmt.permFn⟩ ∧
    r.1.evs = st.evs ++ ys.flatMap Stmt.cleanupEvs := by
  induction ys generalizing A B st with
  | nil => simp [cleanups] at h ⊢; exact h
  | cons x xs ih =>
    have hxs : ∀ y ∈ xs, y.wf := fun y hy' => hy y (by simp [hy'])
    have hx := hy x (by simp)
    cases x with
    | createTable s m a =>
      have hs : s ∈ A ++ (Stmt.createTable s m a :: xs).filterMap Stmt.table := by simp [Stmt.table]
      have hc := cleanupCreate_fresh h s false hx hs
      simp only [Stmt.table, Stmt.fn, List.filterMap_cons] at hc h
      have hl : cleanups ((Stmt.createTable s m a :: xs).filterMap Stmt.action) st
          = cleanups (xs.filterMap Stmt.action) (cleanupCreate s false st).1 := by
        simp [cleanups, Stmt.action, hc.1]
      rw [hl]
      cases ht : s.isTemp
      · have := ih (A ++ [s]) B (cleanupCreate s false st).1 hxs (by simpa [ht] using hc.2.1)
        refine ⟨this.1, by simpa [Stmt.permTable, Stmt.permFn, Stmt.table, Stmt.fn, ht, Option.filter, List.filterMap_cons] using this.2.1, ?_⟩
        rw [this.2.2, hc.2.2]; simp [Stmt.cleanupEvs]
      · have := ih A B (cleanupCreate s false st).1 hxs (by
          have := hc.2.1; simpa [ht, remove_mid h.kt] using this)
        refine ⟨this.1, by simpa [Stmt.permTable, Stmt.permFn, Stmt.table, Stmt.fn, ht, Option.filter, List.filterMap_cons] using this.2.1, ?_⟩
        rw [this.2.2, hc.2.2]; simp [Stmt.cleanupEvs]
    | createView s m =>
      have hs : s ∈ A ++ (Stmt.createView s m :: xs).filterMap Stmt.table := by simp [Stmt.table]
      have hc := cleanupCreate_fresh h s true hx hs
      simp only [Stmt.table, Stmt.fn, List.filterMap_cons] at hc h
      have hl : cleanups ((Stmt.createView s m :: xs).filterMap Stmt.action) st
          = cleanups (xs.filterMap Stmt.action) (cleanupCreate s true st).1 := by
        simp [cleanups, Stmt.action, hc.1]
      rw [hl]
      cases ht : s.isTemp
      · have := ih (A ++ [s]) B (cleanupCreate s true st).1 hxs (by simpa [ht] using hc.2.1)
        refine ⟨this.1, by simpa [Stmt.permTable, Stmt.permFn, Stmt.table, Stmt.fn, ht, Option.filter, List.filterMap_cons] using this.2.1, ?_⟩
        rw [this.2.2, hc.2.2]; simp [Stmt.cleanupEvs, ht]
      · have := ih A B (cleanupCreate s true st).1 hxs (by
          have := hc.2.1; simpa [ht, remove_mid h.kt] using this)
        refine ⟨this.1, by simpa [Stmt.permTable, Stmt.permFn, Stmt.table, Stmt.fn, ht, Option.filter, List.filterMap_cons] using this.2.1, ?_⟩
        rw [this.2.2, hc.2.2]; simp [Stmt.cleanupEvs, ht]
    | createFunction s =>
      have hs : s ∈ B ++ (Stmt.createFunction s :: xs).filterMap Stmt.fn := by simp [Stmt.fn]
      have hc := cleanupCreateFunction_fresh h s hs
      simp only [Stmt.table, Stmt.fn, List.filterMap_cons] at hc h
      have hl : cleanups ((Stmt.createFunction s :: xs).filterMap Stmt.action) st
          = cleanups (xs.filterMap Stmt.action) (cleanupCreateFunction s st).1 := by
        simp [cleanups, Stmt.action, hc.1]
      rw [hl]
      cases ht : s.isTemp
      · have := ih A (B ++ [s]) (cleanupCreateFunction s st).1 hxs (by simpa [ht] using hc.2.1)
        refine ⟨this.1, by simpa [Stmt.permTable, Stmt.permFn, Stmt.table, Stmt.fn, ht, Option.filter, List.filterMap_cons] using this.2.1, ?_⟩
        rw [this.2.2, hc.2.2]; simp [Stmt.cleanupEvs]
      · have := ih A B (cleanupCreateFunction s st).1 hxs (by
          have := hc.2.1; simpa [ht, remove_mid h.kf] using this)
        refine ⟨this.1, by simpa [Stmt.permTable, Stmt.permFn, Stmt.table, Stmt.fn, ht, Option.filter, List.filterMap_cons] using this.2.1, ?_⟩
        rw [this.2.2, hc.2.2]; simp [Stmt.cleanupEvs]
    | other ok =>
      have := ih A B st hxs (by simpa [Stmt.table, Stmt.fn, List.filterMap_cons] using h)
      have hl : cleanups ((Stmt.other ok :: xs).filterMap Stmt.action) st = cleanups (xs.filterMap Stmt.action) st := by
        simp [cleanups, Stmt.action]
      rw [hl]
      refine ⟨this.1, by simpa [Stmt.permTable, Stmt.permFn, Stmt.table, Stmt.fn, List.filterMap_cons] using this.2.1, ?_⟩
      rw [this.2.2]; simp [Stmt.cleanupEvs]
    | rejected => exact hx.elim
    | dropTable n ie => exact hx.elim
    | dropView n ie => exact hx.elim
    | dropFunction n => exact hx.elim

theorem filterMap_created_table (xs : List Stmt) (f : Stmt → Option Catalog.Spec) (hf : ∀ b, f (.other b) = none) :
    (created xs).filterMap f = (xs.takeWhile Stmt.ok).filterMap f := by
  induction xs with
  | nil => rfl
  | cons x xs ih =>
    cases x with
    | other ok => cases ok <;> simp [created, Stmt.ok, hf, List.takeWhile_cons, List.filterMap_cons, ih]
    | rejected => simp [created, Stmt.ok]
    | createTable s m a => simp [created, Stmt.ok, List.filterMap_cons, List.takeWhile_cons, ih]
    | createView s m => simp [created, Stmt.ok, List.filterMap_cons, List.takeWhile_cons, ih]
    | createFunction s => simp [created, Stmt.ok, List.filterMap_cons, List.takeWhile_cons, ih]
    | dropTable n ie => simp [created, Stmt.ok, List.filterMap_cons, List.takeWhile_cons, ih]
    | dropView n ie => simp [created, Stmt.ok, List.filterMap_cons, List.takeWhile_cons, ih]
    | dropFunction n => simp [created, Stmt.ok, List.filterMap_cons, List.takeWhile_cons, ih]

/-- C81 (and C13 for the real statements): running a script that creates free names, temporary and permanent, with
statements that may fail anywhere, leaves exactly the old objects and the permanent objects created before the first
failure — in the catalog, in SQLite and in the persistent rows.  Every temporary object is gone.  The call reports an
error iff some statement failed. -/
theorem C81_net_effect_partial (xs : List Stmt) (d : Dict) (st : St) (h : EInv st d) (hf : FreshScript d xs) :
    let r := exec xs st
    let ran := xs.takeWhile Stmt.ok
    EInv r.1 ⟨d.tables ++ ran.filterMap Stmt.permTable, d.functions ++ ran.filterMap Stmt.permFn⟩ ∧
    (r.2 = [] ↔ ∀ x ∈ xs, x.ok = true) := by
  intro r ran
  have hl := loop_fresh xs d st [] h hf
  have hc := cleanups_fresh (created xs) d.tables d.functions _ (created_wf xs d hf) hl.1
  have hr : r = ((cleanups ((created xs).filterMap Stmt.action) (loop (xs.map Stmt.func) st []).1).1,
      (loop (xs.map Stmt.func) st []).2.2.toList ++ (cleanups ((created xs).filterMap Stmt.action) (loop (xs.map Stmt.func) st []).1).2) := by
    show exec xs st = _
    simp only [exec, execContext, hl.2.1, List.nil_append]
  rw [hr]
  refine ⟨?_, ?_⟩
  · have := hc.2.1
    rw [filterMap_created_table xs Stmt.permTable (fun _ => rfl), filterMap_created_table xs Stmt.permFn (fun _ => rfl)] at this
    exact this
  · simp only [hc.1, List.append_nil, Option.toList_eq_nil_iff]
    exact hl.2.2.1

/-- The hypotheses hold for a script with a temporary table, a failing statement, and creations on both sides of it. -/
example : EInv St.init Dict.empty ∧ FreshScript Dict.empty
    [.createTable (tSpec true 1) .default false, .createFunction (fSpec false 1), .other false,
     .createView { path := [['v']], isTemp := false, isView := true, body := 2 } .orReplace] := by
  refine ⟨EInv.init, ?_⟩
  simp [FreshScript, FreshOp, Dict.step, Dict.empty, define, tSpec, fSpec, Catalog.Spec.key, NamePath.formatPath]

/-- C82 at full strength: what a call reports as added is what it left added. -/
def C82_full : Prop := ∀ xs, FreshScript Dict.empty xs → ∀ c, Changed.new.run (exec xs St.init).1.evs = .ok c → ∀ s,
  (some s ∈ c.fAdded → (exec xs St.init).1.mem.funcMap s.key = some s)

/-- The code violates C82: a temporary function is reported as added although it no longer exists. -/
theorem C82_full_false : ¬ C82_full := by
  intro h
  have := h [.createFunction (fSpec true 1)] (by simp [FreshScript, FreshOp, Dict.empty, fSpec]) _ rfl (fSpec true 1)
  revert this; decide

def evTable : Ev → Option Catalog.Spec
  | .addTable s => some s
  | _ => none

def evFn : Ev → Option Catalog.Spec
  | .addFn s => some s
  | _ => none

def evAdd : Ev → Bool
  | .addTable _ | .addFn _ => true
  | _ => false

theorem run_adds (evs : List Ev) (h : ∀ e ∈ evs, evAdd e = true) (c : Changed) (hd : c.tDeleted = []) (hf : c.fDeleted = []) :
    c.run evs = .ok { c with tAdded := c.tAdded ++ evs.filterMap evTable, fAdded := c.fAdded ++ (evs.filterMap evFn).map some } := by
  induction evs generalizing c with
  | nil => simp [Changed.run]
  | cons e es ih =>
    have hes : ∀ e ∈ es, evAdd e = true := fun x hx => h x (by simp [hx])
    cases e with
    | addTable s =>
      have := ih hes { c with tDeleted := removeTable c.tDeleted s, tAdded := c.tAdded ++ [s] } (by simp [hd, removeTable]) hf
      simp only [Changed.run, Changed.step, Go.Res.bind'_ok]
      rw [this]
      simp [evTable, evFn, List.filterMap_cons, hd, removeTable]
    | addFn s =>
      have := ih hes { c with fDeleted := [], fAdded := c.fAdded ++ [some s] } hd rfl
      simp only [Changed.run, Changed.step, hf, removeFn, Go.Res.bind'_ok]
      rw [this]
      simp [evTable, evFn, List.filterMap_cons, hf]
    | delTable s => have := h (.delTable s) (by simp); cases this
    | delFn s => have := h (.delFn s) (by simp); cases this

theorem adds_of (x : Stmt) : (∀ e ∈ x.execEvs, evAdd e = true) ∧ (∀ e ∈ x.cleanupEvs, evAdd e = true) := by
  cases x with
  | createTable s m a => cases ht : s.isTemp <;> simp [Stmt.execEvs, Stmt.cleanupEvs, evAdd, ht]
  | createView s m => cases ht : s.isTemp <;> simp [Stmt.execEvs, Stmt.cleanupEvs, evAdd, ht]
  | _ => simp [Stmt.execEvs, Stmt.cleanupEvs, evAdd]

theorem created_sub (xs : List Stmt) : ∀ x ∈ created xs, x ∈ xs := by
  induction xs with
  | nil => simp [created]
  | cons y ys ih =>
    intro x hx
    cases y with
    | other ok => cases ok <;> simp [created] at hx <;> rcases hx with rfl | hx <;> simp_all
    | rejected => simp [created] at hx
    | _ => simp [created] at hx; rcases hx with rfl | hx <;> simp_all

/-- C82 for scripts without temporary functions: a call on a fresh record reports exactly the permanent objects it
created before the first failure, and nothing as deleted.  (Missing: temporary functions, which are reported although they
are gone, `C82_full_false`.) -/
theorem C82_changed_record_partial (xs : List Stmt) (d : Dict) (st : St) (h : EInv st d) (hf : FreshScript d xs) (he : st.evs = [])
    (htf : ∀ s, .createFunction s ∈ xs → s.isTemp = false) :
    let ran := xs.takeWhile Stmt.ok
    ∃ c, Changed.new.run (exec xs st).1.evs = .ok c ∧ c.tDeleted = [] ∧ c.fDeleted = [] ∧
      (∀ s, s ∈ c.tAdded ↔ s ∈ ran.filterMap Stmt.permTable) ∧
      (∀ s, some s ∈ c.fAdded ↔ s ∈ ran.filterMap Stmt.permFn) := by
  intro ran
  have hl := loop_fresh xs d st [] h hf
  have hc := cleanups_fresh (created xs) d.tables d.functions _ (created_wf xs d hf) hl.1
  have hev : (exec xs st).1.evs = (created xs).flatMap Stmt.execEvs ++ (created xs).flatMap Stmt.cleanupEvs := by
    simp only [exec, execContext, hl.2.1, List.nil_append]
    rw [hc.2.2, hl.2.2.2, he]; simp
  have hadd : ∀ e ∈ (exec xs st).1.evs, evAdd e = true := by
    intro e hm
    rw [hev] at hm
    simp only [List.mem_append, List.mem_flatMap] at hm
    rcases hm with ⟨x, _, hx⟩ | ⟨x, _, hx⟩
    · exact (adds_of x).1 e hx
    · exact (adds_of x).2 e hx
  refine ⟨_, run_adds _ hadd Changed.new rfl rfl, rfl, rfl, ?_, ?_⟩
  · intro s
    show s ∈ [] ++ _ ↔ _
    rw [List.nil_append, hev, ← filterMap_created_table xs Stmt.permTable (fun _ => rfl)]
    simp only [List.mem_filterMap, List.mem_append, List.mem_flatMap]
    constructor
    · rintro ⟨e, (⟨x, hx, hex⟩ | ⟨x, hx, hex⟩), hes⟩ <;> refine ⟨x, hx, ?_⟩ <;>
      · cases x <;> simp [Stmt.execEvs, Stmt.cleanupEvs] at hex
        all_goals first
          | (obtain ⟨h1, rfl⟩ := hex; simp [evTable] at hes; subst hes; simp [Stmt.permTable, Stmt.table, h1, Option.filter])
          | (subst hex; simp [evTable] at hes)
    · rintro ⟨x, hx, hxs⟩
      refine ⟨.addTable s, ?_, rfl⟩
      cases x with
      | createTable t m a =>
        simp [Stmt.permTable, Stmt.table] at hxs
        obtain ⟨rfl, h1⟩ := hxs
        exact Or.inl ⟨_, hx, by simp [Stmt.execEvs, h1]⟩
      | createView t m =>
        simp [Stmt.permTable, Stmt.table] at hxs
        obtain ⟨rfl, h1⟩ := hxs
        exact Or.inr ⟨_, hx, by simp [Stmt.cleanupEvs, h1]⟩
      | _ => simp [Stmt.permTable, Stmt.table] at hxs
  · intro s
    show some s ∈ [] ++ _ ↔ _
    rw [List.nil_append, hev, ← filterMap_created_table xs Stmt.permFn (fun _ => rfl)]
    have hsub := created_sub xs
    simp only [List.mem_filterMap, List.mem_append, List.mem_flatMap, List.mem_map, Option.some.injEq, exists_eq_right]
    constructor
    · rintro ⟨e, (⟨x, hx, hex⟩ | ⟨x, hx, hex⟩), hes⟩ <;> refine ⟨x, hx, ?_⟩
      · cases x <;> simp [Stmt.execEvs] at hex
        · obtain ⟨h1, rfl⟩ := hex; simp [evFn] at hes
        · subst hex; simp [evFn] at hes; subst hes
          simp [Stmt.permFn, Stmt.fn, htf _ (hsub _ hx), Option.filter]
      · cases x <;> simp [Stmt.cleanupEvs] at hex
        obtain ⟨h1, rfl⟩ := hex; simp [evFn] at hes
    · rintro ⟨x, hx, hxs⟩
      refine ⟨.addFn s, ?_, rfl⟩
      cases x with
      | createFunction t =>
        simp [Stmt.permFn, Stmt.fn] at hxs
        obtain ⟨rfl, h1⟩ := hxs
        exact Or.inl ⟨_, hx, by simp [Stmt.execEvs]⟩
      | _ => simp [Stmt.permFn, Stmt.fn] at hxs

/-- The hypotheses hold for the empty database and a script with a temporary table, a view and a function. -/
example : EInv St.init Dict.empty ∧ St.init.evs = [] ∧ FreshScript Dict.empty
    [.createTable (tSpec true 1) .default false, .createFunction (fSpec false 1),
     .createView { path := [['v']], isTemp := false, isView := true, body := 2 } .orReplace] := by
  refine ⟨EInv.init, rfl, ?_⟩
  simp [FreshScript, FreshOp, Dict.step, Dict.empty, define, tSpec, fSpec, Catalog.Spec.key, NamePath.formatPath]

/-- **C79** DROP TABLE of a view and DROP VIEW of a table are errors, with or without IF EXISTS, and change nothing. -/
theorem C79_wrong_kind (st : St) (n : Name) (ie : Bool) :
    (st.phys n = some true → exec [.dropTable n ie] st = (st, [1])) ∧ (st.phys n = some false → exec [.dropView n ie] st = (st, [1])) := by
  constructor <;> intro h <;>
    simp [exec, execContext, loop, Stmt.func, Stmt.action, execDrop, sqlDrop, h, fail, cleanups]

/-- **C79** without IF EXISTS a name SQLite does not know is an error that changes nothing. -/
theorem C79_missing (st : St) (n : Name) (h : st.phys n = none) :
    exec [.dropTable n false] st = (st, [1]) ∧ exec [.dropView n false] st = (st, [1]) := by
  constructor <;> simp [exec, execContext, loop, Stmt.func, Stmt.action, execDrop, sqlDrop, h, fail, cleanups]

end Verif.Engine
