import Verif.Props.Engine

/-!
# CREATE … IF NOT EXISTS of an object that exists

C231.  SQLite does nothing, but the new specification is registered and saved all the same (stmt_action.go:71-85 and 176-184).
-/

namespace Verif.Engine
open Verif.Catalog Verif.Catalog.Spec Verif.Driver

/-- CREATE TABLE or CREATE VIEW IF NOT EXISTS. -/
def createIfMissing (view : Bool) (s : Catalog.Spec) : Stmt := if view then .createView s .ifNotExists else .createTable s .ifNotExists false

/-- C231: if the name is in use, CREATE TABLE IF NOT EXISTS and CREATE VIEW IF NOT EXISTS succeed and change nothing. -/
def C231_full : Prop := ∀ st s v view, Reachable st → st.phys s.key = some v → exec [createIfMissing view s] st = (st, [])

/-- What is proved: the statement succeeds, the SQLite objects and everything under other names stay as they are, and so does what the analyzer
resolves; but the definition under the name is the new one, in memory and in the persistent catalog, and the call reports it as added. -/
theorem C231_partial (st : St) (s s0 : Catalog.Spec) (v view : Bool) (hp : st.phys s.key = some v) (hm : st.mem.tableMap s.key = some s0)
    (ht : s.isTemp = false) :
    (exec [createIfMissing view s] st).2 = [] ∧
    (exec [createIfMissing view s] st).1.phys = st.phys ∧
    (∀ p, (exec [createIfMissing view s] st).1.mem.tableTree.find p = st.mem.tableTree.find p) ∧
    (∀ n, n ≠ s.key → (exec [createIfMissing view s] st).1.mem.tableMap n = st.mem.tableMap n) ∧
    (exec [createIfMissing view s] st).1.mem.tableMap s.key = some s ∧
    (∀ r, r.name ≠ s.key → (r ∈ (exec [createIfMissing view s] st).1.rows ↔ r ∈ st.rows)) ∧
    (∀ r ∈ (exec [createIfMissing view s] st).1.rows, r.name = s.key → r.spec = s) ∧
    (∃ r ∈ (exec [createIfMissing view s] st).1.rows, r.name = s.key) ∧
    (exec [createIfMissing view s] st).1.evs = st.evs ++ [.addTable s] := by
  have hrun : exec [createIfMissing view s] st = ({ st with
      mem := { st.mem with tableMap := mapSet st.mem.tableMap s.key s }, rows := saveTableSpec st.rows s st.now,
      evs := st.evs ++ [.addTable s] }, []) := by
    cases view <;>
      simp [createIfMissing, exec, execContext, loop, Stmt.func, Stmt.action, execCreate, sqlCreate, hp, addNewTableSpec, addTableSpec, hm, ht,
        cleanups, cleanupCreate]
  rw [hrun]
  refine ⟨rfl, rfl, fun _ => rfl, fun n hn => if_neg hn, if_pos rfl, fun r hr => ?_, fun r hr hn => ?_, ?_, rfl⟩
  · simp only [saveTableSpec, upsert]
    split
    · rw [List.mem_map]
      constructor
      · rintro ⟨x, hx, rfl⟩
        by_cases e : x.name = s.key
        · rw [if_pos e] at hr
          exact absurd e hr
        · rw [if_neg e]
          exact hx
      · intro h
        exact ⟨r, h, if_neg hr⟩
    · rw [List.mem_append, List.mem_singleton]
      constructor
      · rintro (h | rfl)
        · exact h
        · exact absurd rfl hr
      · exact .inl
  · simp only [saveTableSpec, upsert] at hr
    split at hr
    · obtain ⟨x, hx, rfl⟩ := List.mem_map.1 hr
      by_cases e : x.name = s.key
      · rw [if_pos e]
      · rw [if_neg e] at hn
        exact absurd hn e
    · rename_i hno
      rcases List.mem_append.1 hr with h | h
      · exact absurd (List.any_eq_true.2 ⟨r, h, decide_eq_true hn⟩) hno
      · rw [List.mem_singleton] at h
        rw [h]
  · simp only [saveTableSpec, upsert]
    split
    · rename_i hany
      obtain ⟨x, hx, e⟩ := List.any_eq_true.1 hany
      have e : x.name = s.key := of_decide_eq_true e
      exact ⟨_, List.mem_map.2 ⟨x, hx, rfl⟩, by rw [if_pos e]; exact e⟩
    · exact ⟨_, List.mem_append_right _ (List.mem_singleton.2 rfl), rfl⟩

/-- The hypotheses are met after CREATE TABLE t. -/
example : (exec [.createTable (tSpec false 1) .default false] St.init).1.phys (tSpec false 2).key = some false ∧
    (exec [.createTable (tSpec false 1) .default false] St.init).1.mem.tableMap (tSpec false 2).key = some (tSpec false 1) := by decide

/-- A database opened again takes the table for the one that was not created: its columns are those of the second statement, the table of SQLite
is that of the first. -/
theorem C231_reopened :
    let st := (exec [createIfMissing false (tSpec false 2)] (exec [.createTable (tSpec false 1) .default false] St.init).1).1
    st.phys ['t'] = some false ∧ st.mem.tableTree.find [['t']] = some (tSpec false 1) ∧
    (sync Proc.fresh st.rows 0).1.mem.tableTree.find [['t']] = some (tSpec false 2) := by decide

/-- CREATE TEMP TABLE IF NOT EXISTS (or VIEW) over a permanent object of the same kind removes it when the call ends. -/
theorem C231_temp_destroys (st : St) (s s0 : Catalog.Spec) (view : Bool) (hp : st.phys s.key = some view) (hm : st.mem.tableMap s.key = some s0)
    (ht : s.isTemp = true) : (exec [createIfMissing view s] st).1.phys s.key = none := by
  cases view <;>
    simp [createIfMissing, exec, execContext, loop, Stmt.func, Stmt.action, execCreate, sqlCreate, hp, addNewTableSpec, addTableSpec, hm, ht,
      cleanups, cleanupCreate, sqlDrop]

theorem C231_full_false : ¬ C231_full := by
  intro h
  have := congrArg (fun r => r.1.mem.tableMap ['t']) (h (exec [.createTable (tSpec false 1) .default false] St.init).1 (tSpec false 2) false false
    (.exec _ .init) (by decide))
  revert this
  decide

end Verif.Engine
