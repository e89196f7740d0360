import Verif.Props.Engine

/-!
# C81: the net effect of a call, for scripts with drops and failing creates
-/

namespace Verif.Engine
open Verif.Catalog Verif.Catalog.Spec Verif.Driver

/-! ### What a script means -/

/-- CREATE TABLE or VIEW: a free name is defined; over an existing object it fails, does nothing, or replaces an object of
the same kind, as the mode says. -/
def createOut (d : Dict) (s : Catalog.Spec) (mode : Mode) : Option Dict :=
  match lookup d.tables s.key with
  | none => some ⟨d.tables ++ [s], d.functions⟩
  | some t => match mode with
    | .default => none
    | .ifNotExists => some d
    | .orReplace => if t.isView = s.isView then some ⟨remove d.tables s.key ++ [s], d.functions⟩ else none

/-- DROP TABLE or VIEW. -/
def dropOut (d : Dict) (n : Name) (view ifExists : Bool) : Option Dict :=
  match lookup d.tables n with
  | none => if ifExists then some d else none
  | some t => if t.isView = view then some ⟨remove d.tables n, d.functions⟩ else none

/-- The objects after a statement, `none` if the statement fails. -/
def outcome (d : Dict) : Stmt → Option Dict
  | .createTable s mode _ => createOut d s mode
  | .createView s mode => createOut d s mode
  | .createFunction s => if (lookup d.functions s.key).isSome then none else some ⟨d.tables, d.functions ++ [s]⟩
  | .dropTable n ie => dropOut d n false ie
  | .dropView n ie => dropOut d n true ie
  | .dropFunction n => if (lookup d.functions n).isSome then some ⟨d.tables, remove d.functions n⟩ else none
  | .other ok => if ok then some d else none
  | .rejected => none

/-- The objects after a script that stops at the first failure, and whether there was none. -/
def runSpec : Dict → List Stmt → Dict × Bool
  | d, [] => (d, true)
  | d, x :: xs => match outcome d x with
    | none => (d, false)
    | some d' => runSpec d' xs

/-- The objects without the temporary ones. -/
def permanent (d : Dict) : Dict := ⟨d.tables.filter fun s => !s.isTemp, d.functions.filter fun s => !s.isTemp⟩

/-- Views have view specifications, tables have table specifications, names are not empty. -/
def Kinds : Stmt → Prop
  | .createTable s _ _ => s.isView = false ∧ s.path ≠ []
  | .createView s _ => s.isView = true ∧ s.path ≠ []
  | .createFunction s => s.path ≠ []
  | _ => True

/-- C81 at full strength: after a call on a consistent database without temporary objects there are exactly the permanent
objects the script leaves when it stops at its first failure, and an error is returned exactly if there was one. -/
def C81_full : Prop :=
  ∀ (xs : List Stmt) (d : Dict) (st : St), EInv st d → (∀ s ∈ d.tables, s.isTemp = false) → (∀ s ∈ d.functions, s.isTemp = false) →
    (∀ x ∈ xs, Kinds x) →
    (∀ n, (exec xs st).1.phys n = (lookup (permanent (runSpec d xs).1).tables n).map Catalog.Spec.isView ∧
      (exec xs st).1.mem.tableMap n = lookup (permanent (runSpec d xs).1).tables n ∧
      (exec xs st).1.mem.funcMap n = lookup (permanent (runSpec d xs).1).functions n) ∧
    ((exec xs st).2 = [] ↔ (runSpec d xs).2 = true)

/-! ### The scripts it holds for -/

/-- Creates of free names in any mode (no table, view or function has the name) or, if permanent and without a mode, of
names that fail; drops of permanent objects and failing drops. -/
def Tame (d : Dict) : Stmt → Prop
  | .createTable s mode _ => s.isView = false ∧ (FreshOp d (.createTable s) ∨ (mode = .default ∧ s.isTemp = false ∧ (lookup d.tables s.key).isSome = true))
  | .createView s mode => s.isView = true ∧ (FreshOp d (.createTable s) ∨ (mode = .default ∧ s.isTemp = false ∧ (lookup d.tables s.key).isSome = true))
  | .createFunction s => FreshOp d (.createFunction s)
  | .dropTable n ie => match lookup d.tables n with
    | some t => t.isView = false → t.isTemp = false
    | none => ie = false
  | .dropView n ie => match lookup d.tables n with
    | some t => t.isView = true → t.isTemp = false
    | none => ie = false
  | .dropFunction n => ∀ t, lookup d.functions n = some t → t.isTemp = false
  | .other _ => True
  | .rejected => True

/-- Every statement that is reached is tame. -/
def TameScript : Dict → List Stmt → Prop
  | _, [] => True
  | d, x :: xs => Tame d x ∧ match outcome d x with
    | none => True
    | some d' => TameScript d' xs

/-- The statements that are reached. -/
def reached : Dict → List Stmt → List Stmt
  | _, [] => []
  | d, x :: xs => x :: match outcome d x with
    | none => []
    | some d' => reached d' xs

theorem create_step {st : St} {d : Dict} (h : EInv st d) (s : Catalog.Spec) (view : Bool) (mode : Mode) (a : Bool) (hv : s.isView = view)
    (ht : FreshOp d (.createTable s) ∨ (mode = .default ∧ s.isTemp = false ∧ (lookup d.tables s.key).isSome = true)) :
    match createOut d s mode with
    | some d' => (execCreate s view mode a st).2 = none ∧ EInv (execCreate s view mode a st).1 d'
    | none => (execCreate s view mode a st).2 ≠ none ∧ EInv (execCreate s view mode a st).1 d := by
  rcases ht with hf | ⟨rfl, _, hs⟩
  · have hx := execCreate_fresh h s view mode a hv hf
    have hl : lookup d.tables s.key = none := lookup_none.2 hf.2.1
    have hc : createOut d s mode = some ⟨d.tables ++ [s], d.functions⟩ := by unfold createOut; rw [hl]
    rw [hc]
    have h2 := hx.2.1
    simp only [Dict.step, define_new hf.2.1] at h2
    exact ⟨hx.1, h2⟩
  · obtain ⟨t, hl⟩ := Option.isSome_iff_exists.1 hs
    have hc : createOut d s .default = none := by unfold createOut; rw [hl]
    rw [hc]
    have hp : st.phys s.key = some t.isView := by rw [h.phys, hl]; rfl
    have he : execCreate s view .default a st = ({ st with phys := st.phys }, fail) := by
      simp [execCreate, sqlCreate, hp]
    rw [he]
    exact ⟨by simp [fail], h⟩

theorem drop_step {st : St} {d : Dict} (h : EInv st d) (n : Name) (view ie : Bool)
    (ht : match lookup d.tables n with | some t => t.isView = view → t.isTemp = false | none => ie = false) :
    match dropOut d n view ie with
    | some d' => (execDrop n view ie st).2 = none ∧ EInv (execDrop n view ie st).1 d'
    | none => (execDrop n view ie st).2 ≠ none ∧ EInv (execDrop n view ie st).1 d := by
  cases hl : lookup d.tables n with
  | none =>
    rw [hl] at ht
    have hie : ie = false := ht
    subst hie
    have hp : st.phys n = none := by rw [h.phys, hl]; rfl
    have hc : dropOut d n view false = none := by unfold dropOut; rw [hl]; rfl
    rw [hc]
    have he : execDrop n view false st = (st, fail) := by simp [execDrop, sqlDrop, hp]
    rw [he]
    exact ⟨by simp [fail], h⟩
  | some t =>
    have hk : t.key = n := by
      have := List.find?_some hl
      simpa using this
    have hm : t ∈ d.tables := List.mem_of_find?_eq_some hl
    have hp : st.phys n = some t.isView := by rw [h.phys, hl]; rfl
    by_cases hv : t.isView = view
    · have hc : dropOut d n view ie = some ⟨remove d.tables n, d.functions⟩ := by unfold dropOut; rw [hl]; simp [hv]
      rw [hc]
      obtain ⟨h1, h2⟩ := h.removeTable t hm
      rw [hk] at h1 h2
      have htm : st.mem.tableMap n = some t := by rw [h.mem]; exact hl
      have he : execDrop n view ie st = ({ st with phys := fun m => if m = n then none else st.phys m, mem := (deleteTableSpec st.mem st.rows n).1, rows := (deleteTableSpec st.mem st.rows n).2.1, evs := st.evs ++ [.delTable t] }, none) := by
        simp [execDrop, sqlDrop, hp, hv, htm, h1]
      rw [he]
      exact ⟨rfl, h2 _⟩
    · have hc : dropOut d n view ie = none := by unfold dropOut; rw [hl]; simp [hv]
      rw [hc]
      have he : execDrop n view ie st = (st, fail) := by simp [execDrop, sqlDrop, hp, hv]
      rw [he]
      exact ⟨by simp [fail], h⟩

theorem dropFunction_step {st : St} {d : Dict} (h : EInv st d) (n : Name) :
    match outcome d (.dropFunction n) with
    | some d' => (execDropFunction n st).2 = none ∧ EInv (execDropFunction n st).1 d'
    | none => (execDropFunction n st).2 ≠ none ∧ EInv (execDropFunction n st).1 d := by
  have hw := h.world.step 0 (.dropFunction n) trivial
  have h2 : (deleteFunctionSpec st.mem st.rows n).2.2 = (lookup d.functions n).isSome := hw.2
  cases hl : lookup d.functions n with
  | none =>
    have hc : outcome d (.dropFunction n) = none := by simp [outcome, hl]
    rw [hc]
    rw [hl] at h2
    have he : execDropFunction n st = ({ st with mem := (deleteFunctionSpec st.mem st.rows n).1, rows := (deleteFunctionSpec st.mem st.rows n).2.1 }, fail) := by
      simp only [execDropFunction]
      rw [h2]
      rfl
    rw [he]
    refine ⟨by simp [fail], ?_⟩
    have hr : remove d.functions n = d.functions := remove_of_absent (lookup_none.1 hl)
    have h3 := hw.1
    simp only [Dict.step, hr] at h3
    exact ⟨h3.mem, h.kt, h.kf, h.disj, h3.rows, h.phys⟩
  | some t =>
    have hc : outcome d (.dropFunction n) = some ⟨d.tables, remove d.functions n⟩ := by simp [outcome, hl]
    rw [hc]
    rw [hl] at h2
    have he : execDropFunction n st = ({ st with mem := (deleteFunctionSpec st.mem st.rows n).1, rows := (deleteFunctionSpec st.mem st.rows n).2.1, evs := st.evs ++ [.delFn (st.fm n)], fm := fun m => if m = n then none else st.fm m }, none) := by
      simp only [execDropFunction]
      rw [h2]
      rfl
    rw [he]
    have h3 := hw.1
    exact ⟨rfl, h3.mem, h3.kt, h3.kf, h3.disj, h3.rows, h.phys⟩

/-- One statement. -/
theorem stmt_step {st : St} {d : Dict} (h : EInv st d) (x : Stmt) (ht : Tame d x) :
    match x.action with
    | none => outcome d x = none
    | some a => match outcome d x with
      | some d' => (a.exec st).2 = none ∧ EInv (a.exec st).1 d'
      | none => (a.exec st).2 ≠ none ∧ EInv (a.exec st).1 d := by
  cases x with
  | createTable s mode a => exact create_step h s false mode a ht.1 ht.2
  | createView s mode => exact create_step h s true mode false ht.1 ht.2
  | createFunction s =>
    have hf : FreshOp d (.createFunction s) := ht
    have hx := execCreateFunction_fresh h s hf
    have hl : lookup d.functions s.key = none := lookup_none.2 hf.2.2
    have h2 := hx.2.1
    simp only [Dict.step, define_new hf.2.2] at h2
    have hc : outcome d (.createFunction s) = some ⟨d.tables, d.functions ++ [s]⟩ := by simp [outcome, hl]
    simp only [Stmt.action, hc]
    exact ⟨hx.1, h2⟩
  | dropTable n ie => exact drop_step h n false ie ht
  | dropView n ie => exact drop_step h n true ie ht
  | dropFunction n => exact dropFunction_step h n
  | other ok =>
    cases ok with
    | true => exact ⟨rfl, h⟩
    | false => exact ⟨by simp [fail], h⟩
  | rejected => rfl

/-- The loop over the statements. -/
theorem loop_tame : ∀ (xs : List Stmt) (d : Dict) (st : St) (acc : List (Action St)), EInv st d → TameScript d xs →
    EInv (loop (xs.map Stmt.func) st acc).1 (runSpec d xs).1 ∧
    (loop (xs.map Stmt.func) st acc).2.1 = acc ++ (reached d xs).filterMap Stmt.action ∧
    ((loop (xs.map Stmt.func) st acc).2.2 = none ↔ (runSpec d xs).2 = true)
  | [], d, st, acc, h, _ => by simp only [List.map_nil, loop, runSpec, reached]; exact ⟨h, by simp, by simp⟩
  | x :: xs, d, st, acc, h, ht => by
    have hs := stmt_step h x ht.1
    have ht2 := ht.2
    cases ha : x.action with
    | none =>
      rw [ha] at hs
      simp only at hs
      have hl : loop ((x :: xs).map Stmt.func) st acc = (st, acc, some 1) := by
        simp only [List.map_cons, loop, Stmt.func, ha]
      rw [hl]
      simp only [runSpec, reached, hs]
      exact ⟨h, by simp [ha], by simp⟩
    | some a =>
      rw [ha] at hs
      simp only at hs
      cases ho : outcome d x with
      | none =>
        rw [ho] at hs
        simp only at hs
        obtain ⟨e, he⟩ := Option.ne_none_iff_exists'.1 hs.1
        have hl : loop ((x :: xs).map Stmt.func) st acc = ((a.exec st).1, acc ++ [a], some e) := by
          simp only [List.map_cons, loop, Stmt.func, ha]
          rw [show a.exec st = ((a.exec st).1, some e) from Prod.ext rfl he]
        rw [hl]
        simp only [runSpec, reached, ho]
        exact ⟨hs.2, by simp [ha], by simp⟩
      | some d' =>
        rw [ho] at hs ht2
        simp only at hs ht2
        have hl : loop ((x :: xs).map Stmt.func) st acc = loop (xs.map Stmt.func) (a.exec st).1 (acc ++ [a]) := by
          simp only [List.map_cons, loop, Stmt.func, ha]
          rw [show a.exec st = ((a.exec st).1, none) from Prod.ext rfl hs.1]
        have ih := loop_tame xs d' (a.exec st).1 (acc ++ [a]) hs.2 ht2
        rw [hl]
        simp only [runSpec, reached, ho]
        refine ⟨ih.1, ?_, ih.2.2⟩
        rw [ih.2.1]
        simp [ha, List.filterMap_cons]

/-- A temporary table or view / function created by the statement. -/
def Stmt.tempTable (x : Stmt) : Option Catalog.Spec := x.table.filter Catalog.Spec.isTemp
@[inherit_doc Stmt.tempTable] def Stmt.tempFn (x : Stmt) : Option Catalog.Spec := x.fn.filter Catalog.Spec.isTemp

theorem filter_remove {l : List Catalog.Spec} (hk : Keys l) {n : Name} {t : Catalog.Spec} (hl : lookup l n = some t) (ht : t.isTemp = false) :
    (remove l n).filter Catalog.Spec.isTemp = l.filter Catalog.Spec.isTemp := by
  unfold remove
  rw [List.filter_filter]
  apply List.filter_congr
  intro s hs
  by_cases hn : s.key = n
  · have : lookup l s.key = some s := lookup_mem hk hs
    rw [hn, hl] at this
    cases this
    simp [ht]
  · simp [hn]

/-- The temporary objects there are, in the order of their creation. -/
theorem run_temps : ∀ (xs : List Stmt) (d : Dict) (st : St), EInv st d → TameScript d xs →
    (runSpec d xs).1.tables.filter Catalog.Spec.isTemp = d.tables.filter Catalog.Spec.isTemp ++ (reached d xs).filterMap Stmt.tempTable ∧
    (runSpec d xs).1.functions.filter Catalog.Spec.isTemp = d.functions.filter Catalog.Spec.isTemp ++ (reached d xs).filterMap Stmt.tempFn
  | [], d, _, _, _ => by simp [runSpec, reached]
  | x :: xs, d, st, h, ht => by
    have hs := stmt_step h x ht.1
    have ht2 := ht.2
    have htx := ht.1
    cases ho : outcome d x with
    | none =>
      simp only [runSpec, reached, ho]
      have e1 : x.tempTable = none := by
        cases x with
        | createTable s m a =>
          rcases htx.2 with hf | ⟨_, hf, _⟩
          · have : outcome d (.createTable s m a) ≠ none := by simp [outcome, createOut, lookup_none.2 hf.2.1]
            exact absurd ho this
          · simp [Stmt.tempTable, Stmt.table, hf]
        | createView s m =>
          rcases htx.2 with hf | ⟨_, hf, _⟩
          · have : outcome d (.createView s m) ≠ none := by simp [outcome, createOut, lookup_none.2 hf.2.1]
            exact absurd ho this
          · simp [Stmt.tempTable, Stmt.table, hf]
        | _ => rfl
      have e2 : x.tempFn = none := by
        cases x with
        | createFunction s =>
          have hf : FreshOp d (.createFunction s) := htx
          have : outcome d (.createFunction s) ≠ none := by simp [outcome, lookup_none.2 hf.2.2]
          exact absurd ho this
        | _ => rfl
      simp [e1, e2, List.filterMap_cons]
    | some d' =>
      rw [ho] at ht2
      simp only at ht2
      have hd' : ∃ st', EInv st' d' := by
        cases ha : x.action with
        | none => rw [ha] at hs; simp only at hs; rw [hs] at ho; cases ho
        | some a => rw [ha] at hs; simp only [ho] at hs; exact ⟨_, hs.2⟩
      obtain ⟨st', hst'⟩ := hd'
      have ih := run_temps xs d' st' hst' ht2
      simp only [runSpec, reached, ho]
      rw [ih.1, ih.2]
      have key : d'.tables.filter Catalog.Spec.isTemp = d.tables.filter Catalog.Spec.isTemp ++ x.tempTable.toList ∧
          d'.functions.filter Catalog.Spec.isTemp = d.functions.filter Catalog.Spec.isTemp ++ x.tempFn.toList := by
        have create : ∀ (s : Catalog.Spec) (mode : Mode), createOut d s mode = some d' →
            (FreshOp d (.createTable s) ∨ (mode = .default ∧ s.isTemp = false ∧ (lookup d.tables s.key).isSome = true)) →
            d'.tables.filter Catalog.Spec.isTemp = d.tables.filter Catalog.Spec.isTemp ++ ((some s).filter Catalog.Spec.isTemp).toList ∧
            d'.functions = d.functions := by
          intro s mode hc hf
          rcases hf with hf | ⟨rfl, _, hf⟩
          · unfold createOut at hc
            rw [lookup_none.2 hf.2.1] at hc
            cases hc
            cases hts : s.isTemp <;> simp [List.filter_append, hts, Option.filter]
          · obtain ⟨t, hl⟩ := Option.isSome_iff_exists.1 hf
            unfold createOut at hc
            rw [hl] at hc
            cases hc
        have drop : ∀ (n : Name) (view ie : Bool), dropOut d n view ie = some d' →
            (match lookup d.tables n with | some t => t.isView = view → t.isTemp = false | none => ie = false) →
            d'.tables.filter Catalog.Spec.isTemp = d.tables.filter Catalog.Spec.isTemp ∧ d'.functions = d.functions := by
          intro n view ie hc hf
          unfold dropOut at hc
          cases hl : lookup d.tables n with
          | none =>
            rw [hl] at hc hf
            have hie : ie = false := hf
            subst hie
            cases hc
          | some t =>
            rw [hl] at hc hf
            simp only at hc hf
            by_cases hv : t.isView = view
            · rw [if_pos hv] at hc
              cases hc
              exact ⟨filter_remove h.kt hl (hf hv), rfl⟩
            · rw [if_neg hv] at hc; cases hc
        cases x with
        | createTable s m a =>
          have := create s m ho htx.2
          exact ⟨this.1, by rw [this.2]; simp [Stmt.tempFn, Stmt.fn]⟩
        | createView s m =>
          have := create s m ho htx.2
          exact ⟨this.1, by rw [this.2]; simp [Stmt.tempFn, Stmt.fn]⟩
        | createFunction s =>
          have hf : FreshOp d (.createFunction s) := htx
          simp only [outcome, lookup_none.2 hf.2.2] at ho
          cases ho
          cases hts : s.isTemp <;> simp [List.filter_append, hts, Stmt.tempFn, Stmt.fn, Stmt.tempTable, Stmt.table, Option.filter]
        | dropTable n ie =>
          have := drop n false ie ho htx
          exact ⟨by rw [this.1]; simp [Stmt.tempTable, Stmt.table], by rw [this.2]; simp [Stmt.tempFn, Stmt.fn]⟩
        | dropView n ie =>
          have := drop n true ie ho htx
          exact ⟨by rw [this.1]; simp [Stmt.tempTable, Stmt.table], by rw [this.2]; simp [Stmt.tempFn, Stmt.fn]⟩
        | dropFunction n =>
          cases hl : lookup d.functions n with
          | none => simp [outcome, hl] at ho
          | some t =>
            simp [outcome, hl] at ho
            subst ho
            exact ⟨by simp [Stmt.tempTable, Stmt.table], by rw [filter_remove h.kf hl (htx t hl)]; simp [Stmt.tempFn, Stmt.fn]⟩
        | other ok =>
          cases ok with
          | true => simp [outcome] at ho; subst ho; simp [Stmt.tempTable, Stmt.table, Stmt.tempFn, Stmt.fn]
          | false => simp [outcome] at ho
        | rejected => cases ho
      rw [key.1, key.2]
      have app : ∀ f : Stmt → Option Catalog.Spec, (x :: reached d' xs).filterMap f = (f x).toList ++ (reached d' xs).filterMap f := by
        intro f
        cases hfx : f x with
        | none => rw [List.filterMap_cons_none hfx]; rfl
        | some y => rw [List.filterMap_cons_some hfx]; rfl
      rw [app, app, List.append_assoc, List.append_assoc]
      exact ⟨rfl, rfl⟩

/-- Tables and views are what they are called. -/
def Typed : Stmt → Prop
  | .createTable s _ _ => s.isView = false
  | .createView s _ => s.isView = true
  | _ => True

theorem reached_typed : ∀ (xs : List Stmt) (d : Dict), TameScript d xs → ∀ x ∈ reached d xs, Typed x
  | [], _, _, x, hx => by cases hx
  | y :: ys, d, h, x, hx => by
    simp only [reached, List.mem_cons] at hx
    rcases hx with rfl | hx
    · have := h.1
      cases x with
      | createTable s m a => exact this.1
      | createView s m => exact this.1
      | _ => trivial
    · have h2 := h.2
      cases ho : outcome d y with
      | none => rw [ho] at hx; cases hx
      | some d' => rw [ho] at hx h2; exact reached_typed ys d' h2 x hx

/-- Objects whose names are not among those of `ts`. -/
def without (l ts : List Catalog.Spec) : List Catalog.Spec := l.filter fun s => ts.all fun t => decide (t.key ≠ s.key)

theorem without_nil (l : List Catalog.Spec) : without l [] = l := by
  unfold without
  rw [List.filter_eq_self]
  intros; rfl

theorem without_cons (l : List Catalog.Spec) (t : Catalog.Spec) (ts : List Catalog.Spec) : without l (t :: ts) = without (remove l t.key) ts := by
  unfold without remove
  rw [List.filter_filter]
  apply List.filter_congr
  intro s _
  simp only [List.all_cons]
  rw [Bool.and_comm]
  congr 1
  apply decide_eq_decide.2
  exact ne_comm

/-- Cleaning up removes exactly the temporary objects. -/
theorem cleanups_tame : ∀ (ys : List Stmt) (d : Dict) (st : St), EInv st d → (∀ x ∈ ys, Typed x) →
    (∀ s ∈ ys.filterMap Stmt.tempTable, s ∈ d.tables) → (∀ s ∈ ys.filterMap Stmt.tempFn, s ∈ d.functions) →
    ((ys.filterMap Stmt.tempTable).map Catalog.Spec.key).Nodup → ((ys.filterMap Stmt.tempFn).map Catalog.Spec.key).Nodup →
    (cleanups (ys.filterMap Stmt.action) st).2 = [] ∧
    EInv (cleanups (ys.filterMap Stmt.action) st).1
      ⟨without d.tables (ys.filterMap Stmt.tempTable), without d.functions (ys.filterMap Stmt.tempFn)⟩
  | [], d, st, h, _, _, _, _, _ => by
    simp only [List.filterMap_nil, cleanups, without_nil]
    exact ⟨trivial, h⟩
  | x :: xs, d, st, h, hy, h1, h2, n1, n2 => by
    have hxs : ∀ y ∈ xs, Typed y := fun y hy' => hy y (List.mem_cons_of_mem _ hy')
    have hx := hy x List.mem_cons_self
    -- statements without a temporary object
    have skip : ∀ (a : Action St), x.action = some a → x.tempTable = none → x.tempFn = none → (a.cleanup st).2 = none → EInv (a.cleanup st).1 d →
        (cleanups ((x :: xs).filterMap Stmt.action) st).2 = [] ∧ EInv (cleanups ((x :: xs).filterMap Stmt.action) st).1
          ⟨without d.tables ((x :: xs).filterMap Stmt.tempTable), without d.functions ((x :: xs).filterMap Stmt.tempFn)⟩ := by
      intro a ha ht hf hc he
      rw [List.filterMap_cons_none ht] at h1 n1 ⊢
      rw [List.filterMap_cons_none hf] at h2 n2 ⊢
      have ih := cleanups_tame xs d (a.cleanup st).1 he hxs h1 h2 n1 n2
      have hl : cleanups ((x :: xs).filterMap Stmt.action) st = cleanups (xs.filterMap Stmt.action) (a.cleanup st).1 := by
        rw [List.filterMap_cons_some ha]
        simp [cleanups, hc]
      rw [hl]
      exact ih
    have tmpT : ∀ (s : Catalog.Spec) (view : Bool) (a : Action St), x.action = some a → a.cleanup = cleanupCreate s view → s.isView = view →
        s.isTemp = true → x.tempTable = some s → x.tempFn = none →
        (cleanups ((x :: xs).filterMap Stmt.action) st).2 = [] ∧ EInv (cleanups ((x :: xs).filterMap Stmt.action) st).1
          ⟨without d.tables ((x :: xs).filterMap Stmt.tempTable), without d.functions ((x :: xs).filterMap Stmt.tempFn)⟩ := by
      intro s view a ha hac hv hs ht hf
      rw [List.filterMap_cons_some ht] at h1 n1 ⊢
      rw [List.filterMap_cons_none hf] at h2 n2 ⊢
      have hm := h1 s List.mem_cons_self
      have hc := cleanupCreate_fresh h s view hv hm
      rw [hs, if_pos rfl] at hc
      rw [List.map_cons, List.nodup_cons] at n1
      have ih := cleanups_tame xs ⟨remove d.tables s.key, d.functions⟩ (cleanupCreate s view st).1 hc.2.1 hxs (fun t ht => by
        unfold remove
        rw [List.mem_filter]
        refine ⟨h1 t (List.mem_cons_of_mem _ ht), ?_⟩
        simp only [decide_eq_true_eq]
        intro e
        exact n1.1 (e ▸ List.mem_map_of_mem ht)) h2 n1.2 n2
      have hl : cleanups ((x :: xs).filterMap Stmt.action) st = cleanups (xs.filterMap Stmt.action) (cleanupCreate s view st).1 := by
        rw [List.filterMap_cons_some ha]
        simp [cleanups, hac, hc.1]
      rw [hl, without_cons]
      exact ih
    have perm : ∀ (s : Catalog.Spec) (view : Bool), s.isTemp = false → (cleanupCreate s view st).2 = none ∧ EInv (cleanupCreate s view st).1 d := by
      intro s view hs
      cases view <;> simp [cleanupCreate, hs]
      · exact h
      · exact ⟨h.mem, h.kt, h.kf, h.disj, h.rows, h.phys⟩
    cases x with
    | createTable s m a =>
      cases hs : s.isTemp with
      | true => exact tmpT s false _ rfl rfl hx hs (by simp [Stmt.tempTable, Stmt.table, hs, Option.filter]) rfl
      | false => exact skip _ rfl (by simp [Stmt.tempTable, Stmt.table, hs]) rfl (perm s false hs).1 (perm s false hs).2
    | createView s m =>
      cases hs : s.isTemp with
      | true => exact tmpT s true _ rfl rfl hx hs (by simp [Stmt.tempTable, Stmt.table, hs, Option.filter]) rfl
      | false => exact skip _ rfl (by simp [Stmt.tempTable, Stmt.table, hs]) rfl (perm s true hs).1 (perm s true hs).2
    | createFunction s =>
      cases hs : s.isTemp with
      | false =>
        have hc : cleanupCreateFunction s st = (st, none) := by simp [cleanupCreateFunction, hs]
        exact skip _ rfl rfl (by simp [Stmt.tempFn, Stmt.fn, hs]) (by simp [hc]) (by simp only [hc]; exact h)
      | true =>
        have ht : (Stmt.createFunction s).tempTable = none := rfl
        have hf : (Stmt.createFunction s).tempFn = some s := by simp [Stmt.tempFn, Stmt.fn, hs, Option.filter]
        rw [List.filterMap_cons_none ht] at h1 n1 ⊢
        rw [List.filterMap_cons_some hf] at h2 n2 ⊢
        have hm := h2 s List.mem_cons_self
        have hc := cleanupCreateFunction_fresh h s hm
        rw [hs, if_pos rfl] at hc
        rw [List.map_cons, List.nodup_cons] at n2
        have ih := cleanups_tame xs ⟨d.tables, remove d.functions s.key⟩ (cleanupCreateFunction s st).1 hc.2.1 hxs h1 (fun t ht => by
          unfold remove
          rw [List.mem_filter]
          refine ⟨h2 t (List.mem_cons_of_mem _ ht), ?_⟩
          simp only [decide_eq_true_eq]
          intro e
          exact n2.1 (e ▸ List.mem_map_of_mem ht)) n1 n2.2
        have hl : cleanups ((Stmt.createFunction s :: xs).filterMap Stmt.action) st = cleanups (xs.filterMap Stmt.action) (cleanupCreateFunction s st).1 := by
          have ha : (Stmt.createFunction s).action = some { exec := execCreateFunction s, cleanup := cleanupCreateFunction s } := rfl
          rw [List.filterMap_cons_some ha]
          simp [cleanups, hc.1]
        rw [hl, without_cons]
        exact ih
    | dropTable n ie => exact skip _ rfl rfl rfl rfl h
    | dropView n ie => exact skip _ rfl rfl rfl rfl h
    | dropFunction n => exact skip _ rfl rfl rfl rfl h
    | other ok => exact skip _ rfl rfl rfl rfl h
    | rejected =>
      have ih := cleanups_tame xs d st h hxs h1 h2 n1 n2
      exact ih

theorem without_temps {l : List Catalog.Spec} (hk : Keys l) : without l (l.filter Catalog.Spec.isTemp) = l.filter fun s => !s.isTemp := by
  unfold without
  apply List.filter_congr
  intro s hs
  cases ht : s.isTemp with
  | true =>
    rw [List.all_eq_false.2 ⟨s, List.mem_filter.2 ⟨hs, ht⟩, by simp⟩]
    rfl
  | false =>
    simp only [Bool.not_false]
    rw [List.all_eq_true]
    intro t htm
    rw [List.mem_filter] at htm
    simp only [decide_eq_true_eq]
    intro e
    have h1 := lookup_mem hk htm.1
    rw [e, lookup_mem hk hs] at h1
    cases h1
    rw [htm.2] at ht
    cases ht

/-- C81 for tame scripts: creates of free names in any mode, creates that fail, drops of permanent objects, failing drops,
temporary objects, failing statements anywhere.  Catalog, SQLite and the persistent rows hold exactly the permanent objects
the script leaves; an error is returned exactly if a statement failed. -/
theorem C81_script_partial (xs : List Stmt) (d : Dict) (st : St) (h : EInv st d) (hp : ∀ s ∈ d.tables, s.isTemp = false)
    (hq : ∀ s ∈ d.functions, s.isTemp = false) (ht : TameScript d xs) :
    EInv (exec xs st).1 (permanent (runSpec d xs).1) ∧ ((exec xs st).2 = [] ↔ (runSpec d xs).2 = true) := by
  obtain ⟨l1, l2, l3⟩ := loop_tame xs d st [] h ht
  obtain ⟨t1, t2⟩ := run_temps xs d st h ht
  have e1 : d.tables.filter Catalog.Spec.isTemp = [] := List.filter_eq_nil_iff.2 fun s hs => by rw [hp s hs]; simp
  have e2 : d.functions.filter Catalog.Spec.isTemp = [] := List.filter_eq_nil_iff.2 fun s hs => by rw [hq s hs]; simp
  rw [e1, List.nil_append] at t1
  rw [e2, List.nil_append] at t2
  have hc := cleanups_tame (reached d xs) (runSpec d xs).1 _ l1 (reached_typed xs d ht)
    (fun s hs => by rw [← t1] at hs; exact (List.mem_filter.1 hs).1) (fun s hs => by rw [← t2] at hs; exact (List.mem_filter.1 hs).1)
    (by rw [← t1]; exact ((List.filter_sublist).map _).nodup l1.kt.1) (by rw [← t2]; exact ((List.filter_sublist).map _).nodup l1.kf.1)
  rw [← t1, ← t2, without_temps l1.kt, without_temps l1.kf] at hc
  have hr : exec xs st = ((cleanups ((reached d xs).filterMap Stmt.action) (loop (xs.map Stmt.func) st []).1).1,
      (loop (xs.map Stmt.func) st []).2.2.toList ++ (cleanups ((reached d xs).filterMap Stmt.action) (loop (xs.map Stmt.func) st []).1).2) := by
    simp only [exec, execContext, l2, List.nil_append]
  rw [hr]
  refine ⟨hc.2, ?_⟩
  simp only [hc.1, List.append_nil, Option.toList_eq_nil_iff]
  exact l3

/-- CREATE TEMP TABLE t; DROP TABLE t returns an error although both statements succeed. -/
theorem C81_full_false : ¬ C81_full := by
  intro h
  have h1 := (h [.createTable (tSpec true 1) .default false, .dropTable ['t'] false] Dict.empty St.init EInv.init
    (by simp [Dict.empty]) (by simp [Dict.empty]) (by simp [Kinds, tSpec])).2
  have h2 : (runSpec Dict.empty [.createTable (tSpec true 1) .default false, .dropTable ['t'] false]).2 = true := by decide
  have h3 := h1.2 h2
  revert h3
  decide

/-- A create over an existing table, after a temporary table, a permanent one and a drop. -/
example : TameScript Dict.empty
    [.createTable (tSpec false 1) .default false, .createTable { path := [['u']], isTemp := true, isView := false, body := 2 } .ifNotExists false,
     .dropTable ['t'] true, .createFunction (fSpec true 1), .createTable (tSpec false 3) .orReplace false,
     .createTable (tSpec false 4) .default false, .rejected] := by
  simp [TameScript, Tame, outcome, createOut, dropOut, FreshOp, Dict.empty, tSpec, fSpec, Catalog.Spec.key, NamePath.formatPath, lookup, remove]

end Verif.Engine
