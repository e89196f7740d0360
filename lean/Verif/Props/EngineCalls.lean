import Verif.Props.EngineScripts
import Verif.Props.CatalogLives

/-!
# C81: what a call leaves, for scripts that create existing names again

The meaning of a call is given on what SQLite has under a name and the definitions the name was given since it was last
dropped (`Lives`); it does not mention the catalog's lists, maps and trees.
-/

namespace Verif.Engine
open Verif.Catalog Verif.Catalog.Spec Verif.Driver

/-! ### What a call means -/

/-- SQLite's objects (`some true`: a view) and the definitions of every name since it was last dropped. -/
structure Objs where
  kind : Name → Option Bool
  lives : Lives

def Objs.none : Objs := ⟨fun _ => .none, Lives.none⟩

/-- CREATE TABLE or VIEW: the name gets a further definition.  Over an existing object it fails without a mode, in CREATE TABLE IF
NOT EXISTS … AS SELECT, and in OR REPLACE of an object of the other kind; IF NOT EXISTS leaves SQLite's object alone. -/
def Objs.create (o : Objs) (s : Catalog.Spec) (view : Bool) (mode : Mode) (asSelect : Bool) : Option Objs :=
  match o.kind s.key with
  | .none => some ⟨fun n => if n = s.key then some view else o.kind n, { o.lives with tables := born o.lives.tables s }⟩
  | some k =>
    if mode = .ifNotExists ∧ asSelect = false ∨ mode = .orReplace ∧ k = view then
      some ⟨o.kind, { o.lives with tables := born o.lives.tables s }⟩
    else .none

/-- DROP TABLE or VIEW, with or without IF EXISTS: succeeds on an object of the kind. -/
def Objs.drop (o : Objs) (n : Name) (view : Bool) : Option Objs :=
  if o.kind n = some view then some ⟨fun m => if m = n then .none else o.kind m, { o.lives with tables := died o.lives.tables n }⟩
  else .none

def Objs.dropFunction (o : Objs) (n : Name) : Option Objs :=
  if o.lives.functions n = [] then .none else some { o with lives := { o.lives with functions := died o.lives.functions n } }

/-- One statement; `none` if it fails (and changes nothing). -/
def Objs.step (o : Objs) : Stmt → Option Objs
  | .createTable s mode asSelect => o.create s false mode asSelect
  | .createView s mode => o.create s true mode false
  | .createFunction s => some { o with lives := { o.lives with functions := born o.lives.functions s } }
  | .dropTable n _ => o.drop n false
  | .dropView n _ => o.drop n true
  | .dropFunction n => o.dropFunction n
  | .other ok => if ok then some o else .none
  | .rejected => .none

/-- The statements up to the first failure: what they leave, the statements started, whether all succeeded. -/
def Objs.body (o : Objs) : List Stmt → Objs × List Stmt × Bool
  | [] => (o, [], true)
  | x :: xs => match o.step x with
    | .none => (o, [x], false)
    | some o' => ((o'.body xs).1, x :: (o'.body xs).2.1, (o'.body xs).2.2)

/-- The end of the call for one started statement: a temporary object is dropped under its name, whatever the name stands for
by then. -/
def Objs.end1 (o : Objs) : Stmt → Option Objs
  | .createTable s _ _ => if s.isTemp then o.drop s.key false else some o
  | .createView s _ => if s.isTemp then o.drop s.key true else some o
  | .createFunction s => if s.isTemp then o.dropFunction s.key else some o
  | _ => some o

def Objs.ends (o : Objs) : List Stmt → Objs × Bool
  | [] => (o, true)
  | x :: xs => (((o.end1 x).getD o).ends xs |>.1, (o.end1 x).isSome && (((o.end1 x).getD o).ends xs).2)

/-- A call: the objects it leaves and whether it succeeds. -/
def Objs.call (o : Objs) (xs : List Stmt) : Objs × Bool :=
  let b := o.body xs
  ((b.1.ends b.2.1).1, b.2.2 && (b.1.ends b.2.1).2)

/-- No name is used for a table or view and for a function (`T` says which), and no created object has an empty path. -/
def Sorted (T : Name → Bool) (o : Objs) : Prop := ∀ n, (T n = true → o.lives.functions n = []) ∧ (T n = false → o.lives.tables n = [])

def SortedStmt (T : Name → Bool) : Stmt → Prop
  | .createTable s _ _ => s.path ≠ [] ∧ T s.key = true
  | .createView s _ => s.path ≠ [] ∧ T s.key = true
  | .createFunction s => s.path ≠ [] ∧ T s.key = false
  | _ => True

/-- The state of the process, the database and SQLite are those of `o`: SQLite has `o.kind`; the table map knows exactly the
living tables, with one of their definitions; a query uses the oldest definition of a function; the analyzer's trees are those of the oldest
definitions; the persistent rows, loaded by a new process, are the latest permanent definitions. -/
structure Is (st : St) (o : Objs) : Prop where
  phys : ∀ n, st.phys n = o.kind n
  known : ∀ n, (o.kind n).isSome = true ↔ o.lives.tables n ≠ []
  all : ∃ f d, All (worldOf st) o.lives f d

theorem Is.init : Is St.init Objs.none :=
  ⟨fun _ => rfl, fun _ => by simp [Objs.none, Lives.none], ⟨Dict.empty, Dict.empty, All.init⟩⟩

/-- `All` does not look at the clock and the time of the last synchronisation. -/
theorem all_congr {w w' : World} {L f d} (h : All w L f d) (hm : w'.proc.mem = w.proc.mem) (hr : w'.rows = w.rows) : All w' L f d :=
  ⟨by rw [hm]; exact h.shape, h.kt, h.kf, h.skt, h.skf, by rw [hr]; exact h.stores, h.firstT, h.firstF, h.stT, h.stF, h.disj⟩

theorem create_is {st : St} {o : Objs} (h : Is st o) (s : Catalog.Spec) (view : Bool) (mode : Mode) (a : Bool) (hp : s.path ≠ [])
    (hf : o.lives.functions s.key = []) :
    match o.create s view mode a with
    | some o' => (execCreate s view mode a st).2 = none ∧ Is (execCreate s view mode a st).1 o'
    | .none => (execCreate s view mode a st).2 ≠ none ∧ Is (execCreate s view mode a st).1 o := by
  obtain ⟨f, d, hall⟩ := h.all
  have hs := hall.step 0 (.createTable s) ⟨hp, hf⟩
  have hok : (addNewTableSpec st.mem st.rows s st.now).2.2 = true := hs.2
  -- the end of a successful create
  have fin : ∀ phys kind : Name → Option Bool, (∀ n, phys n = kind n) → (∀ n, (kind n).isSome = true ↔ born o.lives.tables s n ≠ []) →
      ∀ evs, Is { st with phys := phys, mem := (addNewTableSpec st.mem st.rows s st.now).1, rows := (addNewTableSpec st.mem st.rows s st.now).2.1, evs := evs }
        ⟨kind, { o.lives with tables := born o.lives.tables s }⟩ :=
    fun phys kind hk hb evs => ⟨hk, hb, ⟨_, _, all_congr hs.1 rfl rfl⟩⟩
  have bornNe : ∀ n, born o.lives.tables s n ≠ [] ↔ n = s.key ∨ o.lives.tables n ≠ [] := by
    intro n
    unfold born
    split
    · rename_i e; simp [e]
    · rename_i e; simp [e]
  unfold Objs.create
  cases hk : o.kind s.key with
  | none =>
    simp only
    have hph : st.phys s.key = none := by rw [h.phys, hk]
    have e : execCreate s view mode a st = ({ st with
        phys := fun m => if m = s.key then some view else st.phys m,
        mem := (addNewTableSpec st.mem st.rows s st.now).1, rows := (addNewTableSpec st.mem st.rows s st.now).2.1,
        evs := if !view && !s.isTemp then st.evs ++ [.addTable s] else st.evs }, none) := by
      unfold execCreate
      have h1 : (if mode = .orReplace then sqlDrop st.phys s.key view true else (st.phys, true)) = (st.phys, true) := by
        split
        · simp [sqlDrop, hph]
        · rfl
      simp only [h1, sqlCreate, hph, hok, Bool.true_eq_false, if_false]
      split <;> rfl
    rw [e]
    refine ⟨rfl, fin _ _ (fun n => ?_) (fun n => ?_) _⟩
    · split
      · rfl
      · exact h.phys n
    · rw [bornNe]
      split
      · rename_i e; simp [e]
      · rename_i e; simp [e, h.known]
  | some k =>
    simp only
    have hph : st.phys s.key = some k := by rw [h.phys, hk]
    have hkn : ∀ n, (o.kind n).isSome = true ↔ born o.lives.tables s n ≠ [] := by
      intro n
      rw [bornNe, h.known]
      constructor
      · exact .inr
      · rintro (e | e)
        · rw [e, ← h.known, hk]; rfl
        · exact e
    by_cases hc : mode = .ifNotExists ∧ a = false ∨ mode = .orReplace ∧ k = view
    · rw [if_pos hc]
      simp only
      rcases hc with ⟨rfl, rfl⟩ | ⟨rfl, rfl⟩
      · have e : execCreate s view .ifNotExists false st = ({ st with
            phys := st.phys,
            mem := (addNewTableSpec st.mem st.rows s st.now).1, rows := (addNewTableSpec st.mem st.rows s st.now).2.1,
            evs := if !view && !s.isTemp then st.evs ++ [.addTable s] else st.evs }, none) := by
          unfold execCreate
          simp only [reduceCtorEq, if_false, sqlCreate, hph, hok, Bool.true_eq_false, decide_true, Bool.not_false, Bool.and_true]
          split <;> rfl
        rw [e]
        exact ⟨rfl, fin _ _ h.phys hkn _⟩
      · have e : execCreate s k .orReplace a st = ({ st with
            phys := fun m => if m = s.key then some k else if m = s.key then none else st.phys m,
            mem := (addNewTableSpec st.mem st.rows s st.now).1, rows := (addNewTableSpec st.mem st.rows s st.now).2.1,
            evs := if !k && !s.isTemp then st.evs ++ [.addTable s] else st.evs }, none) := by
          unfold execCreate
          simp only [if_true, sqlDrop, hph, sqlCreate, hok, Bool.true_eq_false, if_false]
          split <;> rfl
        rw [e]
        refine ⟨rfl, fin _ _ (fun n => ?_) hkn _⟩
        split
        · rename_i e; rw [e, hk]
        · exact h.phys n
    · rw [if_neg hc]
      simp only
      have e : execCreate s view mode a st = (st, fail) := by
        unfold execCreate
        cases mode with
        | default => simp [sqlCreate, hph]
        | ifNotExists =>
          cases a with
          | true => simp [sqlCreate, hph]
          | false => simp at hc
        | orReplace =>
          have : ¬ k = view := by simpa using hc
          simp [sqlDrop, hph, this]
      rw [e]
      exact ⟨by simp [fail], h⟩

theorem delete_is {st : St} {o : Objs} (h : Is st o) (n : Name) (view : Bool) (hk : o.kind n = some view) :
    (deleteTableSpec st.mem st.rows n).2.2 = true ∧ (∃ t, st.mem.tableMap n = some t) ∧
    ∀ evs, Is { st with phys := fun m => if m = n then none else st.phys m, mem := (deleteTableSpec st.mem st.rows n).1,
                        rows := (deleteTableSpec st.mem st.rows n).2.1, evs := evs }
      ⟨fun m => if m = n then none else o.kind m, { o.lives with tables := died o.lives.tables n }⟩ := by
  obtain ⟨f, d, hall⟩ := h.all
  have hs := hall.step 0 (.dropTable n) trivial
  have hne : o.lives.tables n ≠ [] := (h.known n).1 (by rw [hk]; rfl)
  refine ⟨hs.2.trans (by simpa [Lives.succeeds] using hne), ?_, fun evs => ⟨fun m => ?_, fun m => ?_, ⟨_, _, all_congr hs.1 rfl rfl⟩⟩⟩
  · apply Option.isSome_iff_exists.1
    have := hall.shape.tSome n
    rw [hall.firstT, head_isSome] at this
    rw [show (worldOf st).proc.mem = st.mem from rfl] at this
    rw [this]
    simpa using hne
  · simp only; split
    · rfl
    · exact h.phys m
  · simp only [died]; split
    · simp
    · exact h.known m

theorem delete_unknown {st : St} {o : Objs} (h : Is st o) (n : Name) (hk : o.kind n = none) :
    deleteTableSpec st.mem st.rows n = (st.mem, st.rows, false) := by
  obtain ⟨f, d, hall⟩ := h.all
  have hnil : o.lives.tables n = [] := by
    have := h.known n
    rw [hk] at this
    simpa using this
  have hdel := hall.shape.deleteTable hall.kt hall.kf n
  rw [hall.firstT, hnil] at hdel
  simp only [List.head?_nil, Option.isSome_none, Bool.false_eq_true, if_false] at hdel
  have : deleteTableSpecByName st.mem n = (st.mem, false) := hdel.1
  simp [deleteTableSpec, this]

theorem drop_is {st : St} {o : Objs} (h : Is st o) (n : Name) (view ie : Bool) :
    match o.drop n view with
    | some o' => (execDrop n view ie st).2 = none ∧ Is (execDrop n view ie st).1 o'
    | .none => (execDrop n view ie st).2 ≠ none ∧ Is (execDrop n view ie st).1 o := by
  unfold Objs.drop
  by_cases hk : o.kind n = some view
  · rw [if_pos hk]
    simp only
    obtain ⟨h1, ⟨t, h2⟩, h3⟩ := delete_is h n view hk
    have hph : st.phys n = some view := by rw [h.phys, hk]
    have e : execDrop n view ie st = ({ st with
        phys := fun m => if m = n then none else st.phys m, mem := (deleteTableSpec st.mem st.rows n).1,
        rows := (deleteTableSpec st.mem st.rows n).2.1, evs := st.evs ++ [.delTable t] }, none) := by
      simp [execDrop, sqlDrop, hph, h1, h2]
    rw [e]
    exact ⟨rfl, h3 _⟩
  · rw [if_neg hk]
    simp only
    cases hn : o.kind n with
    | some k =>
      have hph : st.phys n = some k := by rw [h.phys, hn]
      have hkv : ¬ k = view := by rw [hn] at hk; simpa using hk
      have e : execDrop n view ie st = (st, fail) := by simp [execDrop, sqlDrop, hph, hkv]
      rw [e]
      exact ⟨by simp [fail], h⟩
    | none =>
      have hph : st.phys n = none := by rw [h.phys, hn]
      have hd := delete_unknown h n hn
      have e : (execDrop n view ie st).1 = st ∧ (execDrop n view ie st).2 = fail := by
        cases ie
        · simp [execDrop, sqlDrop, hph]
        · simp only [execDrop, sqlDrop, hph, hd, Bool.true_eq_false, if_false]
          cases st.mem.tableMap n <;> simp
      rw [e.1, e.2]
      exact ⟨by simp [fail], h⟩

theorem cleanup_is {st : St} {o : Objs} (h : Is st o) (s : Catalog.Spec) (view : Bool) :
    match (if s.isTemp then o.drop s.key view else some o) with
    | some o' => (cleanupCreate s view st).2 = none ∧ Is (cleanupCreate s view st).1 o'
    | .none => (cleanupCreate s view st).2 ≠ none ∧ Is (cleanupCreate s view st).1 o := by
  cases ht : s.isTemp with
  | false =>
    cases view <;> simp [cleanupCreate, ht]
    · exact h
    · exact ⟨h.phys, h.known, h.all⟩
  | true =>
    simp only [if_true]
    unfold Objs.drop
    by_cases hk : o.kind s.key = some view
    · rw [if_pos hk]
      simp only
      obtain ⟨h1, _, h3⟩ := delete_is h s.key view hk
      have hph : st.phys s.key = some view := by rw [h.phys, hk]
      have e : cleanupCreate s view st = ({ st with
        phys := fun m => if m = s.key then none else st.phys m, mem := (deleteTableSpec st.mem st.rows s.key).1,
        rows := (deleteTableSpec st.mem st.rows s.key).2.1, evs := st.evs }, none) := by
        simp [cleanupCreate, ht, sqlDrop, hph, h1]
      rw [e]
      exact ⟨rfl, h3 _⟩
    · rw [if_neg hk]
      simp only
      cases hn : o.kind s.key with
      | some k =>
        have hph : st.phys s.key = some k := by rw [h.phys, hn]
        have hkv : ¬ k = view := by rw [hn] at hk; simpa using hk
        have e : cleanupCreate s view st = (st, fail) := by simp [cleanupCreate, ht, sqlDrop, hph, hkv]
        rw [e]
        exact ⟨by simp [fail], h⟩
      | none =>
        have hph : st.phys s.key = none := by rw [h.phys, hn]
        have hd := delete_unknown h s.key hn
        have e : cleanupCreate s view st = (st, fail) := by simp [cleanupCreate, ht, sqlDrop, hph, hd]
        rw [e]
        exact ⟨by simp [fail], h⟩

theorem deleteFn_is {st : St} {o : Objs} (h : Is st o) (n : Name) :
    match o.dropFunction n with
    | some o' => (deleteFunctionSpec st.mem st.rows n).2.2 = true ∧
        ∀ evs fm, Is { st with mem := (deleteFunctionSpec st.mem st.rows n).1, rows := (deleteFunctionSpec st.mem st.rows n).2.1, evs := evs, fm := fm } o'
    | .none => deleteFunctionSpec st.mem st.rows n = (st.mem, st.rows, false) := by
  obtain ⟨f, d, hall⟩ := h.all
  unfold Objs.dropFunction
  by_cases hn : o.lives.functions n = []
  · rw [if_pos hn]
    simp only
    have hdel := hall.shape.deleteFunction hall.kt hall.kf n
    rw [hall.firstF, hn] at hdel
    simp only [List.head?_nil, Option.isSome_none, Bool.false_eq_true, if_false] at hdel
    have : deleteFunctionSpecByName st.mem n = (st.mem, false) := hdel.1
    simp [deleteFunctionSpec, this]
  · rw [if_neg hn]
    simp only
    have hs := hall.step 0 (.dropFunction n) trivial
    exact ⟨hs.2.trans (by simpa [Lives.succeeds] using hn), fun evs fm => ⟨h.phys, h.known, ⟨_, _, all_congr hs.1 rfl rfl⟩⟩⟩

theorem dropFn_is {st : St} {o : Objs} (h : Is st o) (n : Name) :
    match o.dropFunction n with
    | some o' => (execDropFunction n st).2 = none ∧ Is (execDropFunction n st).1 o'
    | .none => (execDropFunction n st).2 ≠ none ∧ Is (execDropFunction n st).1 o := by
  have hd := deleteFn_is h n
  cases ho : o.dropFunction n with
  | none =>
    rw [ho] at hd
    simp only at hd ⊢
    have e : execDropFunction n st = (st, fail) := by simp [execDropFunction, hd]
    rw [e]
    exact ⟨by simp [fail], h⟩
  | some o' =>
    rw [ho] at hd
    simp only at hd ⊢
    simp only [execDropFunction, hd.1, Bool.true_eq_false, if_false]
    exact ⟨trivial, hd.2 _ _⟩

theorem cleanupFn_is {st : St} {o : Objs} (h : Is st o) (s : Catalog.Spec) :
    match (if s.isTemp then o.dropFunction s.key else some o) with
    | some o' => (cleanupCreateFunction s st).2 = none ∧ Is (cleanupCreateFunction s st).1 o'
    | .none => (cleanupCreateFunction s st).2 ≠ none ∧ Is (cleanupCreateFunction s st).1 o := by
  cases ht : s.isTemp with
  | false => simp [cleanupCreateFunction, ht]; exact h
  | true =>
    simp only [if_true]
    have hd := deleteFn_is h s.key
    cases ho : o.dropFunction s.key with
    | none =>
      rw [ho] at hd
      simp only at hd ⊢
      have e : cleanupCreateFunction s st = (st, fail) := by simp [cleanupCreateFunction, ht, hd]
      rw [e]
      exact ⟨by simp [fail], h⟩
    | some o' =>
      rw [ho] at hd
      simp only at hd ⊢
      simp only [cleanupCreateFunction, ht, hd.1, Bool.true_eq_false, if_false]
      exact ⟨trivial, hd.2 _ _⟩

theorem Sorted.step {T : Name → Bool} {o o' : Objs} (h : Sorted T o) {x : Stmt} (hx : SortedStmt T x) (hs : o.step x = some o') : Sorted T o' := by
  have bt : ∀ (s : Catalog.Spec) (k : Name → Option Bool), T s.key = true → Sorted T ⟨k, { o.lives with tables := born o.lives.tables s }⟩ := by
    intro s k hT n
    refine ⟨(h n).1, fun hn => ?_⟩
    have : n ≠ s.key := fun e => by rw [e, hT] at hn; cases hn
    simp only [born, if_neg this]
    exact (h n).2 hn
  have dt : ∀ (m : Name) (k : Name → Option Bool), Sorted T ⟨k, { o.lives with tables := died o.lives.tables m }⟩ := by
    intro m k n
    refine ⟨(h n).1, fun hn => ?_⟩
    simp only [died]
    split
    · rfl
    · exact (h n).2 hn
  have crt : ∀ s v m a, T s.key = true → o.create s v m a = some o' → Sorted T o' := by
    intro s v m a hT hc
    unfold Objs.create at hc
    split at hc
    · cases hc; exact bt s _ hT
    · split at hc
      · cases hc; exact bt s _ hT
      · cases hc
  have drp : ∀ n v, o.drop n v = some o' → Sorted T o' := by
    intro n v hc
    unfold Objs.drop at hc
    split at hc
    · cases hc; exact dt n _
    · cases hc
  cases x with
  | createTable s m a => exact crt s _ m a hx.2 hs
  | createView s m => exact crt s _ m _ hx.2 hs
  | createFunction s =>
    cases hs
    intro n
    refine ⟨fun hn => ?_, (h n).2⟩
    have : n ≠ s.key := fun e => by rw [e, hx.2] at hn; cases hn
    simp only [born, if_neg this]
    exact (h n).1 hn
  | dropTable n ie => exact drp n _ hs
  | dropView n ie => exact drp n _ hs
  | dropFunction m =>
    simp only [Objs.step, Objs.dropFunction] at hs
    split at hs
    · cases hs
    · cases hs
      intro n
      refine ⟨fun hn => ?_, (h n).2⟩
      simp only [died]
      split
      · rfl
      · exact (h n).1 hn
  | other ok =>
    cases ok
    · cases hs
    · cases hs; exact h
  | rejected => cases hs

theorem stmt_is {T : Name → Bool} {st : St} {o : Objs} (h : Is st o) (hT : Sorted T o) (x : Stmt) (hx : SortedStmt T x) :
    match x.action with
    | none => o.step x = .none
    | some a => match o.step x with
      | some o' => (a.exec st).2 = none ∧ Is (a.exec st).1 o'
      | .none => (a.exec st).2 ≠ none ∧ Is (a.exec st).1 o := by
  cases x with
  | createTable s m a => exact create_is h s false m a hx.1 ((hT _).1 hx.2)
  | createView s m => exact create_is h s true m false hx.1 ((hT _).1 hx.2)
  | createFunction s =>
    obtain ⟨f, d, hall⟩ := h.all
    have hs := hall.step 0 (.createFunction s) ⟨hx.1, (hT _).2 hx.2⟩
    have hok : (addNewFunctionSpec st.mem st.rows s st.now).2.2 = true := hs.2
    simp only [Stmt.action, Objs.step, execCreateFunction, hok, Bool.true_eq_false, if_false]
    exact ⟨trivial, ⟨h.phys, h.known, ⟨_, _, all_congr hs.1 rfl rfl⟩⟩⟩
  | dropTable n ie => exact drop_is h n false ie
  | dropView n ie => exact drop_is h n true ie
  | dropFunction n => exact dropFn_is h n
  | other ok =>
    cases ok with
    | true => exact ⟨rfl, h⟩
    | false => exact ⟨by simp [fail], h⟩
  | rejected => rfl

theorem end_is {st : St} {o : Objs} (h : Is st o) (x : Stmt) (a : Action St) (ha : x.action = some a) :
    match o.end1 x with
    | some o' => (a.cleanup st).2 = none ∧ Is (a.cleanup st).1 o'
    | .none => (a.cleanup st).2 ≠ none ∧ Is (a.cleanup st).1 o := by
  cases x with
  | createTable s m b => cases ha; exact cleanup_is h s false
  | createView s m => cases ha; exact cleanup_is h s true
  | createFunction s => cases ha; exact cleanupFn_is h s
  | dropTable n ie => cases ha; exact ⟨rfl, h⟩
  | dropView n ie => cases ha; exact ⟨rfl, h⟩
  | dropFunction n => cases ha; exact ⟨rfl, h⟩
  | other ok => cases ha; exact ⟨rfl, h⟩
  | rejected => cases ha

theorem ends_is : ∀ (ys : List Stmt) (st : St) (o : Objs), Is st o →
    Is (cleanups (ys.filterMap Stmt.action) st).1 (o.ends ys).1 ∧ ((cleanups (ys.filterMap Stmt.action) st).2 = [] ↔ (o.ends ys).2 = true)
  | [], st, o, h => ⟨h, by simp [cleanups, Objs.ends]⟩
  | x :: xs, st, o, h => by
    cases ha : x.action with
    | none =>
      have hx : x = .rejected := by cases x <;> first | rfl | cases ha
      subst hx
      have := ends_is xs st o h
      simpa [Objs.ends, Objs.end1, List.filterMap_cons, Stmt.action] using this
    | some a =>
      have he := end_is h x a ha
      rw [List.filterMap_cons_some ha]
      simp only [cleanups, Objs.ends]
      cases ho : o.end1 x with
      | none =>
        rw [ho] at he
        simp only at he
        have ih := ends_is xs (a.cleanup st).1 o he.2
        simp only [Option.getD_none, Option.isSome_none, Bool.false_and, Bool.false_eq_true, iff_false]
        refine ⟨ih.1, ?_⟩
        obtain ⟨e, h1⟩ := Option.ne_none_iff_exists'.1 he.1
        simp [h1]
      | some o' =>
        rw [ho] at he
        simp only at he
        have ih := ends_is xs (a.cleanup st).1 o' he.2
        simp only [Option.getD_some, Option.isSome_some, Bool.true_and]
        refine ⟨ih.1, ?_⟩
        rw [he.1]
        simpa using ih.2

theorem body_is (T : Name → Bool) : ∀ (xs : List Stmt) (st : St) (o : Objs) (acc : List (Action St)), Is st o → Sorted T o → (∀ x ∈ xs, SortedStmt T x) →
    Is (loop (xs.map Stmt.func) st acc).1 (o.body xs).1 ∧
    (loop (xs.map Stmt.func) st acc).2.1 = acc ++ (o.body xs).2.1.filterMap Stmt.action ∧
    ((loop (xs.map Stmt.func) st acc).2.2 = none ↔ (o.body xs).2.2 = true)
  | [], st, o, acc, h, _, _ => by simp only [List.map_nil, loop, Objs.body]; exact ⟨h, by simp, by simp⟩
  | x :: xs, st, o, acc, h, hT, hx => by
    have hs := stmt_is h hT x (hx x List.mem_cons_self)
    cases ha : x.action with
    | none =>
      rw [ha] at hs
      simp only at hs
      have hl : loop ((x :: xs).map Stmt.func) st acc = (st, acc, some 1) := by
        simp only [List.map_cons, loop, Stmt.func, ha]
      rw [hl]
      simp only [Objs.body, hs]
      exact ⟨h, by simp [ha], by simp⟩
    | some a =>
      rw [ha] at hs
      simp only at hs
      cases ho : o.step x with
      | none =>
        rw [ho] at hs
        simp only at hs
        obtain ⟨e, he⟩ := Option.ne_none_iff_exists'.1 hs.1
        have hl : loop ((x :: xs).map Stmt.func) st acc = ((a.exec st).1, acc ++ [a], some e) := by
          simp only [List.map_cons, loop, Stmt.func, ha]
          rw [show a.exec st = ((a.exec st).1, some e) from Prod.ext rfl he]
        rw [hl]
        simp only [Objs.body, ho]
        exact ⟨hs.2, by simp [ha], by simp⟩
      | some o' =>
        rw [ho] at hs
        simp only at hs
        have hl : loop ((x :: xs).map Stmt.func) st acc = loop (xs.map Stmt.func) (a.exec st).1 (acc ++ [a]) := by
          simp only [List.map_cons, loop, Stmt.func, ha]
          rw [show a.exec st = ((a.exec st).1, none) from Prod.ext rfl hs.1]
        have ih := body_is T xs (a.exec st).1 o' (acc ++ [a]) hs.2 (hT.step (hx x List.mem_cons_self) ho) (fun y hy => hx y (List.mem_cons_of_mem _ hy))
        rw [hl]
        simp only [Objs.body, ho]
        refine ⟨ih.1, ?_, ih.2.2⟩
        rw [ih.2.1, List.filterMap_cons_some ha]
        simp

theorem call_is (T : Name → Bool) (xs : List Stmt) (st : St) (o : Objs) (h : Is st o) (hT : Sorted T o) (hx : ∀ x ∈ xs, SortedStmt T x) :
    Is (exec xs st).1 (o.call xs).1 ∧ ((exec xs st).2 = [] ↔ (o.call xs).2 = true) := by
  have hb := body_is T xs st o [] h hT hx
  simp only [exec, execContext, Objs.call]
  rw [hb.2.1, List.nil_append]
  have he := ends_is (o.body xs).2.1 _ _ hb.1
  refine ⟨he.1, ?_⟩
  rw [List.append_eq_nil_iff, Bool.and_eq_true, he.2, ← hb.2.2]
  cases (loop (xs.map Stmt.func) st []).2.2 <;> simp

theorem Sorted.call {T : Name → Bool} {o : Objs} (h : Sorted T o) (xs : List Stmt) (hx : ∀ x ∈ xs, SortedStmt T x) : Sorted T (o.call xs).1 := by
  have hbody : ∀ (xs : List Stmt) (o : Objs), Sorted T o → (∀ x ∈ xs, SortedStmt T x) → Sorted T (o.body xs).1 := by
    intro xs
    induction xs with
    | nil => intro o h _; exact h
    | cons x xs ih =>
      intro o h hx
      simp only [Objs.body]
      cases ho : o.step x with
      | none => exact h
      | some o' => exact ih o' (h.step (hx x List.mem_cons_self) ho) (fun y hy => hx y (List.mem_cons_of_mem _ hy))
  have hends : ∀ (ys : List Stmt) (o : Objs), Sorted T o → Sorted T (o.ends ys).1 := by
    intro ys
    induction ys with
    | nil => intro o h; exact h
    | cons x xs ih =>
      intro o h
      simp only [Objs.ends]
      refine ih _ ?_
      cases ho : o.end1 x with
      | none => exact h
      | some o' =>
        have drp : ∀ n v, o.drop n v = some o' → Sorted T o' := fun n v e => h.step (x := if v then .dropView n true else .dropTable n true)
          (by cases v <;> trivial) (by cases v <;> exact e)
        cases x with
        | createTable s m a =>
          simp only [Objs.end1] at ho
          split at ho
          · exact drp _ _ ho
          · cases ho; exact h
        | createView s m =>
          simp only [Objs.end1] at ho
          split at ho
          · exact drp _ _ ho
          · cases ho; exact h
        | createFunction s =>
          simp only [Objs.end1] at ho
          split at ho
          · exact h.step (x := .dropFunction s.key) trivial ho
          · cases ho; exact h
        | _ => cases ho; exact h
  exact hends _ _ (hbody xs o h hx)

/-! ### Histories of calls -/

/-- A call of `db.Exec`: the time the process last synchronised, the time now, the script. -/
structure Call where
  synced : Nat
  now : Nat
  script : List Stmt

/-- driver.go:167-175: a call first synchronises the catalog, then runs its script with a new change record and the functions of
the catalog (analyzer.go:195-198). -/
def St.begin (st : St) (c : Call) : St :=
  let mem := (Catalog.sync ⟨st.mem, c.synced⟩ st.rows c.now).1.mem
  { st with mem := mem, now := c.now, evs := [], fm := queryFuncMap mem [] }

/-- The state after a history of calls, and which of them succeeded. -/
def St.calls : St → List Call → St × List Bool
  | st, [] => (st, [])
  | st, c :: cs => (((exec c.script (st.begin c)).1.calls cs).1, (exec c.script (st.begin c)).2.isEmpty :: ((exec c.script (st.begin c)).1.calls cs).2)

def Objs.calls : Objs → List Call → Objs × List Bool
  | o, [] => (o, [])
  | o, c :: cs => (((o.call c.script).1.calls cs).1, (o.call c.script).2 :: ((o.call c.script).1.calls cs).2)

theorem Is.begin {st : St} {o : Objs} (h : Is st o) (c : Call) : Is (st.begin c) o := by
  obtain ⟨f, d, hall⟩ := h.all
  have h0 : All ⟨⟨st.mem, c.synced⟩, st.rows, c.now⟩ o.lives f d := all_congr hall rfl rfl
  have hs := h0.step 0 .sync trivial
  exact ⟨h.phys, h.known, ⟨_, _, all_congr hs.1 rfl rfl⟩⟩

theorem calls_is (T : Name → Bool) : ∀ (cs : List Call) (st : St) (o : Objs), Is st o → Sorted T o → (∀ c ∈ cs, ∀ x ∈ c.script, SortedStmt T x) →
    Is (st.calls cs).1 (o.calls cs).1 ∧ Sorted T (o.calls cs).1 ∧ (st.calls cs).2 = (o.calls cs).2
  | [], st, o, h, hT, _ => ⟨h, hT, rfl⟩
  | c :: cs, st, o, h, hT, hx => by
    have h1 := call_is T c.script (st.begin c) o (h.begin c) hT (hx c List.mem_cons_self)
    have ih := calls_is T cs _ _ h1.1 (hT.call c.script (hx c List.mem_cons_self)) (fun c' hc => hx c' (List.mem_cons_of_mem _ hc))
    simp only [St.calls, Objs.calls]
    refine ⟨ih.1, ih.2.1, ?_⟩
    rw [ih.2.2]
    congr 1
    rw [Bool.eq_iff_iff, ← h1.2, List.isEmpty_iff]

theorem sorted_none (T : Name → Bool) : Sorted T Objs.none := fun _ => ⟨fun _ => rfl, fun _ => rfl⟩

/-- A new process that opens the file. -/
def St.opened (st : St) (now : Nat) : Proc × Bool := Catalog.sync Proc.fresh st.rows now

theorem Is.opened {st : St} {o : Objs} (h : Is st o) (now : Nat) :
    (st.opened now).2 = true ∧ (∀ n, (st.opened now).1.mem.tableMap n = stored (o.lives.tables n)) ∧
    (∀ n, queryFuncMap (st.opened now).1.mem [] n = stored (o.lives.functions n)) := by
  obtain ⟨f, d, h⟩ := h.all
  have hall : (st.rows.filter fun r => Proc.fresh.lastSyncedAt ≤ r.updatedAt) = st.rows := by
    rw [List.filter_eq_self]; intro r _; simp [Proc.fresh]
  have e1 : rowTables st.rows = d.tables := h.stores.tables
  have e2 : rowFns st.rows = d.functions := h.stores.functions
  have hl := loadRows_new [] st.rows h.stores.fits (by simpa [e1] using h.skt) (by simpa [e2] using h.skf)
  simp only [List.nil_append, e1, e2] at hl
  have hm : Proc.fresh.mem = canon (rowTables []) (rowFns []) := canon_empty
  have hr : st.opened now = ({ mem := canon d.tables d.functions, lastSyncedAt := now }, true) := by
    simp only [St.opened, Catalog.sync, hall, hm, hl]
  rw [hr]
  exact ⟨rfl, h.stT, fun n => by rw [queryFuncMap_canon _ _ h.skf, h.stF]⟩

/-- C81, exactly, for every history of calls in which tables and functions have different names: creates of existing names in any mode,
temporary objects over permanent ones, drops of temporary objects, failing statements.  After it SQLite has the objects of the
meaning of the calls; a table is in the catalog iff SQLite has it, with one of the definitions given since it was last dropped;
queries use the oldest definition of a function; a process that opens the file sees the latest permanent definitions; and every call
succeeded or failed as the meaning says. -/
theorem C81_exact_partial (T : Name → Bool) (cs : List Call) (hT : ∀ c ∈ cs, ∀ x ∈ c.script, SortedStmt T x) (now : Nat) :
    let r := St.init.calls cs
    let o := Objs.none.calls cs
    r.2 = o.2 ∧
    (∀ n, r.1.phys n = o.1.kind n) ∧
    (∀ n, (r.1.mem.tableMap n).isSome = (r.1.phys n).isSome) ∧
    (∀ n s, r.1.mem.tableMap n = some s → s ∈ o.1.lives.tables n) ∧
    (∀ n, queryFuncMap r.1.mem [] n = (o.1.lives.functions n).head?) ∧
    (r.1.opened now).2 = true ∧
    (∀ n, (r.1.opened now).1.mem.tableMap n = stored (o.1.lives.tables n)) ∧
    (∀ n, queryFuncMap (r.1.opened now).1.mem [] n = stored (o.1.lives.functions n)) := by
  intro r o
  obtain ⟨h, _, h2⟩ := calls_is T cs St.init Objs.none Is.init (sorted_none T) hT
  have hop := Is.opened h now
  obtain ⟨f, d, hall⟩ := h.all
  refine ⟨h2, h.phys, ?_, fun n s e => (hall.shape.tKey n s e).2, ?_, hop.1, hop.2.1, hop.2.2⟩
  · intro n
    have h3 : (r.1.mem.tableMap n).isSome = (lookup f.tables n).isSome := hall.shape.tSome n
    rw [h3, hall.firstT, head_isSome, h.phys, Bool.eq_iff_iff, h.known]
    simp only [bne_iff_ne, ne_eq]
  · intro n
    have h3 := queryFuncMap_shape hall.shape hall.kf n
    rw [hall.firstF] at h3
    exact h3

/-! ### What follows for a user -/

/-- The name a statement creates or drops as a table or view. -/
def Stmt.tableName : Stmt → Option Name
  | .createTable s _ _ => some s.key
  | .createView s _ => some s.key
  | .dropTable n _ => some n
  | .dropView n _ => some n
  | _ => none

/-- … and as a function. -/
def Stmt.fnName : Stmt → Option Name
  | .createFunction s => some s.key
  | .dropFunction n => some n
  | _ => none

/-- DROP of a table or view, or CREATE TEMP. -/
def Stmt.removes : Stmt → Option Name
  | .createTable s _ _ => if s.isTemp then some s.key else none
  | .createView s _ => if s.isTemp then some s.key else none
  | .dropTable n _ => some n
  | .dropView n _ => some n
  | _ => none

theorem create_other {o o' : Objs} {s v m a} (h : o.create s v m a = some o') :
    (∀ n, n ≠ s.key → o'.kind n = o.kind n ∧ o'.lives.tables n = o.lives.tables n) ∧ o'.lives.functions = o.lives.functions ∧
    (∀ n k, o.kind n = some k → o'.kind n = some k) := by
  unfold Objs.create at h
  split at h
  · rename_i hk
    cases h
    refine ⟨fun n hn => by simp [born, hn], rfl, fun n k e => ?_⟩
    simp only
    split
    · rename_i en; rw [en, hk] at e; cases e
    · exact e
  · split at h
    · cases h
      exact ⟨fun n hn => by simp [born, hn], rfl, fun n k e => e⟩
    · cases h

theorem drop_other {o o' : Objs} {m v} (h : o.drop m v = some o') :
    (∀ n, n ≠ m → o'.kind n = o.kind n ∧ o'.lives.tables n = o.lives.tables n) ∧ o'.lives.functions = o.lives.functions ∧
    o'.kind m = none ∧ (∀ n, o.kind n = none → o'.kind n = none) := by
  unfold Objs.drop at h
  split at h
  · cases h
    exact ⟨fun n hn => by simp [died, hn], rfl, by simp, fun n e => by simp [e]⟩
  · cases h

theorem dropFunction_other {o o' : Objs} {m} (h : o.dropFunction m = some o') :
    o'.kind = o.kind ∧ o'.lives.tables = o.lives.tables ∧ (∀ n, n ≠ m → o'.lives.functions n = o.lives.functions n) ∧
    o'.lives.functions m = [] ∧ (∀ n, o.lives.functions n = [] → o'.lives.functions n = []) := by
  unfold Objs.dropFunction at h
  split at h
  · cases h
  · cases h
    exact ⟨rfl, rfl, fun n hn => by simp [died, hn], by simp [died], fun n e => by simp [died, e]⟩

/-- A relation on the objects that holds across all statements of a script and across the ends of calls holds across the call. -/
theorem call_rel (R : Objs → Objs → Prop) (refl : ∀ o, R o o) (trans : ∀ a b c, R a b → R b c → R a c) (xs : List Stmt)
    (hstep : ∀ x ∈ xs, ∀ o o', o.step x = some o' → R o o') (hend : ∀ x ∈ xs, ∀ o o', o.end1 x = some o' → R o o') (o : Objs) :
    R o (o.call xs).1 := by
  have hbody : ∀ (ys : List Stmt) (o : Objs), (∀ x ∈ ys, x ∈ xs) → R o (o.body ys).1 ∧ ∀ x ∈ (o.body ys).2.1, x ∈ xs := by
    intro ys
    induction ys with
    | nil => intro o _; exact ⟨refl o, by simp [Objs.body]⟩
    | cons y ys ih =>
      intro o hy
      simp only [Objs.body]
      cases ho : o.step y with
      | none => exact ⟨refl o, fun x hx => by simp at hx; exact hx ▸ hy y List.mem_cons_self⟩
      | some o' =>
        have := ih o' (fun x hx => hy x (List.mem_cons_of_mem _ hx))
        refine ⟨trans _ _ _ (hstep y (hy y List.mem_cons_self) o o' ho) this.1, fun x hx => ?_⟩
        rcases List.mem_cons.1 hx with rfl | hx
        · exact hy x List.mem_cons_self
        · exact this.2 x hx
  have hends : ∀ (ys : List Stmt) (o : Objs), (∀ x ∈ ys, x ∈ xs) → R o (o.ends ys).1 := by
    intro ys
    induction ys with
    | nil => intro o _; exact refl o
    | cons y ys ih =>
      intro o hy
      simp only [Objs.ends]
      refine trans _ ((o.end1 y).getD o) _ ?_ (ih _ (fun x hx => hy x (List.mem_cons_of_mem _ hx)))
      cases ho : o.end1 y with
      | none => exact refl o
      | some o' => exact hend y (hy y List.mem_cons_self) o o' ho
  have hb := hbody xs o (fun _ h => h)
  exact trans _ _ _ hb.1 (hends _ _ hb.2)

theorem frame_tables (xs : List Stmt) (n : Name) (hn : ∀ x ∈ xs, x.tableName ≠ some n) (o : Objs) :
    (o.call xs).1.kind n = o.kind n ∧ (o.call xs).1.lives.tables n = o.lives.tables n := by
  refine call_rel (fun a b => b.kind n = a.kind n ∧ b.lives.tables n = a.lives.tables n) (fun _ => ⟨rfl, rfl⟩)
    (fun a b c h1 h2 => ⟨h2.1.trans h1.1, h2.2.trans h1.2⟩) xs ?_ ?_ o
  · intro x hx o o' h
    have hne := hn x hx
    cases x with
    | createTable s m a => exact (create_other h).1 n (fun e => hne (by rw [e]; rfl))
    | createView s m => exact (create_other h).1 n (fun e => hne (by rw [e]; rfl))
    | createFunction s => cases h; exact ⟨rfl, rfl⟩
    | dropTable m ie => exact (drop_other h).1 n (fun e => hne (by rw [e]; rfl))
    | dropView m ie => exact (drop_other h).1 n (fun e => hne (by rw [e]; rfl))
    | dropFunction m => have := dropFunction_other h; exact ⟨by rw [this.1], by rw [this.2.1]⟩
    | other ok => cases ok <;> cases h; exact ⟨rfl, rfl⟩
    | rejected => cases h
  · intro x hx o o' h
    have hne := hn x hx
    cases x with
    | createTable s m a =>
      simp only [Objs.end1] at h
      split at h
      · exact (drop_other h).1 n (fun e => hne (by rw [e]; rfl))
      · cases h; exact ⟨rfl, rfl⟩
    | createView s m =>
      simp only [Objs.end1] at h
      split at h
      · exact (drop_other h).1 n (fun e => hne (by rw [e]; rfl))
      · cases h; exact ⟨rfl, rfl⟩
    | createFunction s =>
      simp only [Objs.end1] at h
      split at h
      · have := dropFunction_other h; exact ⟨by rw [this.1], by rw [this.2.1]⟩
      · cases h; exact ⟨rfl, rfl⟩
    | _ => cases h; exact ⟨rfl, rfl⟩

theorem frame_functions (xs : List Stmt) (n : Name) (hn : ∀ x ∈ xs, x.fnName ≠ some n) (o : Objs) :
    (o.call xs).1.lives.functions n = o.lives.functions n := by
  refine call_rel (fun a b => b.lives.functions n = a.lives.functions n) (fun _ => rfl)
    (fun a b c h1 h2 => h2.trans h1) xs ?_ ?_ o
  · intro x hx o o' h
    have hne := hn x hx
    cases x with
    | createTable s m a => rw [(create_other h).2.1]
    | createView s m => rw [(create_other h).2.1]
    | createFunction s =>
      cases h
      have : n ≠ s.key := fun e => hne (by rw [e]; rfl)
      simp [born, this]
    | dropTable m ie => rw [(drop_other h).2.1]
    | dropView m ie => rw [(drop_other h).2.1]
    | dropFunction m => exact (dropFunction_other h).2.2.1 n (fun e => hne (by rw [e]; rfl))
    | other ok => cases ok <;> cases h; rfl
    | rejected => cases h
  · intro x hx o o' h
    have hne := hn x hx
    cases x with
    | createTable s m a =>
      simp only [Objs.end1] at h
      split at h
      · rw [(drop_other h).2.1]
      · cases h; rfl
    | createView s m =>
      simp only [Objs.end1] at h
      split at h
      · rw [(drop_other h).2.1]
      · cases h; rfl
    | createFunction s =>
      simp only [Objs.end1] at h
      split at h
      · exact (dropFunction_other h).2.2.1 n (fun e => hne (by rw [e]; rfl))
      · cases h; rfl
    | _ => cases h; rfl

theorem kept_kind (xs : List Stmt) (n : Name) (hn : ∀ x ∈ xs, x.removes ≠ some n) (o : Objs) (k : Bool) (hk : o.kind n = some k) :
    (o.call xs).1.kind n = some k := by
  refine call_rel (fun a b => a.kind n = some k → b.kind n = some k) (fun _ h => h) (fun a b c h1 h2 h => h2 (h1 h)) xs ?_ ?_ o hk
  · intro x hx o o' h hk
    have hne := hn x hx
    cases x with
    | createTable s m a => exact (create_other h).2.2 n k hk
    | createView s m => exact (create_other h).2.2 n k hk
    | createFunction s => cases h; exact hk
    | dropTable m ie => rw [((drop_other h).1 n (fun e => hne (by rw [e]; rfl))).1]; exact hk
    | dropView m ie => rw [((drop_other h).1 n (fun e => hne (by rw [e]; rfl))).1]; exact hk
    | dropFunction m => rw [(dropFunction_other h).1]; exact hk
    | other ok => cases ok <;> cases h; exact hk
    | rejected => cases h
  · intro x hx o o' h hk
    have hne := hn x hx
    cases x with
    | createTable s m a =>
      simp only [Objs.end1] at h
      split at h
      · rename_i ht
        rw [((drop_other h).1 n (fun e => hne (by simp [Stmt.removes, ht, e]))).1]; exact hk
      · cases h; exact hk
    | createView s m =>
      simp only [Objs.end1] at h
      split at h
      · rename_i ht
        rw [((drop_other h).1 n (fun e => hne (by simp [Stmt.removes, ht, e]))).1]; exact hk
      · cases h; exact hk
    | createFunction s =>
      simp only [Objs.end1] at h
      split at h
      · rw [(dropFunction_other h).1]; exact hk
      · cases h; exact hk
    | _ => cases h; exact hk

/-- The end of a call only removes. -/
theorem end1_gone {o o' : Objs} {x : Stmt} (h : o.end1 x = some o') :
    (∀ n, o.kind n = none → o'.kind n = none) ∧ (∀ n, o.lives.functions n = [] → o'.lives.functions n = []) ∧
    (∀ n, x.tempTable.map Catalog.Spec.key = some n → o'.kind n = none) ∧ (∀ n, x.tempFn.map Catalog.Spec.key = some n → o'.lives.functions n = []) := by
  have tab : ∀ (s : Catalog.Spec) (v : Bool), x.tempTable = (some s).filter (fun s => s.isTemp) → x.tempFn = none → (if s.isTemp then o.drop s.key v else some o) = some o' →
      (∀ n, o.kind n = none → o'.kind n = none) ∧ (∀ n, o.lives.functions n = [] → o'.lives.functions n = []) ∧
      (∀ n, x.tempTable.map Catalog.Spec.key = some n → o'.kind n = none) ∧ (∀ n, x.tempFn.map Catalog.Spec.key = some n → o'.lives.functions n = []) := by
    intro s v h1 h2 he
    cases ht : s.isTemp with
    | true =>
      rw [ht, if_pos rfl] at he
      have hd := drop_other he
      rw [h1, h2]
      refine ⟨hd.2.2.2, fun n e => by rw [hd.2.1]; exact e, fun n e => ?_, fun n e => by simp at e⟩
      simp [Option.filter, ht] at e
      rw [← e]; exact hd.2.2.1
    | false =>
      rw [ht] at he
      cases he
      rw [h1, h2]
      exact ⟨fun _ e => e, fun _ e => e, fun n e => by simp [Option.filter, ht] at e, fun n e => by simp at e⟩
  have nop : x.tempTable = none → x.tempFn = none → o = o' →
      (∀ n, o.kind n = none → o'.kind n = none) ∧ (∀ n, o.lives.functions n = [] → o'.lives.functions n = []) ∧
      (∀ n, x.tempTable.map Catalog.Spec.key = some n → o'.kind n = none) ∧ (∀ n, x.tempFn.map Catalog.Spec.key = some n → o'.lives.functions n = []) := by
    intro h1 h2 e
    subst e
    rw [h1, h2]
    exact ⟨fun _ e => e, fun _ e => e, fun n e => by simp at e, fun n e => by simp at e⟩
  cases x with
  | createTable s m a => exact tab s false rfl rfl h
  | createView s m => exact tab s true rfl rfl h
  | createFunction s =>
    cases ht : s.isTemp with
    | true =>
      simp only [Objs.end1, ht, if_true] at h
      have hd := dropFunction_other h
      refine ⟨fun n e => by rw [hd.1]; exact e, hd.2.2.2.2, fun n e => by simp [Stmt.tempTable, Stmt.table] at e, fun n e => ?_⟩
      simp [Stmt.tempFn, Stmt.fn, Option.filter, ht] at e
      rw [← e]; exact hd.2.2.2.1
    | false =>
      simp only [Objs.end1, ht] at h
      cases h
      exact nop rfl (by simp [Stmt.tempFn, Stmt.fn, Option.filter, ht]) rfl
  | dropTable n ie => cases h; exact nop rfl rfl rfl
  | dropView n ie => cases h; exact nop rfl rfl rfl
  | dropFunction n => cases h; exact nop rfl rfl rfl
  | other ok => cases h; exact nop rfl rfl rfl
  | rejected => cases h; exact nop rfl rfl rfl

theorem body_all : ∀ (xs : List Stmt) (o : Objs), (o.body xs).2.2 = true → (o.body xs).2.1 = xs
  | [], _, _ => rfl
  | x :: xs, o, h => by
    simp only [Objs.body] at h ⊢
    cases ho : o.step x with
    | none => rw [ho] at h; simp at h
    | some o' =>
      rw [ho] at h
      simp only at h ⊢
      rw [body_all xs o' h]

theorem ends_gone : ∀ (ys : List Stmt) (o : Objs), (o.ends ys).2 = true →
    (∀ n, o.kind n = none → (o.ends ys).1.kind n = none) ∧ (∀ n, o.lives.functions n = [] → (o.ends ys).1.lives.functions n = []) ∧
    (∀ x ∈ ys, (∀ n, x.tempTable.map Catalog.Spec.key = some n → (o.ends ys).1.kind n = none) ∧
      (∀ n, x.tempFn.map Catalog.Spec.key = some n → (o.ends ys).1.lives.functions n = []))
  | [], o, _ => ⟨fun _ e => e, fun _ e => e, by simp⟩
  | x :: xs, o, h => by
    simp only [Objs.ends] at h ⊢
    cases ho : o.end1 x with
    | none => rw [ho] at h; simp at h
    | some o' =>
      rw [ho] at h
      simp only [Option.isSome_some, Option.getD_some, Bool.true_and] at h ⊢
      have ih := ends_gone xs o' h
      have h1 := end1_gone ho
      refine ⟨fun n e => ih.1 n (h1.1 n e), fun n e => ih.2.1 n (h1.2.1 n e), fun y hy => ?_⟩
      rcases List.mem_cons.1 hy with rfl | hy
      · exact ⟨fun n e => ih.1 n (h1.2.2.1 n e), fun n e => ih.2.1 n (h1.2.2.2 n e)⟩
      · exact ih.2.2 y hy

/-- C81: a call does not touch the objects its script does not name: SQLite's object, whether the catalog knows the table, the function queries
use, and what a new process finds in the file are the same before and after it, whether the call succeeds or fails. -/
theorem C81_frame_partial (T : Name → Bool) (cs : List Call) (hT : ∀ c ∈ cs, ∀ x ∈ c.script, SortedStmt T x)
    (c : Call) (hc : ∀ x ∈ c.script, SortedStmt T x) (now : Nat) :
    let st := (St.init.calls cs).1
    let st' := (exec c.script (st.begin c)).1
    (∀ n, (∀ x ∈ c.script, x.tableName ≠ some n) →
      st'.phys n = st.phys n ∧ (st'.mem.tableMap n).isSome = (st.mem.tableMap n).isSome ∧
      (st'.opened now).1.mem.tableMap n = (st.opened now).1.mem.tableMap n) ∧
    (∀ n, (∀ x ∈ c.script, x.fnName ≠ some n) →
      queryFuncMap st'.mem [] n = queryFuncMap st.mem [] n ∧
      queryFuncMap (st'.opened now).1.mem [] n = queryFuncMap (st.opened now).1.mem [] n) := by
  intro st st'
  have h1 := C81_exact_partial T cs hT now
  have hT2 : ∀ c' ∈ cs ++ [c], ∀ x ∈ c'.script, SortedStmt T x := by
    intro c' h
    rcases List.mem_append.1 h with h | h
    · exact hT c' h
    · rw [List.mem_singleton.1 h]; exact hc
  have h2 := C81_exact_partial T (cs ++ [c]) hT2 now
  have e1 : ∀ (cs : List Call) (s : St), (s.calls (cs ++ [c])).1 = (exec c.script ((s.calls cs).1.begin c)).1 := by
    intro cs
    induction cs with
    | nil => intro s; rfl
    | cons a as ih => intro s; exact ih _
  have e2 : ∀ (cs : List Call) (o : Objs), (o.calls (cs ++ [c])).1 = ((o.calls cs).1.call c.script).1 := by
    intro cs
    induction cs with
    | nil => intro s; rfl
    | cons a as ih => intro s; exact ih _
  simp only [e1, e2] at h2
  simp only at h1
  obtain ⟨_, p1, k1, _, q1, _, t1, f1⟩ := h1
  obtain ⟨_, p2, k2, _, q2, _, t2, f2⟩ := h2
  refine ⟨fun n hn => ?_, fun n hn => ?_⟩
  · have hf := frame_tables c.script n hn (Objs.none.calls cs).1
    have hp : st'.phys n = st.phys n := (p2 n).trans (hf.1.trans (p1 n).symm)
    refine ⟨hp, ?_, ?_⟩
    · rw [show (st'.mem.tableMap n).isSome = (st'.phys n).isSome from k2 n, show (st.mem.tableMap n).isSome = (st.phys n).isSome from k1 n, hp]
    · exact (t2 n).trans ((congrArg stored hf.2).trans (t1 n).symm)
  · have hf := frame_functions c.script n hn (Objs.none.calls cs).1
    exact ⟨(q2 n).trans ((congrArg List.head? hf).trans (q1 n).symm), (f2 n).trans ((congrArg stored hf).trans (f1 n).symm)⟩

/-- C81: a table or view that no DROP and no CREATE TEMP of the script names exists after the call if it existed before, in SQLite and in the
catalog, whether the call succeeds or fails. -/
theorem C81_kept_partial (T : Name → Bool) (cs : List Call) (hT : ∀ c ∈ cs, ∀ x ∈ c.script, SortedStmt T x)
    (c : Call) (hc : ∀ x ∈ c.script, SortedStmt T x) (n : Name) (hn : ∀ x ∈ c.script, x.removes ≠ some n) (k : Bool) :
    let st := (St.init.calls cs).1
    let st' := (exec c.script (st.begin c)).1
    st.phys n = some k → st'.phys n = some k ∧ (st'.mem.tableMap n).isSome = true := by
  intro st st' hk
  obtain ⟨h, hs, _⟩ := calls_is T cs St.init Objs.none Is.init (sorted_none T) hT
  have h2 := call_is T c.script _ _ (h.begin c) hs hc
  have hk2 := kept_kind c.script n hn _ k ((h.phys n).symm.trans hk)
  refine ⟨(h2.1.phys n).trans hk2, ?_⟩
  obtain ⟨f, d, hall⟩ := h2.1.all
  have h3 : (st'.mem.tableMap n).isSome = (lookup f.tables n).isSome := hall.shape.tSome n
  rw [h3, hall.firstT, head_isSome, bne_iff_ne]
  exact (h2.1.known n).1 (by rw [hk2]; rfl)

/-- C81: after a call that returns no error, nothing has the name of a temporary table or view of the script, in SQLite, in the catalog and in the
file; and no query finds a function with the name of a temporary function of the script. -/
theorem C81_temporary_gone_partial (T : Name → Bool) (cs : List Call) (hT : ∀ c ∈ cs, ∀ x ∈ c.script, SortedStmt T x)
    (c : Call) (hc : ∀ x ∈ c.script, SortedStmt T x) (now : Nat) :
    let st' := exec c.script ((St.init.calls cs).1.begin c)
    st'.2 = [] → ∀ x ∈ c.script,
      (∀ s, x.tempTable = some s → st'.1.phys s.key = none ∧ st'.1.mem.tableMap s.key = none ∧ (st'.1.opened now).1.mem.tableMap s.key = none) ∧
      (∀ s, x.tempFn = some s → queryFuncMap st'.1.mem [] s.key = none ∧ queryFuncMap (st'.1.opened now).1.mem [] s.key = none) := by
  intro st' hok x hx
  obtain ⟨h, hs, _⟩ := calls_is T cs St.init Objs.none Is.init (sorted_none T) hT
  have h2 := call_is T c.script _ _ (h.begin c) hs hc
  have hb : ((Objs.none.calls cs).1.call c.script).2 = true := h2.2.1 hok
  have hop := h2.1.opened now
  simp only [Objs.call, Bool.and_eq_true] at hb
  have hg := ends_gone _ _ hb.2
  rw [body_all _ _ hb.1] at hg
  have hgx := hg.2.2 x hx
  obtain ⟨f, d, hall⟩ := h2.1.all
  have hcall : ((Objs.none.calls cs).1.call c.script).1 = (((Objs.none.calls cs).1.body c.script).1.ends c.script).1 := by
    simp only [Objs.call, body_all _ _ hb.1]
  rw [← hcall] at hgx
  refine ⟨fun s e => ?_, fun s e => ?_⟩
  · have hk := hgx.1 s.key (by rw [e]; rfl)
    have hnil : ((Objs.none.calls cs).1.call c.script).1.lives.tables s.key = [] := by
      have := h2.1.known s.key
      rw [hk] at this
      simpa using this
    refine ⟨(h2.1.phys _).trans hk, ?_, ?_⟩
    · have h3 : (st'.1.mem.tableMap s.key).isSome = (lookup f.tables s.key).isSome := hall.shape.tSome s.key
      rw [hall.firstT, hnil] at h3
      simpa using h3
    · exact (hop.2.1 s.key).trans (by rw [hnil]; rfl)
  · have hk := hgx.2 s.key (by rw [e]; rfl)
    refine ⟨?_, ?_⟩
    · have h3 := queryFuncMap_shape hall.shape hall.kf s.key
      rw [hall.firstF, hk] at h3
      exact h3
    · exact (hop.2.2 s.key).trans (by rw [hk]; rfl)

/-- Calls that replace a table, define it again, put a temporary table over it and fail half-way. -/
def exCalls : List Call :=
  [⟨0, 1, [.createTable (tSpec false 1) .default false, .createFunction (fSpec false 1)]⟩,
   ⟨1, 2, [.createTable (tSpec false 2) .orReplace false, .createFunction (fSpec true 2), .createTable (tSpec false 3) .ifNotExists false]⟩,
   ⟨2, 3, [.createView { path := [['v']], isTemp := false, isView := true, body := 4 } .default, .dropTable ['u'] true, .dropTable ['t'] false]⟩]

def exT : Name → Bool := fun n => n ≠ ['f']

/-- They meet the hypothesis of the theorems; the first two succeed, the third fails; afterwards the table, the view and no function exist: the
temporary function of the second call took the permanent one with it. -/
example : (∀ c ∈ exCalls, ∀ x ∈ c.script, SortedStmt exT x) ∧
    (St.init.calls exCalls).2 = [true, true, false] ∧
    (St.init.calls exCalls).1.phys ['t'] = some false ∧ (St.init.calls exCalls).1.phys ['v'] = some true ∧
    ((St.init.calls exCalls).1.opened 9).1.mem.tableMap ['t'] = some (tSpec false 3) ∧
    queryFuncMap (St.init.calls exCalls).1.mem [] ['f'] = none := by
  refine ⟨?_, by decide, by decide, by decide, by decide, by decide⟩
  simp [exCalls, SortedStmt, exT, tSpec, fSpec, Catalog.Spec.key, NamePath.formatPath]

/-- CREATE TEMP TABLE IF NOT EXISTS over a permanent table succeeds, and at the end of the call the permanent table is dropped, from SQLite, the
catalog and the file. -/
theorem C81_temp_destroys_permanent :
    let st := (exec [.createTable (tSpec false 1) .default false] St.init).1
    let r := exec [.createTable (tSpec true 2) .ifNotExists false] st
    st.phys ['t'] = some false ∧ r.2 = [] ∧ r.1.phys ['t'] = none ∧ r.1.mem.tableMap ['t'] = none ∧ r.1.rows = [] := by decide

end Verif.Engine
