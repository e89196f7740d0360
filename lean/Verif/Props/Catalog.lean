import Verif.Lemmas.CatalogHistory

/-!
# The catalog (C07–C11, C15)

Histories are lists of catalog statements of one process with arbitrary time between
them, including the `Sync` at the start of every call.
-/

namespace Verif.Catalog
open Spec NamePath

/-- Witness paths for the counterexamples. -/
def wt (b : Nat) : Spec := { path := [['t']], isTemp := false, isView := false, body := b }
def wu : Spec := { path := [['u']], isTemp := false, isView := false, body := 0 }

/-! ## C07 -/

/-- Every create has a non-empty path. -/
def Named (ops : List (Nat × Op)) : Prop := ∀ o ∈ ops, match o.2 with
  | .createTable s | .createFunction s => s.path ≠ []
  | _ => True

/-- C07 at full strength: every lookup gives the latest definition. -/
def C07_full : Prop := ∀ ops, Named ops →
  let m := (World.init.run ops).proc.mem
  let d := Dict.empty.run ops
  ∀ n, m.tableMap n = lookup d.tables n ∧ queryFuncMap m [] n = lookup d.functions n

/-- The code violates C07: after `CREATE OR REPLACE FUNCTION` queries keep using the old body. -/
theorem C07_full_false : ¬ C07_full := by
  intro h
  have := (h [(1, .createFunction (wt 1)), (1, .createFunction (wt 2))]
    (by intro o ho; simp at ho; rcases ho with rfl | rfl <;> simp [wt]) ['t']).2
  revert this; decide

/-- A second violation: even with every name created once, the analyzer can resolve a full
path to another table, because `[a, a, b]` is also registered under `[a, b]`. -/
theorem C07_shadowed_by_longer_path :
    let long : Spec := { path := [['a'], ['a'], ['b']], isTemp := false, isView := false, body := 1 }
    let short : Spec := { path := [['a'], ['b']], isTemp := false, isView := false, body := 2 }
    let m := (World.init.run [(1, .createTable long), (1, .createTable short)]).proc.mem
    m.tableTree.find [['a'], ['b']] = some long := by decide

/-- C07 for histories that never re-create an existing name (drop and create again is
allowed).  All lookups by stored name are those of the dictionary; a statement fails exactly
when it drops a missing name; and if all table paths have the same length, the analyzer
resolves a path of that length to the table of that path up to case. -/
theorem C07_latest_definition_partial (ops : List (Nat × Op)) (hf : FreshNames Dict.empty ops) :
    let w := World.init.run ops
    let d := Dict.empty.run ops
    (∀ n, w.proc.mem.tableMap n = lookup d.tables n) ∧
    (∀ n, queryFuncMap w.proc.mem [] n = lookup d.functions n) ∧
    (∀ dt n, (w.step dt (.dropTable n)).2 = (lookup d.tables n).isSome) ∧
    (∀ dt n, (w.step dt (.dropFunction n)).2 = (lookup d.functions n).isSome) ∧
    (∀ p, p ≠ [] → (∀ s ∈ d.tables, s.path.length = p.length) →
      w.proc.mem.tableTree.find p = d.tables.find? fun s => s.path.map lower = p.map lower) ∧
    (∀ p, p ≠ [] → (∀ s ∈ d.functions, s.path.length = p.length) →
      w.proc.mem.funcTree.find p = d.functions.find? fun s => s.path.map lower = p.map lower) := by
  intro w d
  have h : Inv w d := Inv.init.run ops hf
  refine ⟨?_, ?_, ?_, ?_, ?_, ?_⟩
  · intro n; rw [h.mem]; rfl
  · intro n; rw [h.mem]; exact queryFuncMap_canon _ _ h.kf n
  · intro dt n; exact (h.step dt (.dropTable n) trivial).2
  · intro dt n; exact (h.step dt (.dropFunction n) trivial).2
  · intro p hp hl; rw [h.mem]; exact tables_find d.tables p.length hl p rfl hp
  · intro p hp hl; rw [h.mem]; exact fns_find d.functions p.length hl p rfl hp

/-- The hypothesis is met by a history that creates, drops and re-creates. -/
example : FreshNames Dict.empty
    [(1, .createTable (wt 1)), (0, .sync), (3, .dropTable ['t']), (0, .createTable (wt 2)), (1, .createFunction wu)] := by
  simp [FreshNames, Dict.empty, Dict.step, wt, wu, define, remove, Spec.key, formatPath]

/-! ## C08 -/

/-- What a process sees under the stored name `n`. -/
def seenAt (m : Mem) (n : Name) : Option Spec × Option Spec := (m.tableMap n, queryFuncMap m [] n)

/-- C08 at full strength. -/
def C08_full : Prop := ∀ ops, Named ops → ∀ dt n n', n ≠ n' →
  let w := World.init.run ops
  seenAt (w.step dt (.dropTable n)).1.proc.mem n' = seenAt w.proc.mem n' ∧
  seenAt (w.step dt (.dropFunction n)).1.proc.mem n' = seenAt w.proc.mem n'

/-- The code violates C08: dropping `u` brings the replaced definition of `t` back. -/
theorem C08_full_false : ¬ C08_full := by
  intro h
  have := (h [(1, .createTable (wt 1)), (1, .createTable (wt 2)), (1, .createTable wu)]
    (by intro o ho; simp at ho; rcases ho with rfl | rfl | rfl <;> simp [wt, wu]) 1 ['u'] ['t'] (by decide)).1
  revert this; decide

theorem lookup_remove_ne {l : List Spec} {n n' : Name} (h : n ≠ n') : lookup (remove l n) n' = lookup l n' := by
  induction l with
  | nil => rfl
  | cons s ss ih =>
    simp only [remove, lookup, List.filter_cons, List.find?_cons] at ih ⊢
    by_cases hs : s.key = n
    · have : ¬ s.key = n' := fun e => h (hs.symm.trans e)
      simp only [hs, ne_eq, not_true, decide_false, Bool.false_eq_true, if_false]
      rw [ih]; simp [h]
    · simp only [ne_eq, hs, not_false_eq_true, decide_true, if_true, List.find?_cons]
      rw [ih]

theorem lookup_remove_self (l : List Spec) (n : Name) : lookup (remove l n) n = none := by
  rw [lookup_none]; intro t ht; simpa using (List.mem_filter.1 ht).2

/-- C08 for histories that never re-create an existing name: a drop changes no other name,
and removes its own.  Dropping a table also leaves the function of the same name alone, and
the reverse. -/
theorem C08_drop_frame_partial (ops : List (Nat × Op)) (hf : FreshNames Dict.empty ops) (dt : Nat) (n : Name) :
    let w := World.init.run ops
    let wt := (w.step dt (.dropTable n)).1
    let wf := (w.step dt (.dropFunction n)).1
    (∀ n', n ≠ n' → seenAt wt.proc.mem n' = seenAt w.proc.mem n') ∧
    (∀ n', n ≠ n' → seenAt wf.proc.mem n' = seenAt w.proc.mem n') ∧
    seenAt wt.proc.mem n = (none, (seenAt w.proc.mem n).2) ∧
    seenAt wf.proc.mem n = ((seenAt w.proc.mem n).1, none) := by
  intro w w1 w2
  have h : Inv w (Dict.empty.run ops) := Inv.init.run ops hf
  have h1 : Inv w1 _ := (h.step dt (.dropTable n) trivial).1
  have h2 : Inv w2 _ := (h.step dt (.dropFunction n) trivial).1
  have e : ∀ {w d}, Inv w d → ∀ n, seenAt w.proc.mem n = (lookup d.tables n, lookup d.functions n) := by
    intro w d h n
    simp only [seenAt, h.mem, queryFuncMap_canon _ _ h.kf]
    rfl
  simp only [e h, e h1, e h2, Dict.step]
  refine ⟨?_, ?_, ?_, ?_⟩
  · intro n' hn; rw [lookup_remove_ne hn]
  · intro n' hn; rw [lookup_remove_ne hn]
  · rw [lookup_remove_self]
  · rw [lookup_remove_self]

/-! ## C09 -/

/-- The process that opens the database file now. -/
def reopen (w : World) (dt : Nat) : Proc × Bool := Catalog.sync Proc.fresh w.rows (w.clock + dt)

/-- C09 at full strength. -/
def C09_full : Prop := ∀ ops, Named ops → Permanent ops → ∀ dt,
  let w := World.init.run ops
  (reopen w dt).2 = true ∧ SameView (reopen w dt).1.mem w.proc.mem

/-- The code violates C09: a function and a table of the same name share one row, whose kind
stays that of the first; reopening the database then fails. -/
theorem C09_reopen_fails : ¬ C09_full := by
  intro h
  have := (h [(1, .createTable (wt 1)), (1, .createFunction (wt 2))]
    (by intro o ho; simp at ho; rcases ho with rfl | rfl <;> simp [wt])
    (by intro o ho; simp at ho; rcases ho with rfl | rfl <;> simp [wt]) 1).1
  revert this; decide

/-- Also without such a clash: after a replaced function the running process uses the old body, the
reopened one the new body. -/
theorem C09_replaced_function_differs :
    let w := World.init.run [(1, .createFunction (wt 1)), (1, .createFunction (wt 2))]
    queryFuncMap (reopen w 1).1.mem [] ['t'] = some (wt 2) ∧ queryFuncMap w.proc.mem [] ['t'] = some (wt 1) := by
  decide

theorem filter_permanent {l : List Spec} (h : ∀ s ∈ l, s.isTemp = false) : l.filter (fun s => !s.isTemp) = l := by
  rw [List.filter_eq_self]; intro s hs; simp [h s hs]

theorem mem_define {l : List Spec} {s t : Spec} (h : t ∈ define l s) : t ∈ l ∨ t = s := by
  unfold define at h
  split at h
  · simp only [List.mem_map] at h
    obtain ⟨a, ha, rfl⟩ := h
    split
    · exact Or.inr rfl
    · exact Or.inl ha
  · simpa using h

theorem permanent_dict (ops : List (Nat × Op)) (hp : Permanent ops) (d : Dict)
    (hd : (∀ s ∈ d.tables, s.isTemp = false) ∧ (∀ s ∈ d.functions, s.isTemp = false)) :
    (∀ s ∈ (d.run ops).tables, s.isTemp = false) ∧ (∀ s ∈ (d.run ops).functions, s.isTemp = false) := by
  induction ops generalizing d with
  | nil => exact hd
  | cons o os ih =>
    refine ih (fun x hx => hp x (by simp [hx])) (d.step o.2) ?_
    have ho := hp o (by simp)
    obtain ⟨dt, op⟩ := o
    cases op with
    | createTable s =>
      refine ⟨fun t ht => ?_, hd.2⟩
      rcases mem_define ht with ht | rfl
      · exact hd.1 t ht
      · exact ho
    | createFunction s =>
      refine ⟨hd.1, fun t ht => ?_⟩
      rcases mem_define ht with ht | rfl
      · exact hd.2 t ht
      · exact ho
    | dropTable n => exact ⟨fun t ht => hd.1 t (List.mem_filter.1 ht).1, hd.2⟩
    | dropFunction n => exact ⟨hd.1, fun t ht => hd.2 t (List.mem_filter.1 ht).1⟩
    | sync => exact hd

/-- What a process that opens the file sees after any fresh history: exactly the permanent
objects. -/
theorem reopen_canon (ops : List (Nat × Op)) (hf : FreshNames Dict.empty ops) (dt : Nat) :
    let w := World.init.run ops
    let d := Dict.empty.run ops
    (reopen w dt).2 = true ∧
      (reopen w dt).1.mem = canon (d.tables.filter fun s => !s.isTemp) (d.functions.filter fun s => !s.isTemp) := by
  intro w d
  have h : Inv w d := Inv.init.run ops hf
  have ht : rowTables w.rows = d.tables.filter fun s => !s.isTemp := h.rows.tables
  have hfn : rowFns w.rows = d.functions.filter fun s => !s.isTemp := h.rows.functions
  have hl := loadRows_catchup [] w.rows (fun r => decide (Proc.fresh.lastSyncedAt ≤ r.updatedAt))
    (by simpa using h.rows.good) (by simpa [ht] using keys_filter h.kt _)
    (by simpa [hfn] using keys_filter h.kf _) (by intro r _; simp [Proc.fresh])
  simp only [List.nil_append, ht, hfn] at hl
  have hm : Proc.fresh.mem = canon (rowTables []) (rowFns []) := canon_empty
  simp only [reopen, Catalog.sync, hm, hl]
  exact ⟨trivial, trivial⟩

theorem SameView.of_eq {m m' : Mem} (h : m = m') : SameView m m' := by
  subst h; exact ⟨fun _ => rfl, fun _ => rfl, fun _ => rfl, fun _ => rfl⟩

/-- C09 for histories on permanent objects that never re-create an existing name: a process that
opens the file sees exactly what the running process sees. -/
theorem C09_reopen_partial (ops : List (Nat × Op)) (hf : FreshNames Dict.empty ops) (hp : Permanent ops) (dt : Nat) :
    let w := World.init.run ops
    (reopen w dt).2 = true ∧ SameView (reopen w dt).1.mem w.proc.mem := by
  intro w
  have h : Inv w (Dict.empty.run ops) := Inv.init.run ops hf
  have hr := reopen_canon ops hf dt
  have hd := permanent_dict ops hp Dict.empty (by simp [Dict.empty])
  simp only [filter_permanent hd.1, filter_permanent hd.2] at hr
  exact ⟨hr.1, SameView.of_eq (hr.2.trans h.mem.symm)⟩

example : let ops : List (Nat × Op) := [(1, .createTable (wt 1)), (2, .dropTable ['t']), (0, .createTable (wt 2)), (1, .createFunction wu)]
    FreshNames Dict.empty ops ∧ Permanent ops := by
  refine ⟨by simp [FreshNames, Dict.empty, Dict.step, wt, wu, define, remove, Spec.key, formatPath], ?_⟩
  intro o ho; simp at ho; rcases ho with rfl | rfl | rfl | rfl <;> simp [wt, wu]

/-! ## C10 -/

theorem upsert_mem {rows : List Row} {r x : Row} (h : x ∈ upsert rows r) : x.spec = r.spec ∨ x ∈ rows := by
  unfold upsert at h
  split at h
  · simp only [List.mem_map] at h
    obtain ⟨a, ha, rfl⟩ := h
    split
    · exact Or.inl rfl
    · exact Or.inr ha
  · rcases List.mem_append.1 h with h | h
    · exact Or.inr h
    · simp at h; exact Or.inl (by rw [h])

/-- C10: in every history whatsoever no row of the persistent catalog describes a temporary
object, and creating a temporary object leaves all rows as they are. -/
theorem C10_temp_not_persisted (ops : List (Nat × Op)) :
    let w := World.init.run ops
    (∀ r ∈ w.rows, r.spec.isTemp = false) ∧
    (∀ dt s, s.isTemp = true → (w.step dt (.createTable s)).1.rows = w.rows ∧
      (w.step dt (.createFunction s)).1.rows = w.rows) := by
  intro w
  refine ⟨?_, ?_⟩
  · suffices ∀ (ops : List (Nat × Op)) (w : World), (∀ r ∈ w.rows, r.spec.isTemp = false) →
        ∀ r ∈ (w.run ops).rows, r.spec.isTemp = false from this ops _ (by simp [World.init])
    intro ops
    induction ops with
    | nil => intro w h; exact h
    | cons o os ih =>
      intro w h
      refine ih _ ?_
      obtain ⟨dt, op⟩ := o
      cases op with
      | createTable s =>
        intro r hr
        simp only [World.step, addNewTableSpec] at hr
        split at hr
        · exact h r hr
        · cases ht : s.isTemp
          · simp only [ht, Bool.false_eq_true, if_false] at hr
            rcases upsert_mem hr with hr | hr
            · rw [hr]; exact ht
            · exact h r hr
          · simp only [ht, if_true] at hr; exact h r hr
      | createFunction s =>
        intro r hr
        simp only [World.step, addNewFunctionSpec] at hr
        split at hr
        · exact h r hr
        · cases ht : s.isTemp
          · simp only [ht, Bool.false_eq_true, if_false] at hr
            rcases upsert_mem hr with hr | hr
            · rw [hr]; exact ht
            · exact h r hr
          · simp only [ht, if_true] at hr; exact h r hr
      | dropTable n =>
        intro r hr
        simp only [World.step, deleteTableSpec] at hr
        split at hr
        · exact h r hr
        · exact h r (List.mem_filter.1 hr).1
      | dropFunction n =>
        intro r hr
        simp only [World.step, deleteFunctionSpec] at hr
        split at hr
        · exact h r hr
        · exact h r (List.mem_filter.1 hr).1
      | sync => exact h
  · intro dt s hs
    constructor
    · simp only [World.step, addNewTableSpec]; split <;> simp [hs]
    · simp only [World.step, addNewFunctionSpec]; split <;> simp [hs]

/-- A history with a temporary table that does store other rows. -/
example : (World.init.run [(1, .createTable (wt 1)), (1, .createTable { wu with isTemp := true })]).rows.length = 1 := by
  decide

/-! ## C11 -/

/-- The statements of the main process in a history of two processes. -/
def mains (ops : List (Nat × Op2)) : List (Nat × Op) := ops.filterMap fun o => match o.2 with
  | .main op => some (o.1, op)
  | .otherSync => none

/-- C11 at full strength: after a final Sync the other process sees what the main one sees. -/
def C11_full : Prop := ∀ ops, FreshNames Dict.empty (mains ops) → Permanent (mains ops) → ∀ dt,
  let w := World2.init.run ops
  SameView (w.step dt .otherSync).other.mem w.main.proc.mem

/-- The code violates C11: a dropped table stays visible in a process that has loaded it. -/
theorem C11_full_false : ¬ C11_full := by
  intro h
  have := (h [(1, .main (.createTable (wt 1))), (1, .otherSync), (1, .main (.dropTable ['t']))]
    (by simp [mains, FreshNames, Dict.empty, wt])
    (by intro o ho; simp [mains] at ho; rcases ho with rfl | rfl <;> simp [wt]) 1).table ['t']
  revert this; decide

/-- No statement drops anything. -/
def NoDrop (ops : List (Nat × Op)) : Prop := ∀ o ∈ ops, (∀ n, o.2 ≠ .dropTable n) ∧ (∀ n, o.2 ≠ .dropFunction n)

structure Inv2 (w : World2) (d : Dict) : Prop where
  inv : Inv w.main d
  last : w.other.lastSyncedAt ≤ w.main.clock
  loaded : ∃ pre post, w.main.rows = pre ++ post ∧ w.other.mem = canon (rowTables pre) (rowFns pre) ∧
    ∀ r ∈ post, w.other.lastSyncedAt ≤ r.updatedAt

theorem Inv2.sync {w : World2} {d : Dict} (h : Inv2 w d) (dt : Nat) :
    Inv2 (w.step dt .otherSync) d ∧
      (w.step dt .otherSync).other.mem = canon (d.tables.filter fun s => !s.isTemp) (d.functions.filter fun s => !s.isTemp) := by
  obtain ⟨pre, post, hr, hm, hpost⟩ := h.loaded
  have ht : rowTables (pre ++ post) = d.tables.filter fun s => !s.isTemp := hr ▸ h.inv.rows.tables
  have hfn : rowFns (pre ++ post) = d.functions.filter fun s => !s.isTemp := hr ▸ h.inv.rows.functions
  have hl := loadRows_catchup pre post (fun r => decide (w.other.lastSyncedAt ≤ r.updatedAt))
    (hr ▸ h.inv.rows.good) (ht ▸ keys_filter h.inv.kt _) (hfn ▸ keys_filter h.inv.kf _)
    (by intro r hr; simpa using hpost r hr)
  have hs : (Catalog.sync w.other w.main.rows (w.main.clock + dt)).1
      = { mem := canon (rowTables (pre ++ post)) (rowFns (pre ++ post)), lastSyncedAt := w.main.clock + dt } := by
    simp only [Catalog.sync, hr, hm, hl]
  refine ⟨⟨⟨h.inv.mem, h.inv.kt, h.inv.kf, h.inv.disj, h.inv.rows⟩, ?_, ⟨pre ++ post, [], ?_, ?_, by simp⟩⟩, ?_⟩
  · simp [World2.step, hs]
  · simp [World2.step, hr]
  · simp [World2.step, hs]
  · simp [World2.step, hs, ht, hfn]

theorem step_rows_append {w : World} {d : Dict} (h : Inv w d) (dt : Nat) (op : Op) (hop : FreshOp d op)
    (hnd : (∀ n, op ≠ .dropTable n) ∧ (∀ n, op ≠ .dropFunction n)) :
    (w.step dt op).1.clock = w.clock + dt ∧
    ∃ new, (w.step dt op).1.rows = w.rows ++ new ∧ ∀ r ∈ new, w.clock ≤ r.updatedAt := by
  cases op with
  | createTable s =>
    obtain ⟨hp, ht, hf⟩ := hop
    refine ⟨rfl, ?_⟩
    simp only [World.step, addNewTableSpec, h.mem, addTableSpec_new d.tables d.functions s hp ht]
    cases htmp : s.isTemp
    · refine ⟨[rowOf s false (w.clock + dt)], upsert_new (h.rows.name_absent ht hf), ?_⟩
      intro r hr; simp at hr; subst hr; simp [rowOf]
    · exact ⟨[], by simp, by simp⟩
  | createFunction s =>
    obtain ⟨hp, ht, hf⟩ := hop
    refine ⟨rfl, ?_⟩
    simp only [World.step, addNewFunctionSpec, h.mem, addFunctionSpec_new d.tables d.functions s hp hf]
    cases htmp : s.isTemp
    · refine ⟨[rowOf s true (w.clock + dt)], upsert_new (h.rows.name_absent ht hf), ?_⟩
      intro r hr; simp at hr; subst hr; simp [rowOf]
    · exact ⟨[], by simp, by simp⟩
  | dropTable n => exact absurd rfl (hnd.1 n)
  | dropFunction n => exact absurd rfl (hnd.2 n)
  | sync => exact ⟨rfl, [], by simp [World.step], by simp⟩

theorem Inv2.run {w : World2} {d : Dict} (h : Inv2 w d) (ops : List (Nat × Op2))
    (hf : FreshNames d (mains ops)) (hnd : NoDrop (mains ops)) : Inv2 (w.run ops) (d.run (mains ops)) := by
  induction ops generalizing w d with
  | nil => exact h
  | cons o os ih =>
    obtain ⟨dt, op⟩ := o
    cases op with
    | otherSync => exact ih (h.sync dt).1 hf hnd
    | main op =>
      have hm : mains ((dt, .main op) :: os) = (dt, op) :: mains os := by simp [mains]
      rw [hm] at hf hnd ⊢
      rw [freshNames_cons] at hf
      refine ih ?_ hf.2 (fun x hx => hnd x (by simp [hx]))
      obtain ⟨hc, new, hn, hu⟩ := step_rows_append h.inv dt op hf.1 (hnd (dt, op) (by simp))
      obtain ⟨pre, post, hr, hmem, hpost⟩ := h.loaded
      refine ⟨(h.inv.step dt op hf.1).1, ?_, ⟨pre, post ++ new, ?_, hmem, ?_⟩⟩
      · have := h.last
        simp only [World2.step, hc]; omega
      · simp only [World2.step, hn, hr, List.append_assoc]
      · intro r hr'
        rcases List.mem_append.1 hr' with hr' | hr'
        · exact hpost r hr'
        · exact Nat.le_trans h.last (hu r hr')

/-- C11 for histories without drops (and without re-creating a name): whatever the other
process had loaded and whenever it synchronised before, one more Sync gives it exactly
the catalog of the main process. -/
theorem C11_sync_sees_creates_partial (ops : List (Nat × Op2)) (hf : FreshNames Dict.empty (mains ops))
    (hp : Permanent (mains ops)) (hnd : NoDrop (mains ops)) (dt : Nat) :
    let w := World2.init.run ops
    SameView (w.step dt .otherSync).other.mem w.main.proc.mem := by
  intro w
  have h : Inv2 w (Dict.empty.run (mains ops)) :=
    Inv2.run ⟨Inv.init, by simp [World2.init, Proc.fresh], [], [], rfl, canon_empty, by simp⟩ ops hf hnd
  have hd := permanent_dict (mains ops) hp Dict.empty (by simp [Dict.empty])
  have hs := (h.sync dt).2
  rw [filter_permanent hd.1, filter_permanent hd.2] at hs
  exact SameView.of_eq (hs.trans h.inv.mem.symm)

example : let ops : List (Nat × Op2) := [(1, .main (.createTable (wt 1))), (1, .otherSync), (0, .main (.createFunction wu))]
    FreshNames Dict.empty (mains ops) ∧ Permanent (mains ops) ∧ NoDrop (mains ops) := by
  refine ⟨by simp [mains, FreshNames, Dict.empty, Dict.step, wt, wu, define, Spec.key, formatPath], ?_, ?_⟩
  · intro o ho; simp [mains] at ho; rcases ho with rfl | rfl <;> simp [wt, wu]
  · intro o ho; simp [mains] at ho; rcases ho with rfl | rfl <;> simp

/-! ## C15 -/

/-- C15 at full strength: `ops` before the transaction, `tx` inside it, then rollback. -/
def C15_full : Prop := ∀ ops tx, FreshNames Dict.empty (ops ++ tx) →
  let before := World.init.run ops
  SameView (before.rollback (before.run tx)).proc.mem before.proc.mem

/-- The code violates C15: a table created in a rolled back transaction stays in the catalog. -/
theorem C15_full_false : ¬ C15_full := by
  intro h
  have := (h [] [(1, .createTable (wt 1))] (by simp [FreshNames, Dict.empty, wt])).table ['t']
  revert this; decide

/-- The part of C15 that holds: whatever the transaction did, a process that opens the
database after the rollback sees what was visible before the transaction. -/
theorem C15_reopen_after_rollback_partial (ops tx : List (Nat × Op)) (hf : FreshNames Dict.empty ops)
    (hp : Permanent ops) (dt : Nat) :
    let before := World.init.run ops
    let after := before.rollback (before.run tx)
    (reopen after dt).2 = true ∧ SameView (reopen after dt).1.mem before.proc.mem := by
  intro before after
  have h : Inv before (Dict.empty.run ops) := Inv.init.run ops hf
  have hd := permanent_dict ops hp Dict.empty (by simp [Dict.empty])
  have hw : ∀ c, (reopen { before with clock := c } dt).2 = true ∧ (reopen { before with clock := c } dt).1.mem = before.proc.mem := by
    intro c
    have hr := reopen_canon ops hf dt
    simp only [filter_permanent hd.1, filter_permanent hd.2, ← h.mem] at hr
    simp only [reopen, Catalog.sync] at hr ⊢
    split at hr
    · rename_i heq; rw [show before.rows = (World.init.run ops).rows from rfl, heq]; exact ⟨rfl, hr.2⟩
    · simp at hr
  have := hw after.clock
  exact ⟨this.1, SameView.of_eq this.2⟩

/-! ## Replaced definitions -/

/-- **C11** saving a definition under a name that is already stored replaces it, stamps it with the time of the change and leaves every
other row alone; so a process that synchronised before reads it again. -/
theorem C11_replaced_is_read (rows : List Row) (s : Spec) (now : Nat) (p : Proc) (hp : p.lastSyncedAt ≤ now) (save : List Row → Spec → Nat → List Row)
    (hsave : save = saveTableSpec ∨ save = saveFunctionSpec) :
    (∃ r ∈ (save rows s now).filter fun r => p.lastSyncedAt ≤ r.updatedAt, r.name = s.key ∧ r.spec = s) ∧
    (∀ r, r.name ≠ s.key → (r ∈ save rows s now ↔ r ∈ rows)) ∧
    (∀ r ∈ save rows s now, r.name = s.key → r.spec = s) := by
  have key : ∀ r0 : Row, r0.name = s.key → r0.spec = s → r0.updatedAt = now →
      (∃ r ∈ (upsert rows r0).filter fun r => p.lastSyncedAt ≤ r.updatedAt, r.name = s.key ∧ r.spec = s) ∧
      (∀ r, r.name ≠ s.key → (r ∈ upsert rows r0 ↔ r ∈ rows)) ∧
      (∀ r ∈ upsert rows r0, r.name = s.key → r.spec = s) := by
    intro r0 hn hs hu
    unfold upsert
    split
    · rename_i h
      rw [List.any_eq_true] at h
      obtain ⟨x, hx, hxn⟩ := h
      simp only [decide_eq_true_eq] at hxn
      refine ⟨⟨{ x with spec := r0.spec, isFn := r0.isFn, updatedAt := r0.updatedAt }, ?_, by rw [← hn]; exact hxn, hs⟩, ?_, ?_⟩
      · rw [List.mem_filter]
        refine ⟨List.mem_map.2 ⟨x, hx, by rw [if_pos hxn]⟩, by simp [hu, hp]⟩
      · intro r hr
        rw [List.mem_map]
        constructor
        · rintro ⟨y, hy, e⟩
          split at e
          · rename_i hy'
            rw [← e] at hr
            exact absurd (hy'.trans hn) hr
          · rwa [← e]
        · intro h
          exact ⟨r, h, by rw [if_neg (by rw [hn]; exact hr)]⟩
      · intro r hr hrn
        obtain ⟨y, hy, e⟩ := List.mem_map.1 hr
        split at e
        · rw [← e]; exact hs
        · rename_i hy'
          rw [← e] at hrn
          exact absurd (hrn.trans hn.symm) hy'
    · rename_i h
      refine ⟨⟨r0, by simp [hu, hp], hn, hs⟩, ?_, ?_⟩
      · intro r hr
        simp only [List.mem_append, List.mem_singleton]
        refine ⟨fun h' => h'.resolve_right (fun e => hr (e ▸ hn)), .inl⟩
      · intro r hr hrn
        simp only [List.mem_append, List.mem_singleton] at hr
        rcases hr with hr | rfl
        · exact absurd (List.any_eq_true.2 ⟨r, hr, by simp [hrn, hn]⟩) h
        · exact hs
  rcases hsave with rfl | rfl
  · exact key _ rfl rfl rfl
  · exact key _ rfl rfl rfl

end Verif.Catalog
