import Verif.Lemmas.CatalogTree

/-! The invariant of histories that only create fresh names. -/

namespace Verif.Catalog
open Spec NamePath

structure Inv (w : World) (d : Dict) : Prop where
  mem : w.proc.mem = canon d.tables d.functions
  kt : Keys d.tables
  kf : Keys d.functions
  disj : ∀ t ∈ d.tables, ∀ f ∈ d.functions, t.key ≠ f.key
  rows : RowsFor w.rows d.tables d.functions

theorem Inv.init : Inv World.init Dict.empty where
  mem := canon_empty
  kt := ⟨by simp [Dict.empty], by simp [Dict.empty]⟩
  kf := ⟨by simp [Dict.empty], by simp [Dict.empty]⟩
  disj := by simp [Dict.empty]
  rows := ⟨by simp [World.init], by simp [World.init, Dict.empty], by simp [World.init, Dict.empty]⟩

theorem RowsFor.name_absent {rows ts fs} (h : RowsFor rows ts fs) {n : Name}
    (ht : ∀ t ∈ ts, t.key ≠ n) (hf : ∀ t ∈ fs, t.key ≠ n) : ∀ r ∈ rows, r.name ≠ n := by
  intro r hr
  rw [good_name (h.good r hr)]
  cases hfn : r.isFn
  · exact ht _ (h.mem_table hr hfn).1
  · exact hf _ (h.mem_fn hr hfn).1

/-- The precondition of a create in `FreshNames`. -/
def FreshOp (d : Dict) : Op → Prop
  | .createTable s | .createFunction s =>
    s.path ≠ [] ∧ (∀ t ∈ d.tables, t.key ≠ s.key) ∧ (∀ t ∈ d.functions, t.key ≠ s.key)
  | _ => True

theorem freshNames_cons (d : Dict) (o : Nat × Op) (ops : List (Nat × Op)) :
    FreshNames d (o :: ops) ↔ FreshOp d o.2 ∧ FreshNames (d.step o.2) ops := by
  obtain ⟨dt, op⟩ := o
  cases op <;> simp [FreshNames, FreshOp]

/-- Success of a statement, by the specification. -/
def Dict.succeeds (d : Dict) : Op → Bool
  | .dropTable n => (lookup d.tables n).isSome
  | .dropFunction n => (lookup d.functions n).isSome
  | _ => true

theorem deleteRow_tables {rows : List Row} {ts fs : List Spec} (h : RowsFor rows ts fs) {n : Name}
    (hd : ∀ f ∈ fs, f.key ≠ n) : RowsFor (deleteRow rows n) (remove ts n) fs := by
  refine ⟨fun r hr => h.good r (List.mem_filter.1 hr).1, ?_, ?_⟩
  · have e : (deleteRow rows n).filter (fun r => !r.isFn)
        = (rows.filter (fun r => !r.isFn)).filter (fun r => decide (r.spec.key ≠ n)) := by
      simp only [deleteRow, List.filter_filter]
      apply List.filter_congr
      intro r hr
      rw [good_name (h.good r hr), Bool.and_comm]
    have e' : (fun r : Row => decide (r.spec.key ≠ n)) = (fun s : Spec => decide (s.key ≠ n)) ∘ Row.spec := rfl
    rw [e, e', ← List.filter_map, h.tables, remove, List.filter_filter, List.filter_filter]
    congr 1; funext s; rw [Bool.and_comm]
  · have e : (deleteRow rows n).filter (fun r => r.isFn) = rows.filter (fun r => r.isFn) := by
      simp only [deleteRow, List.filter_filter]
      apply List.filter_congr
      intro r hr
      cases hfn : r.isFn
      · simp
      · have := hd _ (h.mem_fn hr hfn).1
        rw [good_name (h.good r hr)]; simpa using this
    rw [e, h.functions]

theorem deleteRow_functions {rows : List Row} {ts fs : List Spec} (h : RowsFor rows ts fs) {n : Name}
    (hd : ∀ f ∈ ts, f.key ≠ n) : RowsFor (deleteRow rows n) ts (remove fs n) := by
  refine ⟨fun r hr => h.good r (List.mem_filter.1 hr).1, ?_, ?_⟩
  · have e : (deleteRow rows n).filter (fun r => !r.isFn) = rows.filter (fun r => !r.isFn) := by
      simp only [deleteRow, List.filter_filter]
      apply List.filter_congr
      intro r hr
      cases hfn : r.isFn
      · have := hd _ (h.mem_table hr hfn).1
        rw [good_name (h.good r hr)]; simpa using this
      · simp
    rw [e, h.tables]
  · have e : (deleteRow rows n).filter (fun r => r.isFn)
        = (rows.filter (fun r => r.isFn)).filter (fun r => decide (r.spec.key ≠ n)) := by
      simp only [deleteRow, List.filter_filter]
      apply List.filter_congr
      intro r hr
      rw [good_name (h.good r hr), Bool.and_comm]
    have e' : (fun r : Row => decide (r.spec.key ≠ n)) = (fun s : Spec => decide (s.key ≠ n)) ∘ Row.spec := rfl
    rw [e, e', ← List.filter_map, h.functions, remove, List.filter_filter, List.filter_filter]
    congr 1; funext s; rw [Bool.and_comm]

theorem Inv.step {w : World} {d : Dict} (h : Inv w d) (dt : Nat) (op : Op) (hop : FreshOp d op) :
    Inv (w.step dt op).1 (d.step op) ∧ (w.step dt op).2 = Dict.succeeds d op := by
  cases op with
  | createTable s =>
    obtain ⟨hp, ht, hf⟩ := hop
    have hnew := addTableSpec_new d.tables d.functions s hp ht
    simp only [World.step, addNewTableSpec, h.mem, hnew, Dict.step, define_new ht, Dict.succeeds]
    refine ⟨⟨rfl, keys_append h.kt hp ht, h.kf, ?_, ?_⟩, trivial⟩
    · intro t htm f hfm
      rcases List.mem_append.1 htm with htm | htm
      · exact h.disj t htm f hfm
      · simp at htm; subst htm; exact fun e => hf f hfm e.symm
    · cases htmp : s.isTemp
      · have hup := upsert_new (r := rowOf s false (w.clock + dt)) (h.rows.name_absent ht hf)
        have : saveTableSpec w.rows s (w.clock + dt) = w.rows ++ [rowOf s false (w.clock + dt)] := hup
        simp only [Bool.false_eq_true, if_false, this]
        refine ⟨?_, ?_, ?_⟩
        · intro r hr
          rcases List.mem_append.1 hr with hr | hr
          · exact h.rows.good r hr
          · simp at hr; subst hr; rfl
        · simp [h.rows.tables, rowOf, htmp]
        · simp [h.rows.functions, rowOf]
      · simp only [if_true]
        refine ⟨h.rows.good, ?_, h.rows.functions⟩
        simp [h.rows.tables, htmp]
  | createFunction s =>
    obtain ⟨hp, ht, hf⟩ := hop
    have hnew := addFunctionSpec_new d.tables d.functions s hp hf
    simp only [World.step, addNewFunctionSpec, h.mem, hnew, Dict.step, define_new hf, Dict.succeeds]
    refine ⟨⟨rfl, h.kt, keys_append h.kf hp hf, ?_, ?_⟩, trivial⟩
    · intro t htm f hfm
      rcases List.mem_append.1 hfm with hfm | hfm
      · exact h.disj t htm f hfm
      · simp at hfm; subst hfm; exact ht t htm
    · cases htmp : s.isTemp
      · have hup := upsert_new (r := rowOf s true (w.clock + dt)) (h.rows.name_absent ht hf)
        have : saveFunctionSpec w.rows s (w.clock + dt) = w.rows ++ [rowOf s true (w.clock + dt)] := hup
        simp only [Bool.false_eq_true, if_false, this]
        refine ⟨?_, ?_, ?_⟩
        · intro r hr
          rcases List.mem_append.1 hr with hr | hr
          · exact h.rows.good r hr
          · simp at hr; subst hr; rfl
        · simp [h.rows.tables, rowOf]
        · simp [h.rows.functions, rowOf, htmp]
      · simp only [if_true]
        refine ⟨h.rows.good, h.rows.tables, ?_⟩
        simp [h.rows.functions, htmp]
  | dropTable n =>
    have hdel := deleteTable_eq d.tables d.functions h.kt h.kf n
    simp only [World.step, deleteTableSpec, h.mem, hdel, Dict.step, Dict.succeeds]
    cases hl : lookup d.tables n with
    | none =>
      have habs := remove_of_absent (lookup_none.1 hl)
      simp only [Option.isSome_none, habs]
      exact ⟨⟨rfl, h.kt, h.kf, h.disj, h.rows⟩, trivial⟩
    | some s =>
      simp only [Option.isSome_some]
      obtain ⟨hk, hm⟩ := lookup_key hl
      refine ⟨⟨rfl, keys_filter h.kt _, h.kf, ?_, ?_⟩, trivial⟩
      · intro t htm f hfm; exact h.disj t (List.mem_filter.1 htm).1 f hfm
      · exact deleteRow_tables h.rows (fun f hf => hk ▸ fun e => h.disj s hm f hf e.symm)
  | dropFunction n =>
    have hdel := deleteFunction_eq d.tables d.functions h.kt h.kf n
    simp only [World.step, deleteFunctionSpec, h.mem, hdel, Dict.step, Dict.succeeds]
    cases hl : lookup d.functions n with
    | none =>
      have habs := remove_of_absent (lookup_none.1 hl)
      simp only [Option.isSome_none, habs]
      exact ⟨⟨rfl, h.kt, h.kf, h.disj, h.rows⟩, trivial⟩
    | some s =>
      simp only [Option.isSome_some]
      obtain ⟨hk, hm⟩ := lookup_key hl
      refine ⟨⟨rfl, h.kt, keys_filter h.kf _, ?_, ?_⟩, trivial⟩
      · intro t htm f hfm; exact h.disj t htm f (List.mem_filter.1 hfm).1
      · exact deleteRow_functions h.rows (fun t ht => hk ▸ fun e => h.disj t ht s hm e)
  | sync =>
    have hload := loadRows_known d.tables d.functions h.kt h.kf
      (w.rows.filter fun r => w.proc.lastSyncedAt ≤ r.updatedAt)
      (fun r hr => h.rows.good r (List.mem_filter.1 hr).1)
      (fun r hr => by
        have hr := (List.mem_filter.1 hr).1
        cases hfn : r.isFn
        · simpa using (h.rows.mem_table hr hfn).1
        · simpa using (h.rows.mem_fn hr hfn).1)
    simp only [World.step, Catalog.sync, h.mem, hload, Dict.step, Dict.succeeds]
    exact ⟨⟨rfl, h.kt, h.kf, h.disj, h.rows⟩, trivial⟩

theorem Inv.run {w : World} {d : Dict} (h : Inv w d) (ops : List (Nat × Op)) (hf : FreshNames d ops) :
    Inv (w.run ops) (d.run ops) := by
  induction ops generalizing w d with
  | nil => exact h
  | cons o os ih =>
    rw [freshNames_cons] at hf
    exact ih (h.step o.1 o.2 hf.1).1 hf.2

theorem foldl_mapSet (l : List Spec) (hk : (l.map Spec.key).Nodup) (f : Name → Option Spec) (n : Name) :
    (l.foldl (fun fm s => mapSet fm s.key s) f) n = (lookup l n).or (f n) := by
  induction l generalizing f with
  | nil => simp [lookup]
  | cons s ss ih =>
    simp only [List.map_cons, List.nodup_cons] at hk
    rw [List.foldl_cons, ih hk.2]
    simp only [lookup, List.find?_cons, mapSet]
    by_cases h : n = s.key
    · subst h
      have : List.find? (fun t => decide (t.key = s.key)) ss = none := by
        simp only [List.find?_eq_none, decide_eq_true_eq]
        intro x hx e; exact hk.1 (e ▸ List.mem_map_of_mem hx)
      simp [this]
    · have h' : ¬ s.key = n := fun e => h e.symm
      simp [h, h']

theorem queryFuncMap_canon (ts fs : List Spec) (hk : Keys fs) (n : Name) :
    queryFuncMap (canon ts fs) [] n = lookup fs n := by
  simp only [queryFuncMap, getFunctions, canon, List.isEmpty_nil, if_true]
  rw [foldl_mapSet fs hk.1]
  simp

end Verif.Catalog
