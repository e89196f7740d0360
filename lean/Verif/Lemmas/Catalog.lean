import Verif.Spec.Catalog

namespace Verif.Catalog
open Spec NamePath

def addTablesTree (t : Tree) (l : List Spec) : Tree := l.foldl (fun t s => (addTableRec s t [] s.path).1) t
def addFnsTree (t : Tree) (l : List Spec) : Tree := l.foldl (fun t s => (addFunctionRec s t [] s.path).1) t

/-- The catalog whose lists are `ts` and `fs`, with everything else derived from them. -/
def canon (ts fs : List Spec) : Mem :=
  { tables := ts, functions := fs, tableMap := lookup ts, funcMap := lookup fs,
    tableTree := addTablesTree Tree.empty ts, funcTree := addFnsTree Tree.empty fs }

def Keys (l : List Spec) : Prop := (l.map Spec.key).Nodup ∧ ∀ s ∈ l, s.path ≠ []

theorem addTableRec_ok (s : Spec) (t : Tree) (pos p : Path) (h : p ≠ []) : (addTableRec s t pos p).2 = true := by
  induction p generalizing t pos with
  | nil => exact absurd rfl h
  | cons n rest ih =>
    cases rest with
    | nil => rfl
    | cons m rest =>
      simp only [addTableRec]
      have h1 := ih (t.addIfAbsent pos (joinDot (n :: m :: rest)) s) pos (by simp)
      split
      · rename_i heq; rw [heq] at h1; simp at h1
      · exact ih _ _ (by simp)

theorem addFunctionRec_ok (s : Spec) (t : Tree) (pos p : Path) (h : p ≠ []) : (addFunctionRec s t pos p).2 = true := by
  induction p generalizing t pos with
  | nil => exact absurd rfl h
  | cons n rest ih =>
    cases rest with
    | nil => rfl
    | cons m rest =>
      simp only [addFunctionRec]
      have h1 := ih t pos (by simp)
      split
      · rename_i heq; rw [heq] at h1; simp at h1
      · exact ih _ _ (by simp)

theorem lookup_none {l : List Spec} {n : Name} : lookup l n = none ↔ ∀ t ∈ l, t.key ≠ n := by
  simp [lookup]

theorem lookup_append_new {l : List Spec} {s : Spec} (h : ∀ t ∈ l, t.key ≠ s.key) :
    lookup (l ++ [s]) = mapSet (lookup l) s.key s := by
  funext n
  simp only [lookup, mapSet, List.find?_append, List.find?_cons, List.find?_nil]
  by_cases hn : n = s.key
  · subst hn
    have : List.find? (fun t => decide (t.key = s.key)) l = none := by simpa using h
    simp [this]
  · have hn' : ¬ s.key = n := fun e => hn e.symm
    simp [hn, hn']

theorem addTableSpec_new (ts fs : List Spec) (s : Spec) (hp : s.path ≠ []) (h : ∀ t ∈ ts, t.key ≠ s.key) :
    addTableSpec (canon ts fs) s = (canon (ts ++ [s]) fs, true) := by
  have hl : lookup ts s.key = none := lookup_none.2 h
  simp only [addTableSpec, canon, hl]
  rw [lookup_append_new h]
  simp [addTablesTree]
  exact addTableRec_ok s _ [] s.path hp

theorem addFunctionSpec_new (ts fs : List Spec) (s : Spec) (hp : s.path ≠ []) (h : ∀ t ∈ fs, t.key ≠ s.key) :
    addFunctionSpec (canon ts fs) s = (canon ts (fs ++ [s]), true) := by
  have hl : lookup fs s.key = none := lookup_none.2 h
  simp only [addFunctionSpec, canon, hl]
  rw [lookup_append_new h]
  simp [addFnsTree]
  exact addFunctionRec_ok s _ [] s.path hp

theorem lookup_mem {l : List Spec} (hk : Keys l) {s : Spec} (hs : s ∈ l) : lookup l s.key = some s := by
  induction l with
  | nil => simp at hs
  | cons x xs ih =>
    simp only [lookup, List.find?_cons]
    have hnd := hk.1
    simp only [List.map_cons, List.nodup_cons] at hnd
    rcases List.mem_cons.1 hs with rfl | hs
    · simp
    · have hne : x.key ≠ s.key := by
        intro e; apply hnd.1; rw [e]; exact List.mem_map_of_mem hs
      simp [hne]
      exact ih ⟨hnd.2, fun s hs => hk.2 s (List.mem_cons_of_mem _ hs)⟩ hs

theorem mapSet_lookup_self {l : List Spec} (hk : Keys l) {s : Spec} (hs : s ∈ l) :
    mapSet (lookup l) s.key s = lookup l := by
  funext n
  unfold mapSet
  split
  · rename_i h; rw [h, lookup_mem hk hs]
  · rfl

theorem addTableSpec_known (ts fs : List Spec) (hk : Keys ts) (s : Spec) (hs : s ∈ ts) :
    addTableSpec (canon ts fs) s = (canon ts fs, true) := by
  simp only [addTableSpec, canon, lookup_mem hk hs, mapSet_lookup_self hk hs]

theorem addFunctionSpec_known (ts fs : List Spec) (hk : Keys fs) (s : Spec) (hs : s ∈ fs) :
    addFunctionSpec (canon ts fs) s = (canon ts fs, true) := by
  simp only [addFunctionSpec, canon, lookup_mem hk hs, mapSet_lookup_self hk hs]

theorem keys_cons {s : Spec} {l : List Spec} (h : Keys (s :: l)) : Keys l := by
  refine ⟨?_, fun t ht => h.2 t (List.mem_cons_of_mem _ ht)⟩
  have := h.1
  simp only [List.map_cons, List.nodup_cons] at this
  exact this.2

theorem addAll_tables (pre l fs : List Spec) (hk : Keys (pre ++ l)) :
    addAll addTableSpec (canon pre fs) l = (canon (pre ++ l) fs, true) := by
  induction l generalizing pre with
  | nil => simp [addAll]
  | cons s ss ih =>
    have hs : ∀ t ∈ pre, t.key ≠ s.key := by
      have := hk.1
      rw [List.map_append, List.nodup_append] at this
      intro t ht
      exact this.2.2 _ (List.mem_map_of_mem ht) _ (by simp)
    have hp : s.path ≠ [] := hk.2 s (by simp)
    simp only [addAll, addTableSpec_new pre fs s hp hs]
    have happ : pre ++ s :: ss = (pre ++ [s]) ++ ss := by simp
    rw [happ] at hk ⊢
    exact ih (pre ++ [s]) hk

theorem addAll_functions (pre l ts : List Spec) (hk : Keys (pre ++ l)) :
    addAll addFunctionSpec (canon ts pre) l = (canon ts (pre ++ l), true) := by
  induction l generalizing pre with
  | nil => simp [addAll]
  | cons s ss ih =>
    have hs : ∀ t ∈ pre, t.key ≠ s.key := by
      have := hk.1
      rw [List.map_append, List.nodup_append] at this
      intro t ht
      exact this.2.2 _ (List.mem_map_of_mem ht) _ (by simp)
    have hp : s.path ≠ [] := hk.2 s (by simp)
    simp only [addAll, addFunctionSpec_new ts pre s hp hs]
    have happ : pre ++ s :: ss = (pre ++ [s]) ++ ss := by simp
    rw [happ] at hk ⊢
    exact ih (pre ++ [s]) hk

theorem canon_empty : Mem.empty = canon [] [] := by
  simp [Mem.empty, canon, addTablesTree, addFnsTree]
  constructor <;> funext n <;> simp [lookup]

theorem resetCatalog_eq (ts fs : List Spec) (ht : Keys ts) (hf : Keys fs) :
    resetCatalog ts fs = (canon ts fs, true) := by
  simp only [resetCatalog, canon_empty]
  rw [show addAll addTableSpec (canon [] []) ts = (canon ts [], true) from addAll_tables [] ts [] ht]
  exact addAll_functions [] fs ts hf

theorem keys_filter {l : List Spec} (h : Keys l) (p : Spec → Bool) : Keys (l.filter p) := by
  refine ⟨?_, fun t ht => h.2 t (List.mem_filter.1 ht).1⟩
  exact List.Nodup.sublist ((List.filter_sublist).map _) h.1

theorem lookup_key {l : List Spec} {n : Name} {s : Spec} (h : lookup l n = some s) : s.key = n ∧ s ∈ l := by
  have := List.find?_some h
  exact ⟨by simpa using this, List.mem_of_find?_eq_some h⟩

theorem remove_of_absent {l : List Spec} {n : Name} (h : ∀ t ∈ l, t.key ≠ n) : remove l n = l := by
  simp only [remove, List.filter_eq_self]
  intro t ht; simpa using h t ht

theorem deleteTable_eq (ts fs : List Spec) (ht : Keys ts) (hf : Keys fs) (n : Name) :
    deleteTableSpecByName (canon ts fs) n = (canon (remove ts n) fs, (lookup ts n).isSome) := by
  simp only [deleteTableSpecByName, canon]
  cases h : lookup ts n with
  | none => simp [remove_of_absent (lookup_none.1 h)]
  | some s =>
    simp only
    have hfil : (ts.filter fun t => s.key ≠ t.key) = remove ts n := by
      simp only [remove]
      congr 1; funext t; rw [(lookup_key h).1]; simp [eq_comm]
    rw [hfil, resetCatalog_eq (remove ts n) fs (keys_filter ht _) hf]
    rfl

theorem deleteFunction_eq (ts fs : List Spec) (ht : Keys ts) (hf : Keys fs) (n : Name) :
    deleteFunctionSpecByName (canon ts fs) n = (canon ts (remove fs n), (lookup fs n).isSome) := by
  simp only [deleteFunctionSpecByName, canon]
  cases h : lookup fs n with
  | none => simp [remove_of_absent (lookup_none.1 h)]
  | some s =>
    simp only
    have hfil : (fs.filter fun t => s.key ≠ t.key) = remove fs n := by
      simp only [remove]
      congr 1; funext t; rw [(lookup_key h).1]; simp [eq_comm]
    rw [hfil, resetCatalog_eq ts (remove fs n) ht (keys_filter hf _)]
    rfl

theorem define_new {l : List Spec} {s : Spec} (h : ∀ t ∈ l, t.key ≠ s.key) : define l s = l ++ [s] := by
  unfold define
  rw [if_neg]
  rintro ⟨t, ht, he⟩; exact h t ht he

theorem keys_append {l : List Spec} {s : Spec} (hk : Keys l) (hp : s.path ≠ []) (h : ∀ t ∈ l, t.key ≠ s.key) :
    Keys (l ++ [s]) := by
  constructor
  · rw [List.map_append, List.nodup_append]
    refine ⟨hk.1, by simp, ?_⟩
    intro a ha b hb
    simp at hb ha
    obtain ⟨t, ht, rfl⟩ := ha
    rw [hb]; exact h t ht
  · intro t ht
    simp at ht
    rcases ht with ht | rfl
    · exact hk.2 t ht
    · exact hp

/-! ### Rows -/

def rowOf (s : Spec) (isFn : Bool) (t : Nat) : Row :=
  { name := s.key, kind := if isFn then .function else if s.isView then .view else .table, spec := s,
    isFn := isFn, updatedAt := t }

/-- Row produced by an untouched save. -/
def Row.Good (r : Row) : Prop := r = rowOf r.spec r.isFn r.updatedAt

/-- The rows describe exactly the permanent members of `ts` and `fs`, in order. -/
structure RowsFor (rows : List Row) (ts fs : List Spec) : Prop where
  good : ∀ r ∈ rows, r.Good
  tables : (rows.filter (fun r => !r.isFn)).map Row.spec = ts.filter (fun s => !s.isTemp)
  functions : (rows.filter (fun r => r.isFn)).map Row.spec = fs.filter (fun s => !s.isTemp)

theorem RowsFor.mem_table {rows ts fs} (h : RowsFor rows ts fs) {r : Row} (hr : r ∈ rows) (hf : r.isFn = false) :
    r.spec ∈ ts ∧ r.spec.isTemp = false := by
  have : r.spec ∈ (rows.filter (fun r => !r.isFn)).map Row.spec :=
    List.mem_map_of_mem (by simp [hr, hf])
  rw [h.tables] at this
  simpa using this

theorem RowsFor.mem_fn {rows ts fs} (h : RowsFor rows ts fs) {r : Row} (hr : r ∈ rows) (hf : r.isFn = true) :
    r.spec ∈ fs ∧ r.spec.isTemp = false := by
  have : r.spec ∈ (rows.filter (fun r => r.isFn)).map Row.spec :=
    List.mem_map_of_mem (by simp [hr, hf])
  rw [h.functions] at this
  simpa using this

theorem good_name {r : Row} (h : r.Good) : r.name = r.spec.key := by
  have := congrArg Row.name h; exact this

theorem good_kind {r : Row} (h : r.Good) :
    r.kind = if r.isFn then .function else if r.spec.isView then .view else .table := by
  have := congrArg Row.kind h; exact this

theorem upsert_new {rows : List Row} {r : Row} (h : ∀ x ∈ rows, x.name ≠ r.name) : upsert rows r = rows ++ [r] := by
  unfold upsert
  rw [if_neg]
  simp only [List.any_eq_true, decide_eq_true_eq, not_exists, not_and]
  exact fun x hx => h x hx

theorem loadRow_good (m : Mem) (r : Row) (h : r.Good) :
    loadRow m r = if r.isFn then addFunctionSpec m r.spec else addTableSpec m r.spec := by
  unfold loadRow
  rw [good_kind h]
  cases hf : r.isFn <;> simp [Row.decode, hf]
  cases r.spec.isView <;> simp

/-- Loading rows that are already known changes nothing. -/
theorem loadRows_known (ts fs : List Spec) (ht : Keys ts) (hf : Keys fs) (rows : List Row)
    (hg : ∀ r ∈ rows, r.Good) (hm : ∀ r ∈ rows, if r.isFn then r.spec ∈ fs else r.spec ∈ ts) :
    loadRows (canon ts fs) rows = (canon ts fs, true) := by
  induction rows with
  | nil => rfl
  | cons r rs ih =>
    have h1 := hm r (by simp)
    simp only [loadRows]
    rw [loadRow_good _ _ (hg r (by simp))]
    have hih := ih (fun x hx => hg x (by simp [hx])) (fun x hx => hm x (by simp [hx]))
    cases hfn : r.isFn
    · simp [hfn] at h1
      simp [addTableSpec_known ts fs ht _ h1, hih]
    · simp [hfn] at h1
      simp [addFunctionSpec_known ts fs hf _ h1, hih]

/-- The tables (functions) described by a list of rows. -/
def rowTables (rows : List Row) : List Spec := (rows.filter (fun r => !r.isFn)).map Row.spec
def rowFns (rows : List Row) : List Spec := (rows.filter (fun r => r.isFn)).map Row.spec

theorem rowTables_append (a b : List Row) : rowTables (a ++ b) = rowTables a ++ rowTables b := by simp [rowTables]
theorem rowFns_append (a b : List Row) : rowFns (a ++ b) = rowFns a ++ rowFns b := by simp [rowFns]

theorem keys_prefix {a b : List Spec} (h : Keys (a ++ b)) : Keys a := by
  refine ⟨?_, fun s hs => h.2 s (by simp [hs])⟩
  have := h.1
  rw [List.map_append, List.nodup_append] at this
  exact this.1

theorem keys_fresh {a b : List Spec} {s : Spec} (h : Keys (a ++ s :: b)) : ∀ t ∈ a, t.key ≠ s.key := by
  have := h.1
  rw [List.map_append, List.nodup_append] at this
  intro t ht
  exact this.2.2 _ (List.mem_map_of_mem ht) _ (by simp)

/-- Loading a selection `sel` of the rows that contains all rows not yet loaded brings the
catalog up to all rows. -/
theorem loadRows_catchup (pre post : List Row) (sel : Row → Bool)
    (hg : ∀ r ∈ pre ++ post, r.Good) (ht : Keys (rowTables (pre ++ post))) (hf : Keys (rowFns (pre ++ post)))
    (hsel : ∀ r ∈ post, sel r = true) :
    loadRows (canon (rowTables pre) (rowFns pre)) ((pre ++ post).filter sel)
      = (canon (rowTables (pre ++ post)) (rowFns (pre ++ post)), true) := by
  -- first the part of `pre`, which is known
  have split : ∀ (a b : List Row) (m m' : Mem), loadRows m a = (m', true) → loadRows m (a ++ b) = loadRows m' b := by
    intro a
    induction a with
    | nil => intro b m m' h; simp [loadRows] at h; simp [h]
    | cons r rs ih =>
      intro b m m' h
      simp only [loadRows, List.cons_append] at h ⊢
      split at h
      · simp at h
      · rename_i m1 heq
        exact ih b m1 m' h
  rw [List.filter_append]
  have hpt : Keys (rowTables pre) := keys_prefix (rowTables_append pre post ▸ ht)
  have hpf : Keys (rowFns pre) := keys_prefix (rowFns_append pre post ▸ hf)
  rw [split _ _ _ _ (loadRows_known _ _ hpt hpf (pre.filter sel)
    (fun r hr => hg r (by simp [(List.mem_filter.1 hr).1]))
    (fun r hr => by
      have := (List.mem_filter.1 hr).1
      cases hfn : r.isFn
      · simp [rowTables]; exact ⟨r, ⟨this, hfn⟩, rfl⟩
      · simp [rowFns]; exact ⟨r, ⟨this, hfn⟩, rfl⟩))]
  have : post.filter sel = post := by
    rw [List.filter_eq_self]; exact hsel
  rw [this]
  clear this hsel hpt hpf
  -- now the new rows
  induction post generalizing pre with
  | nil => simp [loadRows]
  | cons r rs ih =>
    simp only [loadRows]
    rw [loadRow_good _ _ (hg r (by simp))]
    have happ : pre ++ r :: rs = (pre ++ [r]) ++ rs := by simp
    cases hfn : r.isFn
    · have hT : rowTables (pre ++ r :: rs) = rowTables pre ++ r.spec :: rowTables rs := by
        simp [rowTables, hfn]
      have hT1 : rowTables (pre ++ [r]) = rowTables pre ++ [r.spec] := by simp [rowTables, hfn]
      have hF1 : rowFns (pre ++ [r]) = rowFns pre := by simp [rowFns, hfn]
      have hfresh := keys_fresh (hT ▸ ht)
      have hp : r.spec.path ≠ [] := ht.2 _ (by rw [hT]; simp)
      simp only [Bool.false_eq_true, if_false]
      rw [addTableSpec_new _ _ _ hp hfresh]
      simp only
      rw [← hT1, ← hF1]
      rw [happ] at ht hf hg ⊢
      exact ih (pre ++ [r]) hg ht hf
    · have hF : rowFns (pre ++ r :: rs) = rowFns pre ++ r.spec :: rowFns rs := by
        simp [rowFns, hfn]
      have hF1 : rowFns (pre ++ [r]) = rowFns pre ++ [r.spec] := by simp [rowFns, hfn]
      have hT1 : rowTables (pre ++ [r]) = rowTables pre := by simp [rowTables, hfn]
      have hfresh := keys_fresh (hF ▸ hf)
      have hp : r.spec.path ≠ [] := hf.2 _ (by rw [hF]; simp)
      simp only [if_true]
      rw [addFunctionSpec_new _ _ _ hp hfresh]
      simp only
      rw [← hT1, ← hF1]
      rw [happ] at ht hf hg ⊢
      exact ih (pre ++ [r]) hg ht hf

end Verif.Catalog
