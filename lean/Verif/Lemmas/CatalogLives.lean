import Verif.Lemmas.CatalogHistory
import Verif.Spec.CatalogLives

/-! The invariant of all histories in which tables and functions do not share names. -/

namespace Verif.Catalog
open Spec NamePath

/-! ### The lists of the specification -/

theorem lookup_keep (l : List Spec) (s : Spec) (n : Name) :
    lookup (keep l s) n = if n = s.key then (lookup l n).or (some s) else lookup l n := by
  unfold keep
  split
  · rename_i h
    split
    · rename_i hn
      subst hn
      obtain ⟨t, ht, hk⟩ := h
      cases hl : lookup l s.key with
      | none => exact absurd hk (lookup_none.1 hl t ht)
      | some u => simp
    · rfl
  · rename_i h
    have h' : ∀ t ∈ l, t.key ≠ s.key := fun t ht e => h ⟨t, ht, e⟩
    rw [lookup_append_new h', mapSet]
    split
    · rename_i hn; subst hn; rw [lookup_none.2 h']; rfl
    · rfl

theorem lookup_define (l : List Spec) (s : Spec) (n : Name) :
    lookup (define l s) n = if n = s.key then some s else lookup l n := by
  unfold define
  split
  · rename_i h
    have key : ∀ l : List Spec, lookup (l.map fun t => if t.key = s.key then s else t) n
        = if n = s.key then (if ∃ t ∈ l, t.key = s.key then some s else none) else lookup l n := by
      intro l
      induction l with
      | nil => simp [lookup]
      | cons x xs ih =>
        simp only [lookup, List.map_cons, List.find?_cons] at ih ⊢
        by_cases hx : x.key = s.key
        · by_cases hn : n = s.key
          · simp [hx, hn]
          · have : ¬ s.key = n := fun e => hn e.symm
            simp only [hx, if_true, this, decide_false, ih, hn, if_false]
        · simp only [hx, if_false, ih]
          by_cases hn : n = s.key
          · subst hn; simp [hx]
          · simp [hn]
    rw [key, if_pos h]
  · rename_i h
    have h' : ∀ t ∈ l, t.key ≠ s.key := fun t ht e => h ⟨t, ht, e⟩
    rw [lookup_append_new h', mapSet]

theorem lookup_remove (l : List Spec) (n m : Name) : lookup (remove l n) m = if m = n then none else lookup l m := by
  split
  · rename_i h
    subst h
    rw [lookup_none]; intro t ht; simpa using (List.mem_filter.1 ht).2
  · rename_i h
    induction l with
    | nil => rfl
    | cons s ss ih =>
      simp only [remove, lookup, List.filter_cons, List.find?_cons] at ih ⊢
      by_cases hs : s.key = n
      · have : ¬ n = m := fun e => h e.symm
        simp only [hs, ne_eq, not_true, decide_false, Bool.false_eq_true, if_false, this]
        exact ih
      · simp only [ne_eq, hs, not_false_eq_true, decide_true, if_true, List.find?_cons]
        rw [ih]

theorem keys_keep {l : List Spec} {s : Spec} (hk : Keys l) (hp : s.path ≠ []) : Keys (keep l s) := by
  unfold keep
  split
  · exact hk
  · rename_i h
    exact keys_append hk hp fun t ht e => h ⟨t, ht, e⟩

theorem keys_define {l : List Spec} {s : Spec} (hk : Keys l) (hp : s.path ≠ []) : Keys (define l s) := by
  unfold define
  split
  · refine ⟨?_, ?_⟩
    · rw [List.map_map]
      have : (Spec.key ∘ fun t => if t.key = s.key then s else t) = Spec.key := by
        funext t
        simp only [Function.comp]
        split
        · rename_i h; exact h.symm
        · rfl
      rw [this]; exact hk.1
    · intro t ht
      obtain ⟨u, hu, e⟩ := List.mem_map.1 ht
      split at e
      · exact e ▸ hp
      · exact e ▸ hk.2 u hu
  · rename_i h
    exact keys_append hk hp fun t ht e => h ⟨t, ht, e⟩

/-! ### Memory -/

/-- The lists and the analyzer's trees are those of `ts` and `fs`; the maps have the same names, with definitions that
`P` (tables) and `Q` (functions) allow. -/
structure Shape (m : Mem) (ts fs : List Spec) (P Q : Name → Spec → Prop) : Prop where
  tables : m.tables = ts
  functions : m.functions = fs
  tableTree : m.tableTree = addTablesTree Tree.empty ts
  funcTree : m.funcTree = addFnsTree Tree.empty fs
  tSome : ∀ n, (m.tableMap n).isSome = (lookup ts n).isSome
  fSome : ∀ n, (m.funcMap n).isSome = (lookup fs n).isSome
  tKey : ∀ n s, m.tableMap n = some s → s.key = n ∧ P n s
  fKey : ∀ n s, m.funcMap n = some s → s.key = n ∧ Q n s

theorem Shape.ofLists {ts fs : List Spec} {P Q} (hP : ∀ n s, lookup ts n = some s → P n s) (hQ : ∀ n s, lookup fs n = some s → Q n s) :
    Shape (Catalog.canon ts fs) ts fs P Q :=
  ⟨rfl, rfl, rfl, rfl, fun _ => rfl, fun _ => rfl, fun n s h => ⟨(lookup_key h).1, hP n s h⟩, fun n s h => ⟨(lookup_key h).1, hQ n s h⟩⟩

theorem Shape.mono {m ts fs P Q P' Q'} (h : Shape m ts fs P Q) (hP : ∀ n s, P n s → P' n s) (hQ : ∀ n s, Q n s → Q' n s) :
    Shape m ts fs P' Q' :=
  ⟨h.tables, h.functions, h.tableTree, h.funcTree, h.tSome, h.fSome, fun n s e => ⟨(h.tKey n s e).1, hP n s (h.tKey n s e).2⟩,
    fun n s e => ⟨(h.fKey n s e).1, hQ n s (h.fKey n s e).2⟩⟩

theorem keep_old {l : List Spec} {s : Spec} (h : (lookup l s.key).isSome = true) : keep l s = l := by
  unfold keep
  rw [if_pos]
  cases hl : lookup l s.key with
  | none => rw [hl] at h; simp at h
  | some t => exact ⟨t, (lookup_key hl).2, (lookup_key hl).1⟩

theorem keep_new {l : List Spec} {s : Spec} (h : lookup l s.key = none) : keep l s = l ++ [s] := by
  unfold keep
  rw [if_neg]
  rintro ⟨t, ht, hk⟩
  exact lookup_none.1 h t ht hk

theorem Shape.addTable {m ts fs P Q} (h : Shape m ts fs P Q) (s : Spec) (hp : s.path ≠ []) (hs : P s.key s) :
    (addTableSpec m s).2 = true ∧ Shape (addTableSpec m s).1 (keep ts s) fs P Q := by
  have hmap : ∀ n u, mapSet m.tableMap s.key s n = some u → u.key = n ∧ P n u := by
    intro n u hu
    unfold mapSet at hu
    split at hu
    · rename_i hn; cases hu; subst hn; exact ⟨rfl, hs⟩
    · exact h.tKey n u hu
  have hsome : ∀ n, (mapSet m.tableMap s.key s n).isSome = (lookup (keep ts s) n).isSome := by
    intro n
    rw [lookup_keep, mapSet]
    split
    · cases lookup ts n <;> rfl
    · exact h.tSome n
  unfold addTableSpec
  cases hm : m.tableMap s.key with
  | some t =>
    refine ⟨rfl, ?_⟩
    have hk : keep ts s = ts := keep_old (by rw [← h.tSome, hm]; rfl)
    rw [hk] at hsome ⊢
    exact ⟨h.tables, h.functions, h.tableTree, h.funcTree, hsome, h.fSome, hmap, h.fKey⟩
  | none =>
    refine ⟨addTableRec_ok s _ [] s.path hp, ?_⟩
    have hk : keep ts s = ts ++ [s] := keep_new (by
      have := h.tSome s.key
      rw [hm] at this
      cases hl : lookup ts s.key with
      | none => rfl
      | some _ => rw [hl] at this; simp at this)
    refine ⟨?_, h.functions, ?_, h.funcTree, hsome, h.fSome, hmap, h.fKey⟩
    · rw [hk]; simp only [h.tables]
    · rw [hk]; simp only [h.tableTree, addTablesTree, List.foldl_append, List.foldl_cons, List.foldl_nil]

theorem Shape.addFunction {m ts fs P Q} (h : Shape m ts fs P Q) (s : Spec) (hp : s.path ≠ []) (hs : Q s.key s) :
    (addFunctionSpec m s).2 = true ∧ Shape (addFunctionSpec m s).1 ts (keep fs s) P Q := by
  have hmap : ∀ n u, mapSet m.funcMap s.key s n = some u → u.key = n ∧ Q n u := by
    intro n u hu
    unfold mapSet at hu
    split at hu
    · rename_i hn; cases hu; subst hn; exact ⟨rfl, hs⟩
    · exact h.fKey n u hu
  have hsome : ∀ n, (mapSet m.funcMap s.key s n).isSome = (lookup (keep fs s) n).isSome := by
    intro n
    rw [lookup_keep, mapSet]
    split
    · cases lookup fs n <;> rfl
    · exact h.fSome n
  unfold addFunctionSpec
  cases hm : m.funcMap s.key with
  | some t =>
    refine ⟨rfl, ?_⟩
    have hk : keep fs s = fs := keep_old (by rw [← h.fSome, hm]; rfl)
    rw [hk] at hsome ⊢
    exact ⟨h.tables, h.functions, h.tableTree, h.funcTree, h.tSome, hsome, h.tKey, hmap⟩
  | none =>
    refine ⟨addFunctionRec_ok s _ [] s.path hp, ?_⟩
    have hk : keep fs s = fs ++ [s] := keep_new (by
      have := h.fSome s.key
      rw [hm] at this
      cases hl : lookup fs s.key with
      | none => rfl
      | some _ => rw [hl] at this; simp at this)
    refine ⟨h.tables, ?_, h.tableTree, ?_, h.tSome, hsome, h.tKey, hmap⟩
    · rw [hk]; simp only [h.functions]
    · rw [hk]; simp only [h.funcTree, addFnsTree, List.foldl_append, List.foldl_cons, List.foldl_nil]

/-- A drop registers everything again from the lists: afterwards the maps are those of the lists. -/
theorem Shape.deleteTable {m ts fs P Q} (h : Shape m ts fs P Q) (kt : Keys ts) (kf : Keys fs) (n : Name) :
    if (lookup ts n).isSome then deleteTableSpecByName m n = (canon (remove ts n) fs, true)
    else deleteTableSpecByName m n = (m, false) ∧ remove ts n = ts := by
  unfold deleteTableSpecByName
  have := h.tSome n
  cases hm : m.tableMap n with
  | none =>
    rw [hm] at this
    rw [← this]
    simp only [Option.isSome_none, Bool.false_eq_true, if_false, true_and]
    refine remove_of_absent (lookup_none.1 ?_)
    cases hl : lookup ts n with
    | none => rfl
    | some _ => rw [hl] at this; simp at this
  | some s =>
    rw [hm] at this
    rw [← this]
    simp only [Option.isSome_some, if_true]
    have hk := (h.tKey n s hm).1
    have hfil : (m.tables.filter fun t => s.key ≠ t.key) = remove ts n := by
      simp only [remove, h.tables]
      congr 1; funext t; rw [hk]; simp [eq_comm]
    rw [hfil, h.functions, resetCatalog_eq (remove ts n) fs (keys_filter kt _) kf]

theorem Shape.deleteFunction {m ts fs P Q} (h : Shape m ts fs P Q) (kt : Keys ts) (kf : Keys fs) (n : Name) :
    if (lookup fs n).isSome then deleteFunctionSpecByName m n = (canon ts (remove fs n), true)
    else deleteFunctionSpecByName m n = (m, false) ∧ remove fs n = fs := by
  unfold deleteFunctionSpecByName
  have := h.fSome n
  cases hm : m.funcMap n with
  | none =>
    rw [hm] at this
    rw [← this]
    simp only [Option.isSome_none, Bool.false_eq_true, if_false, true_and]
    refine remove_of_absent (lookup_none.1 ?_)
    cases hl : lookup fs n with
    | none => rfl
    | some _ => rw [hl] at this; simp at this
  | some s =>
    rw [hm] at this
    rw [← this]
    simp only [Option.isSome_some, if_true]
    have hk := (h.fKey n s hm).1
    have hfil : (m.functions.filter fun t => s.key ≠ t.key) = remove fs n := by
      simp only [remove, h.functions]
      congr 1; funext t; rw [hk]; simp [eq_comm]
    rw [hfil, h.tables, resetCatalog_eq ts (remove fs n) kt (keys_filter kf _)]

/-! ### Rows -/

/-- A row whose kind fits its text. -/
def Row.Fits (r : Row) : Prop := r.name = r.spec.key ∧ (r.isFn = true ↔ r.kind = .function)

/-- The rows hold exactly the definitions of `ts` and `fs`. -/
structure Stores (rows : List Row) (ts fs : List Spec) : Prop where
  fits : ∀ r ∈ rows, r.Fits
  tables : rowTables rows = ts
  functions : rowFns rows = fs

theorem Stores.mem {rows ts fs} (h : Stores rows ts fs) {r : Row} (hr : r ∈ rows) : if r.isFn then r.spec ∈ fs else r.spec ∈ ts := by
  cases hf : r.isFn
  · simp only [Bool.false_eq_true, if_false]
    rw [← h.tables]
    exact List.mem_map_of_mem (by simp [hr, hf])
  · simp only [if_true]
    rw [← h.functions]
    exact List.mem_map_of_mem (by simp [hr, hf])

theorem loadRow_fits (m : Mem) (r : Row) (h : r.Fits) :
    loadRow m r = if r.isFn then addFunctionSpec m r.spec else addTableSpec m r.spec := by
  unfold loadRow Row.decode
  cases hf : r.isFn
  · have : r.kind ≠ .function := fun e => by have := h.2.2 e; rw [hf] at this; simp at this
    cases hk : r.kind <;> simp_all
  · rw [h.2.1 hf]; simp

theorem upsert_map (rows : List Row) (r : Row) (b : Bool) (hb : r.isFn = b) (hfit : ∀ x ∈ rows, x.Fits) (hn : r.name = r.spec.key)
    (hno : ∀ x ∈ rows, x.name = r.name → x.isFn = b) :
    (upsert rows r).filter (fun x => x.isFn == !b) = rows.filter (fun x => x.isFn == !b) ∧
    ((upsert rows r).filter (fun x => x.isFn == b)).map Row.spec = define ((rows.filter (fun x => x.isFn == b)).map Row.spec) r.spec := by
  have hany : (rows.any fun x => x.name = r.name) = true ↔ ∃ t ∈ (rows.filter (fun x => x.isFn == b)).map Row.spec, t.key = r.spec.key := by
    rw [List.any_eq_true]
    constructor
    · rintro ⟨x, hx, e⟩
      have e : x.name = r.name := by simpa using e
      exact ⟨x.spec, List.mem_map_of_mem (by simp [hx, hno x hx e]), by rw [← (hfit x hx).1, e, hn]⟩
    · rintro ⟨t, ht, e⟩
      obtain ⟨x, hx, rfl⟩ := List.mem_map.1 ht
      have hx := (List.mem_filter.1 hx).1
      exact ⟨x, hx, by simp [(hfit x hx).1, e, hn]⟩
  by_cases ha : (rows.any fun x => x.name = r.name) = true
  · have ha' := hany.1 ha
    unfold upsert define
    rw [if_pos ha, if_pos ha']
    clear ha ha' hany
    induction rows with
    | nil => exact ⟨rfl, rfl⟩
    | cons x xs ih =>
      obtain ⟨i1, i2⟩ := ih (fun y hy => hfit y (by simp [hy])) (fun y hy => hno y (by simp [hy]))
      simp only [List.map_cons]
      have hx := hfit x (by simp)
      by_cases hxn : x.name = r.name
      · have hxb := hno x (by simp) hxn
        have hxk : x.spec.key = r.spec.key := by rw [← hx.1, hxn, hn]
        simp only [hxn, if_true, List.filter_cons]
        have e1 : (r.isFn == !b) = false := by rw [hb]; cases b <;> rfl
        have e2 : (x.isFn == !b) = false := by rw [hxb]; cases b <;> rfl
        have e3 : (r.isFn == b) = true := by simp [hb]
        have e4 : (x.isFn == b) = true := by simp [hxb]
        simp only [e1, e2, e3, e4, Bool.false_eq_true, if_false, if_true, List.map_cons, hxk]
        exact ⟨i1, by rw [i2]⟩
      · have hxk : ¬ x.spec.key = r.spec.key := fun e => hxn (by rw [hx.1, e, hn])
        simp only [hxn, if_false, List.filter_cons]
        refine ⟨by rw [i1], ?_⟩
        by_cases hxb : (x.isFn == b) = true
        · simp only [hxb, if_true, List.map_cons, hxk, if_false, i2]
        · simp only [hxb, if_false, Bool.false_eq_true]; exact i2
  · have ha' : ¬ ∃ t ∈ (rows.filter (fun x => x.isFn == b)).map Row.spec, t.key = r.spec.key := fun h => ha (hany.2 h)
    unfold upsert define
    rw [if_neg ha, if_neg ha']
    subst hb
    cases hr : r.isFn <;> simp [hr]

theorem upsert_fits {rows : List Row} {r : Row} (hfit : ∀ x ∈ rows, x.Fits) (hr : r.Fits)
    (hno : ∀ x ∈ rows, x.name = r.name → x.isFn = r.isFn) : ∀ x ∈ upsert rows r, x.Fits := by
  intro x hx
  unfold upsert at hx
  split at hx
  · obtain ⟨y, hy, e⟩ := List.mem_map.1 hx
    split at e
    · rename_i hyn
      subst e
      have h1 := hfit y hy
      have h2 := hno y hy hyn
      exact ⟨hyn.trans hr.1, by rw [← h2]; exact h1.2⟩
    · exact e ▸ hfit y hy
  · rcases List.mem_append.1 hx with hx | hx
    · exact hfit x hx
    · simp at hx; exact hx ▸ hr

theorem Stores.saveTable {rows ts fs} (h : Stores rows ts fs) (s : Spec) (now : Nat) (hd : lookup fs s.key = none) :
    Stores (saveTableSpec rows s now) (define ts s) fs := by
  have hno : ∀ x ∈ rows, x.name = s.key → x.isFn = false := by
    intro x hx e
    cases hf : x.isFn
    · rfl
    · have hm := h.mem hx
      rw [hf] at hm
      exact absurd ((h.fits x hx).1.symm.trans e) (lookup_none.1 hd _ hm)
  have hu := upsert_map rows { name := s.key, kind := if s.isView then .view else .table, spec := s, isFn := false, updatedAt := now } false rfl h.fits rfl hno
  refine ⟨upsert_fits h.fits ⟨rfl, by cases s.isView <;> simp⟩ hno, ?_, ?_⟩
  · have := hu.2
    rw [← h.tables]
    simpa [rowTables, saveTableSpec] using this
  · have := hu.1
    rw [← h.functions]
    simp only [rowFns, saveTableSpec]
    simpa using congrArg (List.map Row.spec) this

theorem Stores.saveFunction {rows ts fs} (h : Stores rows ts fs) (s : Spec) (now : Nat) (hd : lookup ts s.key = none) :
    Stores (saveFunctionSpec rows s now) ts (define fs s) := by
  have hno : ∀ x ∈ rows, x.name = s.key → x.isFn = true := by
    intro x hx e
    cases hf : x.isFn
    · have hm := h.mem hx
      rw [hf] at hm
      exact absurd ((h.fits x hx).1.symm.trans e) (lookup_none.1 hd _ hm)
    · rfl
  have hu := upsert_map rows { name := s.key, kind := .function, spec := s, isFn := true, updatedAt := now } true rfl h.fits rfl hno
  refine ⟨upsert_fits h.fits ⟨rfl, by simp⟩ hno, ?_, ?_⟩
  · have := hu.1
    rw [← h.tables]
    simp only [rowTables, saveFunctionSpec]
    simpa using congrArg (List.map Row.spec) this
  · have := hu.2
    rw [← h.functions]
    simpa [rowFns, saveFunctionSpec] using this

theorem filter_other {rows : List Row} {n : Name} (b : Bool) (h : ∀ x ∈ rows, x.isFn = b → x.name ≠ n) :
    (deleteRow rows n).filter (fun x => x.isFn == b) = rows.filter (fun x => x.isFn == b) := by
  simp only [deleteRow, List.filter_filter]
  apply List.filter_congr
  intro x hx
  by_cases hb : x.isFn = b
  · simp [hb, h x hx hb]
  · simp [hb]

theorem filter_same {rows : List Row} {n : Name} (b : Bool) (h : ∀ x ∈ rows, x.Fits) :
    ((deleteRow rows n).filter (fun x => x.isFn == b)).map Row.spec = remove ((rows.filter (fun x => x.isFn == b)).map Row.spec) n := by
  induction rows with
  | nil => rfl
  | cons x xs ih =>
    have ih := ih fun y hy => h y (by simp [hy])
    have hx := (h x (by simp)).1
    simp only [deleteRow, remove, List.filter_cons] at ih ⊢
    by_cases hn : x.name = n
    · have hk : x.spec.key = n := hx ▸ hn
      simp only [hn, ne_eq, not_true, decide_false, Bool.false_eq_true, if_false, ih]
      by_cases hb : (x.isFn == b) = true
      · simp [hb, hk]
      · simp [hb]
    · have hk : ¬ x.spec.key = n := hx ▸ hn
      simp only [hn, ne_eq, not_false_eq_true, decide_true, if_true, List.filter_cons]
      by_cases hb : (x.isFn == b) = true
      · simp only [hb, if_true, List.map_cons, List.filter_cons, ne_eq, hk, not_false_eq_true, decide_true, ih]
      · simp only [hb, if_false, Bool.false_eq_true]; exact ih

theorem Stores.deleteTable {rows ts fs} (h : Stores rows ts fs) (n : Name) (hd : lookup fs n = none) :
    Stores (deleteRow rows n) (remove ts n) fs := by
  refine ⟨fun r hr => h.fits r (List.mem_filter.1 hr).1, ?_, ?_⟩
  · have := filter_same (n := n) false h.fits
    rw [← h.tables]; simpa [rowTables] using this
  · have := filter_other (n := n) (rows := rows) true (by
      intro x hx hf
      have hm := h.mem hx
      rw [hf] at hm
      rw [(h.fits x hx).1]
      exact lookup_none.1 hd _ hm)
    rw [← h.functions]; simpa [rowFns] using congrArg (List.map Row.spec) this

theorem Stores.deleteFunction {rows ts fs} (h : Stores rows ts fs) (n : Name) (hd : lookup ts n = none) :
    Stores (deleteRow rows n) ts (remove fs n) := by
  refine ⟨fun r hr => h.fits r (List.mem_filter.1 hr).1, ?_, ?_⟩
  · have := filter_other (n := n) (rows := rows) false (by
      intro x hx hf
      have hm := h.mem hx
      rw [hf] at hm
      rw [(h.fits x hx).1]
      exact lookup_none.1 hd _ hm)
    rw [← h.tables]; simpa [rowTables] using congrArg (List.map Row.spec) this
  · have := filter_same (n := n) true h.fits
    rw [← h.functions]; simpa [rowFns] using this

/-- Loading rows whose names are known leaves the lists and the trees alone. -/
theorem Shape.load {ts fs P Q} (kt : Keys ts) (kf : Keys fs) (rows : List Row) (hfit : ∀ r ∈ rows, r.Fits)
    (hk : ∀ r ∈ rows, r.spec.path ≠ [] ∧ if r.isFn then (lookup fs r.spec.key).isSome = true ∧ Q r.spec.key r.spec
      else (lookup ts r.spec.key).isSome = true ∧ P r.spec.key r.spec) :
    ∀ m, Shape m ts fs P Q → (loadRows m rows).2 = true ∧ Shape (loadRows m rows).1 ts fs P Q := by
  induction rows with
  | nil => intro m h; exact ⟨rfl, h⟩
  | cons r rs ih =>
    intro m h
    have ih := ih (fun x hx => hfit x (by simp [hx])) (fun x hx => hk x (by simp [hx]))
    obtain ⟨hp, hkr⟩ := hk r (by simp)
    have h1 : (loadRow m r).2 = true ∧ Shape (loadRow m r).1 ts fs P Q := by
      rw [loadRow_fits m r (hfit r (by simp))]
      cases hf : r.isFn
      · simp only [hf, Bool.false_eq_true, if_false] at hkr ⊢
        have := h.addTable r.spec hp hkr.2
        rwa [keep_old hkr.1] at this
      · simp only [hf, if_true] at hkr ⊢
        have := h.addFunction r.spec hp hkr.2
        rwa [keep_old hkr.1] at this
    simp only [loadRows]
    cases hl : loadRow m r with
    | mk m' b =>
      rw [hl] at h1
      obtain ⟨hb, hs⟩ := h1
      simp only at hb
      subst hb
      exact ih m' hs

/-- Loading new rows appends them. -/
theorem loadRows_new (pre post : List Row) (hg : ∀ r ∈ post, r.Fits) (ht : Keys (rowTables (pre ++ post))) (hf : Keys (rowFns (pre ++ post))) :
    loadRows (canon (rowTables pre) (rowFns pre)) post = (canon (rowTables (pre ++ post)) (rowFns (pre ++ post)), true) := by
  induction post generalizing pre with
  | nil => simp [loadRows]
  | cons r rs ih =>
    simp only [loadRows]
    rw [loadRow_fits _ _ (hg r (by simp))]
    have happ : pre ++ r :: rs = (pre ++ [r]) ++ rs := by simp
    cases hfn : r.isFn
    · have hT : rowTables (pre ++ r :: rs) = rowTables pre ++ r.spec :: rowTables rs := by
        simp [rowTables, hfn]
      have hT1 : rowTables (pre ++ [r]) = rowTables pre ++ [r.spec] := by simp [rowTables, hfn]
      have hF1 : rowFns (pre ++ [r]) = rowFns pre := by simp [rowFns, hfn]
      have hfresh := keys_fresh (hT ▸ ht)
      have hp : r.spec.path ≠ [] := ht.2 _ (by rw [hT]; simp)
      simp only [Bool.false_eq_true, if_false]
      rw [addTableSpec_new _ _ _ hp hfresh]
      simp only
      rw [← hT1, ← hF1]
      rw [happ] at ht hf ⊢
      exact ih (pre ++ [r]) (fun x hx => hg x (by simp [hx])) ht hf
    · have hF : rowFns (pre ++ r :: rs) = rowFns pre ++ r.spec :: rowFns rs := by
        simp [rowFns, hfn]
      have hF1 : rowFns (pre ++ [r]) = rowFns pre ++ [r.spec] := by simp [rowFns, hfn]
      have hT1 : rowTables (pre ++ [r]) = rowTables pre := by simp [rowTables, hfn]
      have hfresh := keys_fresh (hF ▸ hf)
      have hp : r.spec.path ≠ [] := hf.2 _ (by rw [hF]; simp)
      simp only [if_true]
      rw [addFunctionSpec_new _ _ _ hp hfresh]
      simp only
      rw [← hT1, ← hF1]
      rw [happ] at ht hf ⊢
      exact ih (pre ++ [r]) (fun x hx => hg x (by simp [hx])) ht hf

/-! ### Histories -/

structure All (w : World) (L : Lives) (f st : Dict) : Prop where
  shape : Shape w.proc.mem f.tables f.functions (fun n s => s ∈ L.tables n) (fun n s => s ∈ L.functions n)
  kt : Keys f.tables
  kf : Keys f.functions
  skt : Keys st.tables
  skf : Keys st.functions
  stores : Stores w.rows st.tables st.functions
  firstT : ∀ n, lookup f.tables n = (L.tables n).head?
  firstF : ∀ n, lookup f.functions n = (L.functions n).head?
  stT : ∀ n, lookup st.tables n = stored (L.tables n)
  stF : ∀ n, lookup st.functions n = stored (L.functions n)
  disj : ∀ n, L.tables n = [] ∨ L.functions n = []

theorem All.init : All World.init Lives.none Dict.empty Dict.empty where
  shape := by
    show Shape Mem.empty _ _ _ _
    rw [canon_empty]
    exact Shape.ofLists (by simp [Dict.empty, lookup]) (by simp [Dict.empty, lookup])
  kt := ⟨by simp [Dict.empty], by simp [Dict.empty]⟩
  kf := ⟨by simp [Dict.empty], by simp [Dict.empty]⟩
  skt := ⟨by simp [Dict.empty], by simp [Dict.empty]⟩
  skf := ⟨by simp [Dict.empty], by simp [Dict.empty]⟩
  stores := ⟨by simp [World.init], rfl, rfl⟩
  firstT := by simp [Dict.empty, Lives.none, lookup]
  firstF := by simp [Dict.empty, Lives.none, lookup]
  stT := by simp [Dict.empty, Lives.none, lookup, stored]
  stF := by simp [Dict.empty, Lives.none, lookup, stored]
  disj := by simp [Lives.none]

/-- The condition of `Apart` on one statement. -/
def ApartOp (l : Lives) : Op → Prop
  | .createTable s => s.path ≠ [] ∧ l.functions s.key = []
  | .createFunction s => s.path ≠ [] ∧ l.tables s.key = []
  | _ => True

theorem apart_cons (l : Lives) (o : Nat × Op) (ops : List (Nat × Op)) : Apart l (o :: ops) ↔ ApartOp l o.2 ∧ Apart (l.step o.2) ops := by
  obtain ⟨dt, op⟩ := o
  cases op <;> simp [Apart, ApartOp]

/-- Success of a statement. -/
def Lives.succeeds (l : Lives) : Op → Bool
  | .dropTable n => l.tables n != []
  | .dropFunction n => l.functions n != []
  | _ => true

theorem first_born {ts : List Spec} {L : Name → List Spec} (h : ∀ n, lookup ts n = (L n).head?) (s : Spec) :
    ∀ n, lookup (keep ts s) n = (born L s n).head? := by
  intro n
  rw [lookup_keep, born]
  split
  · rw [h]; cases L n <;> rfl
  · exact h n

theorem first_died {ts : List Spec} {L : Name → List Spec} (h : ∀ n, lookup ts n = (L n).head?) (m : Name) :
    ∀ n, lookup (remove ts m) n = (died L m n).head? := by
  intro n
  rw [lookup_remove, died]
  split
  · rfl
  · exact h n

theorem stored_born {ts : List Spec} {L : Name → List Spec} (h : ∀ n, lookup ts n = stored (L n)) (s : Spec) :
    ∀ n, lookup (if s.isTemp then ts else define ts s) n = stored (born L s n) := by
  intro n
  cases hs : s.isTemp
  · simp only [Bool.false_eq_true, if_false]
    rw [lookup_define, born]
    split
    · simp [stored, hs]
    · exact h n
  · simp only [if_true]
    rw [born]
    split
    · rw [h]; simp [stored, hs]
    · exact h n

theorem stored_died {ts : List Spec} {L : Name → List Spec} (h : ∀ n, lookup ts n = stored (L n)) (m : Name) :
    ∀ n, lookup (remove ts m) n = stored (died L m n) := by
  intro n
  rw [lookup_remove, died]
  split
  · rfl
  · exact h n

theorem died_dead {L : Name → List Spec} {n : Name} (h : L n = []) : died L n = L := by
  funext m
  rw [died]
  split
  · rename_i e; rw [e, h]
  · rfl

theorem head_isSome (l : List Spec) : l.head?.isSome = (l != []) := by cases l <;> rfl

theorem remove_none {ts : List Spec} {n : Name} (h : lookup ts n = none) : remove ts n = ts := remove_of_absent (lookup_none.1 h)

theorem stored_mem {l : List Spec} {s : Spec} (h : stored l = some s) : s ∈ l :=
  (List.mem_filter.1 (List.mem_of_getLast? h)).1

theorem All.step {w : World} {L : Lives} {f st : Dict} (h : All w L f st) (dt : Nat) (op : Op) (hop : ApartOp L op) :
    All (w.step dt op).1 (L.step op) (f.stepFirst op) (st.stepStored op) ∧ (w.step dt op).2 = Lives.succeeds L op := by
  cases op with
  | createTable s =>
    obtain ⟨hp, hf⟩ := hop
    have hsh : Shape w.proc.mem f.tables f.functions (fun n s' => s' ∈ born L.tables s n) (fun n s' => s' ∈ L.functions n) :=
      h.shape.mono (by intro n u hu; unfold born; split <;> simp [hu]) (by intro n u hu; exact hu)
    obtain ⟨hok, hadd⟩ := hsh.addTable s hp (by simp [born])
    simp only [World.step, addNewTableSpec, Lives.step, Dict.stepFirst, Dict.stepStored, Lives.succeeds]
    cases ha : addTableSpec w.proc.mem s with
    | mk m b =>
      rw [ha] at hok hadd
      simp only at hok hadd
      subst hok
      simp only
      refine ⟨⟨hadd, keys_keep h.kt hp, h.kf, ?_, ?_, ?_, first_born h.firstT s, h.firstF, ?_, ?_, ?_⟩, trivial⟩
      · cases s.isTemp
        · exact keys_define h.skt hp
        · exact h.skt
      · cases s.isTemp <;> exact h.skf
      · cases s.isTemp
        · exact h.stores.saveTable s _ (by rw [h.stF, hf]; rfl)
        · exact h.stores
      · have := stored_born h.stT s
        cases hs : s.isTemp <;> simpa [hs] using this
      · cases s.isTemp <;> exact h.stF
      · intro n
        rcases h.disj n with hd | hd
        · by_cases hn : n = s.key
          · right; rw [hn]; exact hf
          · left; simp only [born, if_neg hn, hd]
        · exact .inr hd
  | createFunction s =>
    obtain ⟨hp, hf⟩ := hop
    have hsh : Shape w.proc.mem f.tables f.functions (fun n s' => s' ∈ L.tables n) (fun n s' => s' ∈ born L.functions s n) :=
      h.shape.mono (by intro n u hu; exact hu) (by intro n u hu; unfold born; split <;> simp [hu])
    obtain ⟨hok, hadd⟩ := hsh.addFunction s hp (by simp [born])
    simp only [World.step, addNewFunctionSpec, Lives.step, Dict.stepFirst, Dict.stepStored, Lives.succeeds]
    cases ha : addFunctionSpec w.proc.mem s with
    | mk m b =>
      rw [ha] at hok hadd
      simp only at hok hadd
      subst hok
      simp only
      refine ⟨⟨hadd, h.kt, keys_keep h.kf hp, ?_, ?_, ?_, h.firstT, first_born h.firstF s, ?_, ?_, ?_⟩, trivial⟩
      · cases s.isTemp <;> exact h.skt
      · cases s.isTemp
        · exact keys_define h.skf hp
        · exact h.skf
      · cases s.isTemp
        · exact h.stores.saveFunction s _ (by rw [h.stT, hf]; rfl)
        · exact h.stores
      · cases s.isTemp <;> exact h.stT
      · have := stored_born h.stF s
        cases hs : s.isTemp <;> simpa [hs] using this
      · intro n
        rcases h.disj n with hd | hd
        · exact .inl hd
        · by_cases hn : n = s.key
          · left; rw [hn]; exact hf
          · right; simp only [born, if_neg hn, hd]
  | dropTable n =>
    have hdel := h.shape.deleteTable h.kt h.kf n
    rw [h.firstT, head_isSome] at hdel
    simp only [World.step, deleteTableSpec, Lives.step, Dict.stepFirst, Dict.stepStored, Lives.succeeds]
    by_cases hn : L.tables n = []
    · simp only [hn, bne_self_eq_false, Bool.false_eq_true, if_false] at hdel ⊢
      rw [hdel.1, hdel.2, died_dead hn, remove_none (ts := st.tables) (by rw [h.stT, hn]; rfl)]
      exact ⟨⟨h.shape, h.kt, h.kf, h.skt, h.skf, h.stores, h.firstT, h.firstF, h.stT, h.stF, h.disj⟩, rfl⟩
    · have hb : (L.tables n != []) = true := by simpa using hn
      rw [hb] at hdel ⊢
      simp only [if_true] at hdel
      rw [hdel]
      have hfn : L.functions n = [] := (h.disj n).resolve_left hn
      refine ⟨⟨?_, keys_filter h.kt _, h.kf, keys_filter h.skt _, h.skf, h.stores.deleteTable n (by rw [h.stF, hfn]; rfl),
        first_died h.firstT n, h.firstF, stored_died h.stT n, h.stF, ?_⟩, rfl⟩
      · refine Shape.ofLists ?_ ?_
        · intro m s hs
          rw [first_died h.firstT n m] at hs
          exact List.mem_of_mem_head? hs
        · intro m s hs
          rw [h.firstF] at hs
          exact List.mem_of_mem_head? hs
      · intro m
        rcases h.disj m with hd | hd
        · left; simp only [died, hd]; split <;> rfl
        · exact .inr hd
  | dropFunction n =>
    have hdel := h.shape.deleteFunction h.kt h.kf n
    rw [h.firstF, head_isSome] at hdel
    simp only [World.step, deleteFunctionSpec, Lives.step, Dict.stepFirst, Dict.stepStored, Lives.succeeds]
    by_cases hn : L.functions n = []
    · simp only [hn, bne_self_eq_false, Bool.false_eq_true, if_false] at hdel ⊢
      rw [hdel.1, hdel.2, died_dead hn, remove_none (ts := st.functions) (by rw [h.stF, hn]; rfl)]
      exact ⟨⟨h.shape, h.kt, h.kf, h.skt, h.skf, h.stores, h.firstT, h.firstF, h.stT, h.stF, h.disj⟩, rfl⟩
    · have hb : (L.functions n != []) = true := by simpa using hn
      rw [hb] at hdel ⊢
      simp only [if_true] at hdel
      rw [hdel]
      have hfn : L.tables n = [] := (h.disj n).resolve_right hn
      refine ⟨⟨?_, h.kt, keys_filter h.kf _, h.skt, keys_filter h.skf _, h.stores.deleteFunction n (by rw [h.stT, hfn]; rfl),
        h.firstT, first_died h.firstF n, h.stT, stored_died h.stF n, ?_⟩, rfl⟩
      · refine Shape.ofLists ?_ ?_
        · intro m s hs
          rw [h.firstT] at hs
          exact List.mem_of_mem_head? hs
        · intro m s hs
          rw [first_died h.firstF n m] at hs
          exact List.mem_of_mem_head? hs
      · intro m
        rcases h.disj m with hd | hd
        · exact .inl hd
        · right; simp only [died, hd]; split <;> rfl
  | sync =>
    have hload := Shape.load h.kt h.kf (P := fun n s => s ∈ L.tables n) (Q := fun n s => s ∈ L.functions n)
      (w.rows.filter fun r => w.proc.lastSyncedAt ≤ r.updatedAt)
      (fun r hr => h.stores.fits r (List.mem_filter.1 hr).1)
      (fun r hr => by
        have hm := h.stores.mem (List.mem_filter.1 hr).1
        cases hf : r.isFn
        · rw [hf] at hm
          simp only [Bool.false_eq_true, if_false] at hm ⊢
          have hl := lookup_mem h.skt hm
          rw [h.stT] at hl
          have hin := stored_mem hl
          refine ⟨h.skt.2 _ hm, ?_, hin⟩
          rw [h.firstT, head_isSome]
          simpa using List.ne_nil_of_mem hin
        · rw [hf] at hm
          simp only [if_true] at hm ⊢
          have hl := lookup_mem h.skf hm
          rw [h.stF] at hl
          have hin := stored_mem hl
          refine ⟨h.skf.2 _ hm, ?_, hin⟩
          rw [h.firstF, head_isSome]
          simpa using List.ne_nil_of_mem hin)
      w.proc.mem h.shape
    simp only [World.step, Catalog.sync, Lives.step, Dict.stepFirst, Dict.stepStored, Lives.succeeds]
    cases hl : loadRows w.proc.mem (w.rows.filter fun r => w.proc.lastSyncedAt ≤ r.updatedAt) with
    | mk m b =>
      rw [hl] at hload
      obtain ⟨hb, hs⟩ := hload
      simp only at hb hs
      subst hb
      exact ⟨⟨hs, h.kt, h.kf, h.skt, h.skf, h.stores, h.firstT, h.firstF, h.stT, h.stF, h.disj⟩, rfl⟩

theorem All.run {w : World} {L : Lives} {f st : Dict} (h : All w L f st) (ops : List (Nat × Op)) (ha : Apart L ops) :
    All (w.run ops) (L.run ops) (f.firsts ops) (st.storeds ops) := by
  induction ops generalizing w L f st with
  | nil => exact h
  | cons o os ih =>
    rw [apart_cons] at ha
    exact ih (h.step o.1 o.2 ha.1).1 ha.2

end Verif.Catalog
