import Verif.Props.CatalogLives

/-!
# What another process sees after its next Sync (C11)

Any interleaving of the statements of one process with the Syncs of another one, in which tables and functions do not share
names.  Names may be created again and dropped.
-/

namespace Verif.Catalog
open Spec NamePath

/-! ### Loading rows -/

theorem addTable_ok (m : Mem) (s : Spec) (hp : s.path ≠ []) :
    (addTableSpec m s).2 = true ∧ (addTableSpec m s).1.tableMap = mapSet m.tableMap s.key s ∧ (addTableSpec m s).1.funcMap = m.funcMap := by
  unfold addTableSpec
  cases m.tableMap s.key with
  | some _ => exact ⟨rfl, rfl, rfl⟩
  | none => exact ⟨addTableRec_ok s _ [] s.path hp, rfl, rfl⟩

theorem addFunction_ok (m : Mem) (s : Spec) (hp : s.path ≠ []) :
    (addFunctionSpec m s).2 = true ∧ (addFunctionSpec m s).1.funcMap = mapSet m.funcMap s.key s ∧ (addFunctionSpec m s).1.tableMap = m.tableMap := by
  unfold addFunctionSpec
  cases m.funcMap s.key with
  | some _ => exact ⟨rfl, rfl, rfl⟩
  | none => exact ⟨addFunctionRec_ok s _ [] s.path hp, rfl, rfl⟩

/-- Assign the definitions of `l` in order. -/
def assign (f : Name → Option Spec) (l : List Spec) : Name → Option Spec := l.foldl (fun f s => mapSet f s.key s) f

theorem loadRows_maps (rows : List Row) (hfit : ∀ r ∈ rows, r.Fits) (hp : ∀ r ∈ rows, r.spec.path ≠ []) : ∀ m : Mem,
    (loadRows m rows).2 = true ∧ (loadRows m rows).1.tableMap = assign m.tableMap (rowTables rows) ∧
    (loadRows m rows).1.funcMap = assign m.funcMap (rowFns rows) := by
  induction rows with
  | nil => intro m; exact ⟨rfl, rfl, rfl⟩
  | cons r rs ih =>
    intro m
    have ih := ih (fun x hx => hfit x (by simp [hx])) (fun x hx => hp x (by simp [hx]))
    have hpr := hp r (by simp)
    simp only [loadRows]
    rw [loadRow_fits m r (hfit r (by simp))]
    cases hf : r.isFn
    · obtain ⟨h1, h2, h3⟩ := addTable_ok m r.spec hpr
      simp only [Bool.false_eq_true, if_false]
      cases ha : addTableSpec m r.spec with
      | mk m' b =>
        rw [ha] at h1 h2 h3
        simp only at h1 h2 h3
        subst h1
        obtain ⟨i1, i2, i3⟩ := ih m'
        refine ⟨i1, ?_, ?_⟩
        · rw [i2, h2]; simp [rowTables, hf, assign]
        · rw [i3, h3]; simp [rowFns, hf]
    · obtain ⟨h1, h2, h3⟩ := addFunction_ok m r.spec hpr
      simp only [if_true]
      cases ha : addFunctionSpec m r.spec with
      | mk m' b =>
        rw [ha] at h1 h2 h3
        simp only at h1 h2 h3
        subst h1
        obtain ⟨i1, i2, i3⟩ := ih m'
        refine ⟨i1, ?_, ?_⟩
        · rw [i2, h3]; simp [rowTables, hf]
        · rw [i3, h2]; simp [rowFns, hf, assign]

theorem assign_eq (f : Name → Option Spec) (l : List Spec) (hk : (l.map Spec.key).Nodup) (n : Name) : assign f l n = (lookup l n).or (f n) :=
  foldl_mapSet l hk f n

/-! ### The other process -/

/-- Everything the other process knows was a permanent definition of that name at some time. -/
structure Knows (p : Proc) (E F : Name → Spec → Prop) : Prop where
  lists : ∃ ts fs, Shape p.mem ts fs E F ∧ Keys ts ∧ Keys fs ∧ (∀ s ∈ ts, E s.key s) ∧ (∀ s ∈ fs, F s.key s)

theorem keep_mem {l : List Spec} {s t : Spec} (h : t ∈ keep l s) : t ∈ l ∨ t = s := by
  unfold keep at h
  split at h
  · exact .inl h
  · simpa using h

theorem Knows.load {E F} (rows : List Row) (hfit : ∀ r ∈ rows, r.Fits) (hp : ∀ r ∈ rows, r.spec.path ≠ [])
    (hE : ∀ r ∈ rows, if r.isFn then F r.spec.key r.spec else E r.spec.key r.spec) : ∀ m l, Knows ⟨m, l⟩ E F → ∀ l', Knows ⟨(loadRows m rows).1, l'⟩ E F := by
  induction rows with
  | nil => intro m l h l'; obtain ⟨ts, fs, h⟩ := h.lists; exact ⟨ts, fs, h⟩
  | cons r rs ih =>
    intro m l h l'
    have ih := ih (fun x hx => hfit x (by simp [hx])) (fun x hx => hp x (by simp [hx])) (fun x hx => hE x (by simp [hx]))
    have hpr := hp r (by simp)
    have hEr := hE r (by simp)
    obtain ⟨ts, fs, hs, kt, kf, et, ef⟩ := h.lists
    simp only [loadRows]
    rw [loadRow_fits m r (hfit r (by simp))]
    cases hf : r.isFn
    · simp only [hf, Bool.false_eq_true, if_false] at hEr ⊢
      obtain ⟨h1, h2⟩ := hs.addTable r.spec hpr hEr
      cases ha : addTableSpec m r.spec with
      | mk m' b =>
        rw [ha] at h1 h2
        simp only at h1 h2
        subst h1
        refine ih m' l ⟨_, _, h2, keys_keep kt hpr, kf, ?_, ef⟩ l'
        intro s hs'
        rcases keep_mem hs' with hs' | rfl
        · exact et s hs'
        · exact hEr
    · simp only [hf, if_true] at hEr ⊢
      obtain ⟨h1, h2⟩ := hs.addFunction r.spec hpr hEr
      cases ha : addFunctionSpec m r.spec with
      | mk m' b =>
        rw [ha] at h1 h2
        simp only at h1 h2
        subst h1
        refine ih m' l ⟨_, _, h2, kt, keys_keep kf hpr, et, ?_⟩ l'
        intro s hs'
        rcases keep_mem hs' with hs' | rfl
        · exact ef s hs'
        · exact hEr

theorem Knows.mono {p E F E' F'} (h : Knows p E F) (hE : ∀ n s, E n s → E' n s) (hF : ∀ n s, F n s → F' n s) : Knows p E' F' := by
  obtain ⟨ts, fs, hs, kt, kf, et, ef⟩ := h.lists
  exact ⟨ts, fs, hs.mono hE hF, kt, kf, fun s hs => hE _ _ (et s hs), fun s hs => hF _ _ (ef s hs)⟩

/-- `s` was at some time created as a permanent table (function). -/
def EverTable (ops : List (Nat × Op)) (s : Spec) : Prop := s.isTemp = false ∧ ∃ dt, (dt, .createTable s) ∈ ops
def EverFn (ops : List (Nat × Op)) (s : Spec) : Prop := s.isTemp = false ∧ ∃ dt, (dt, .createFunction s) ∈ ops

structure Two (w : World2) (L : Lives) (f st : Dict) (hist : List (Nat × Op)) : Prop where
  all : All w.main L f st
  last : w.other.lastSyncedAt ≤ w.main.clock
  knows : Knows w.other (fun n s => EverTable hist s ∧ s.key = n) (fun n s => EverFn hist s ∧ s.key = n)
  fresh : ∀ r ∈ w.main.rows, (if r.isFn then w.other.mem.funcMap r.spec.key else w.other.mem.tableMap r.spec.key) = some r.spec ∨
    w.other.lastSyncedAt ≤ r.updatedAt
  ever : ∀ r ∈ w.main.rows, if r.isFn then EverFn hist r.spec else EverTable hist r.spec

theorem Two.init : Two World2.init Lives.none Dict.empty Dict.empty [] where
  all := All.init
  last := by simp [World2.init, Proc.fresh]
  knows := by
    refine ⟨[], [], ?_, ⟨by simp, by simp⟩, ⟨by simp, by simp⟩, by simp, by simp⟩
    show Shape Mem.empty _ _ _ _
    rw [canon_empty]
    exact Shape.ofLists (by simp [lookup]) (by simp [lookup])
  fresh := by simp [World2.init, World.init]
  ever := by simp [World2.init, World.init]

theorem upsert_rows {rows : List Row} {r x : Row} (h : x ∈ upsert rows r) :
    x ∈ rows ∨ (x.updatedAt = r.updatedAt ∧ x.spec = r.spec ∧ x.isFn = r.isFn) := by
  unfold upsert at h
  split at h
  · obtain ⟨y, hy, e⟩ := List.mem_map.1 h
    split at e
    · subst e; exact .inr ⟨rfl, rfl, rfl⟩
    · exact .inl (e ▸ hy)
  · rcases List.mem_append.1 h with h | h
    · exact .inl h
    · simp at h; subst h; exact .inr ⟨rfl, rfl, rfl⟩

/-- A row after a statement is an old one, or was written now with the definition of the statement. -/
theorem step_rows (w : World) (dt : Nat) (op : Op) (r : Row) (hr : r ∈ (w.step dt op).1.rows) :
    r ∈ w.rows ∨ (r.updatedAt = w.clock + dt ∧ r.spec.isTemp = false ∧
      ((r.isFn = false ∧ op = .createTable r.spec) ∨ (r.isFn = true ∧ op = .createFunction r.spec))) := by
  cases op with
  | createTable s =>
    simp only [World.step, addNewTableSpec] at hr
    split at hr
    · exact .inl hr
    · cases ht : s.isTemp
      · simp only [ht, Bool.false_eq_true, if_false] at hr
        rcases upsert_rows hr with hr | ⟨h1, h2, h3⟩
        · exact .inl hr
        · exact .inr ⟨h1, by rw [h2]; exact ht, .inl ⟨h3, by rw [h2]⟩⟩
      · simp only [ht, if_true] at hr; exact .inl hr
  | createFunction s =>
    simp only [World.step, addNewFunctionSpec] at hr
    split at hr
    · exact .inl hr
    · cases ht : s.isTemp
      · simp only [ht, Bool.false_eq_true, if_false] at hr
        rcases upsert_rows hr with hr | ⟨h1, h2, h3⟩
        · exact .inl hr
        · exact .inr ⟨h1, by rw [h2]; exact ht, .inr ⟨h3, by rw [h2]⟩⟩
      · simp only [ht, if_true] at hr; exact .inl hr
  | dropTable n =>
    simp only [World.step, deleteTableSpec] at hr
    split at hr
    · exact .inl hr
    · exact .inl (List.mem_filter.1 hr).1
  | dropFunction n =>
    simp only [World.step, deleteFunctionSpec] at hr
    split at hr
    · exact .inl hr
    · exact .inl (List.mem_filter.1 hr).1
  | sync => exact .inl hr

theorem step_clock (w : World) (dt : Nat) (op : Op) : (w.step dt op).1.clock = w.clock + dt := by cases op <;> rfl

theorem Two.main {w : World2} {L f st hist} (h : Two w L f st hist) (dt : Nat) (op : Op) (hop : ApartOp L op) :
    Two (w.step dt (.main op)) (L.step op) (f.stepFirst op) (st.stepStored op) (hist ++ [(dt, op)]) := by
  have hT : ∀ s, EverTable hist s → EverTable (hist ++ [(dt, op)]) s := fun s ⟨h, d, hd⟩ => ⟨h, d, by simp [hd]⟩
  have hF : ∀ s, EverFn hist s → EverFn (hist ++ [(dt, op)]) s := fun s ⟨h, d, hd⟩ => ⟨h, d, by simp [hd]⟩
  refine ⟨(h.all.step dt op hop).1, ?_, h.knows.mono (fun n s e => ⟨hT s e.1, e.2⟩) (fun n s e => ⟨hF s e.1, e.2⟩), ?_, ?_⟩
  · have := h.last
    simp only [World2.step, step_clock]; omega
  · intro r hr
    rcases step_rows w.main dt op r hr with hr | ⟨hu, _⟩
    · exact h.fresh r hr
    · right
      have := h.last
      show w.other.lastSyncedAt ≤ _
      omega
  · intro r hr
    rcases step_rows w.main dt op r hr with hr | ⟨_, ht, ⟨hf, e⟩ | ⟨hf, e⟩⟩
    · have := h.ever r hr
      cases hf : r.isFn
      · rw [hf] at this; exact hT _ this
      · rw [hf] at this; exact hF _ this
    · rw [hf]; exact ⟨ht, dt, by rw [e]; simp⟩
    · rw [hf]; exact ⟨ht, dt, by rw [e]; simp⟩

theorem rowTables_filter_keys {rows : List Row} (p : Row → Bool) (h : Keys (rowTables rows)) : Keys (rowTables (rows.filter p)) := by
  have hs : (rowTables (rows.filter p)).Sublist (rowTables rows) := ((List.filter_sublist).filter _).map _
  exact ⟨List.Nodup.sublist (hs.map _) h.1, fun s hs' => h.2 s (hs.subset hs')⟩

theorem rowFns_filter_keys {rows : List Row} (p : Row → Bool) (h : Keys (rowFns rows)) : Keys (rowFns (rows.filter p)) := by
  have hs : (rowFns (rows.filter p)).Sublist (rowFns rows) := ((List.filter_sublist).filter _).map _
  exact ⟨List.Nodup.sublist (hs.map _) h.1, fun s hs' => h.2 s (hs.subset hs')⟩

/-- After a Sync the maps of the other process hold every stored definition. -/
theorem Two.sync {w : World2} {L f st hist} (h : Two w L f st hist) (dt : Nat) :
    Two (w.step dt .otherSync) L f st hist ∧
    (Catalog.sync w.other w.main.rows (w.main.clock + dt)).2 = true ∧
    (∀ s ∈ st.tables, (w.step dt .otherSync).other.mem.tableMap s.key = some s) ∧
    (∀ s ∈ st.functions, (w.step dt .otherSync).other.mem.funcMap s.key = some s) := by
  have hst := h.all.stores
  have hkt : Keys (rowTables w.main.rows) := hst.tables ▸ h.all.skt
  have hkf : Keys (rowFns w.main.rows) := hst.functions ▸ h.all.skf
  let sel : Row → Bool := fun r => w.other.lastSyncedAt ≤ r.updatedAt
  have hpath : ∀ r ∈ w.main.rows, r.spec.path ≠ [] := by
    intro r hr
    have := hst.mem hr
    cases hf : r.isFn
    · rw [hf] at this; exact h.all.skt.2 _ this
    · rw [hf] at this; exact h.all.skf.2 _ this
  have hm := loadRows_maps (w.main.rows.filter sel) (fun r hr => hst.fits r (List.mem_filter.1 hr).1)
    (fun r hr => hpath r (List.mem_filter.1 hr).1) w.other.mem
  have hkn := Knows.load (E := fun n s => EverTable hist s ∧ s.key = n) (F := fun n s => EverFn hist s ∧ s.key = n) (w.main.rows.filter sel)
    (fun r hr => hst.fits r (List.mem_filter.1 hr).1) (fun r hr => hpath r (List.mem_filter.1 hr).1)
    (fun r hr => by
      have := h.ever r (List.mem_filter.1 hr).1
      cases hf : r.isFn
      · rw [hf] at this; exact ⟨this, rfl⟩
      · rw [hf] at this; exact ⟨this, rfl⟩) w.other.mem w.other.lastSyncedAt h.knows (w.main.clock + dt)
  obtain ⟨hok, hmt, hmf⟩ := hm
  have hsync : Catalog.sync w.other w.main.rows (w.main.clock + dt)
      = ({ mem := (loadRows w.other.mem (w.main.rows.filter sel)).1, lastSyncedAt := w.main.clock + dt }, true) := by
    simp only [Catalog.sync]
    show (match loadRows w.other.mem (w.main.rows.filter sel) with
      | (m, true) => _ | (m, false) => _) = _
    cases hl : loadRows w.other.mem (w.main.rows.filter sel) with
    | mk m b => rw [hl] at hok; simp only at hok; subst hok; rfl
  have hrow : ∀ r ∈ w.main.rows, (if r.isFn then (w.step dt .otherSync).other.mem.funcMap r.spec.key
      else (w.step dt .otherSync).other.mem.tableMap r.spec.key) = some r.spec := by
    intro r hr
    simp only [World2.step, hsync]
    cases hf : r.isFn
    · simp only [Bool.false_eq_true, if_false, hmt]
      rw [assign_eq _ _ (rowTables_filter_keys sel hkt).1]
      by_cases hsel : sel r = true
      · rw [lookup_mem (rowTables_filter_keys sel hkt) (s := r.spec) (List.mem_map_of_mem (by simp [hr, hf, hsel]))]
        rfl
      · have hfr := (h.fresh r hr).resolve_right (by simpa [sel] using hsel)
        rw [hf] at hfr
        simp only [Bool.false_eq_true, if_false] at hfr
        cases hl : lookup (rowTables (w.main.rows.filter sel)) r.spec.key with
        | none => simpa using hfr
        | some u =>
          have hu := lookup_key hl
          have hu' : u ∈ rowTables w.main.rows := (((List.filter_sublist).filter _).map _).subset hu.2
          have h1 := lookup_mem hkt hu'
          have h2 := lookup_mem hkt (s := r.spec) (List.mem_map_of_mem (by simp [hr, hf]))
          rw [hu.1, h2] at h1
          cases h1
          rfl
    · simp only [if_true, hmf]
      rw [assign_eq _ _ (rowFns_filter_keys sel hkf).1]
      by_cases hsel : sel r = true
      · rw [lookup_mem (rowFns_filter_keys sel hkf) (s := r.spec) (List.mem_map_of_mem (by simp [hr, hf, hsel]))]
        rfl
      · have hfr := (h.fresh r hr).resolve_right (by simpa [sel] using hsel)
        rw [hf] at hfr
        simp only [if_true] at hfr
        cases hl : lookup (rowFns (w.main.rows.filter sel)) r.spec.key with
        | none => simpa using hfr
        | some u =>
          have hu := lookup_key hl
          have hu' : u ∈ rowFns w.main.rows := (((List.filter_sublist).filter _).map _).subset hu.2
          have h1 := lookup_mem hkf hu'
          have h2 := lookup_mem hkf (s := r.spec) (List.mem_map_of_mem (by simp [hr, hf]))
          rw [hu.1, h2] at h1
          cases h1
          rfl
  refine ⟨⟨?_, ?_, ?_, fun r hr => .inl (hrow r hr), h.ever⟩, by rw [hsync], ?_, ?_⟩
  · exact ⟨h.all.shape, h.all.kt, h.all.kf, h.all.skt, h.all.skf, h.all.stores, h.all.firstT, h.all.firstF, h.all.stT, h.all.stF, h.all.disj⟩
  · simp [World2.step, hsync]
  · simp only [World2.step, hsync]; exact hkn
  · intro s hs
    rw [← hst.tables] at hs
    obtain ⟨r, hr, rfl⟩ := List.mem_map.1 hs
    obtain ⟨hr, hf⟩ := List.mem_filter.1 hr
    have hf : r.isFn = false := by simpa using hf
    have := hrow r hr
    rw [hf] at this
    exact this
  · intro s hs
    rw [← hst.functions] at hs
    obtain ⟨r, hr, rfl⟩ := List.mem_map.1 hs
    obtain ⟨hr, hf⟩ := List.mem_filter.1 hr
    have hf : r.isFn = true := by simpa using hf
    have := hrow r hr
    rw [hf] at this
    exact this

theorem mains_cons_main (dt : Nat) (op : Op) (os : List (Nat × Op2)) : mains ((dt, .main op) :: os) = (dt, op) :: mains os := by simp [mains]
theorem mains_cons_sync (dt : Nat) (os : List (Nat × Op2)) : mains ((dt, .otherSync) :: os) = mains os := by simp [mains]

theorem Two.run {w : World2} {L f st hist} (h : Two w L f st hist) (ops : List (Nat × Op2)) (ha : Apart L (mains ops)) :
    Two (w.run ops) (L.run (mains ops)) (f.firsts (mains ops)) (st.storeds (mains ops)) (hist ++ mains ops) := by
  induction ops generalizing w L f st hist with
  | nil => simpa [mains, World2.run, Lives.run, Dict.firsts, Dict.storeds] using h
  | cons o os ih =>
    obtain ⟨dt, op⟩ := o
    cases op with
    | otherSync => rw [mains_cons_sync] at ha ⊢; exact ih (h.sync dt).1 ha
    | main op =>
      rw [mains_cons_main] at ha ⊢
      rw [apart_cons] at ha
      have := ih (h.main dt op ha.1) ha.2
      simpa [World2.run, Lives.run, Dict.firsts, Dict.storeds] using this

/-- C11 for all interleavings, with drops and replaced definitions: the Sync succeeds; every permanent table is then looked up with its latest
permanent definition, every permanent function is there; and whatever the process sees was a permanent definition of that very
name at some time. -/
theorem C11_exact_partial (ops : List (Nat × Op2)) (ha : Apart Lives.none (mains ops)) (dt : Nat) :
    let w := World2.init.run ops
    let L := Lives.none.run (mains ops)
    let p := Catalog.sync w.other w.main.rows (w.main.clock + dt)
    p.2 = true ∧
    (∀ n s, stored (L.tables n) = some s → p.1.mem.tableMap n = some s) ∧
    (∀ n s, stored (L.functions n) = some s → (queryFuncMap p.1.mem [] n).isSome = true) ∧
    (∀ n s, p.1.mem.tableMap n = some s → s.key = n ∧ EverTable (mains ops) s) ∧
    (∀ n s, queryFuncMap p.1.mem [] n = some s → s.key = n ∧ EverFn (mains ops) s) := by
  intro w L p
  have h : Two w L _ _ ([] ++ mains ops) := Two.init.run ops ha
  obtain ⟨h1, h2, h3, h4⟩ := h.sync dt
  have hp : (w.step dt .otherSync).other = p.1 := rfl
  obtain ⟨ts, fs, hs, kt, kf, et, ef⟩ := h1.knows.lists
  rw [hp] at h3 h4 hs
  refine ⟨h2, ?_, ?_, ?_, ?_⟩
  · intro n s hn
    rw [← h.all.stT] at hn
    obtain ⟨hk, hm⟩ := lookup_key hn
    rw [← hk]; exact h3 s hm
  · intro n s hn
    rw [← h.all.stF] at hn
    obtain ⟨hk, hm⟩ := lookup_key hn
    rw [queryFuncMap_shape hs kf, ← hs.fSome, ← hk, h4 s hm]
    rfl
  · intro n s hn
    have := (hs.tKey n s hn).2
    exact ⟨this.2, by simpa using this.1⟩
  · intro n s hn
    rw [queryFuncMap_shape hs kf] at hn
    obtain ⟨hk, hm⟩ := lookup_key hn
    exact ⟨hk, by simpa using (ef s hm).1⟩

/-- An interleaving with a replaced table, a drop and two Syncs within the hypothesis. -/
example : Apart Lives.none (mains [(1, .main (.createTable (wt 1))), (0, .otherSync), (1, .main (.createTable (wt 2))), (1, .otherSync),
    (1, .main (.createFunction wu)), (2, .main (.dropTable ['t'])), (0, .main (.createTable (wt 3)))]) := by
  simp [mains, Apart, Lives.none, Lives.step, born, wt, wu, Spec.key, formatPath]

/-- A function replaced after the other process has loaded it keeps its old body there, although the row is read again. -/
theorem C11_replaced_function_stays :
    let w := World2.init.run [(1, .main (.createFunction (wt 1))), (1, .otherSync), (1, .main (.createFunction (wt 2)))]
    queryFuncMap (Catalog.sync w.other w.main.rows (w.main.clock + 1)).1.mem [] ['t'] = some (wt 1) ∧
    (Catalog.sync w.other w.main.rows (w.main.clock + 1)).1.mem.funcMap ['t'] = some (wt 2) := by decide

end Verif.Catalog
