import Verif.Model.Truncate
import Verif.Lemmas.CatalogTree
import Verif.Lemmas.NamePath
import Verif.Props.NamePath
import Verif.Props.Concurrent

/-!
# C252: TRUNCATE and MERGE change the table that they name
-/

namespace Verif.Catalog

open Verif.Go Verif.NamePath Verif.NamePath.Spec

/-! ### Names of table objects -/

/-- Every object of the tree is below one of the names of its specification. -/
def InTree (t : Tree) : Prop := ∀ k s, t k = some s → ∃ x ∈ regNames s.path, lower x = k.2

theorem InTree.empty : InTree Tree.empty := by
  intro k s h
  cases h

theorem InTree.add {t : Tree} (ht : InTree t) (pos : Path) (n : Name) (s : Spec) (hn : n ∈ regNames s.path) : InTree (t.addIfAbsent pos n s) := by
  intro k s' h
  rw [addIfAbsent_apply] at h
  split at h
  · rename_i e
    simp only [Option.some.injEq] at h
    cases hk : t k with
    | none =>
      rw [hk] at h
      cases h
      exact ⟨n, hn, by rw [e]⟩
    | some s'' =>
      rw [hk] at h
      cases h
      exact ht k _ hk
  · exact ht k s' h

theorem regNames_suffix : ∀ {a b : Path}, a ≠ [] → a <:+ b → joinDot a ∈ regNames b
  | a, [], ha, h => by simp_all
  | a, n :: rest, ha, h => by
    rcases List.suffix_cons_iff.1 h with rfl | h
    · simp [regNames]
    · exact List.mem_cons_of_mem _ (regNames_suffix ha h)

theorem InTree.rec (s : Spec) : ∀ (path : Path) (t : Tree) (pos : Path), InTree t → path <:+ s.path → InTree (addTableRec s t pos path).1
  | [], t, pos, ht, _ => ht
  | [n], t, pos, ht, h => by
    simp only [addTableRec]
    exact ht.add pos n s (regNames_suffix (a := [n]) (by simp) h)
  | n :: m :: rest, t, pos, ht, h => by
    have h' : (m :: rest) <:+ s.path := List.IsSuffix.trans (List.suffix_cons n (m :: rest)) h
    have h1 := ht.add pos _ s (regNames_suffix (by simp) h)
    have h2 := InTree.rec s (m :: rest) _ pos h1 h'
    simp only [addTableRec]
    split
    · rename_i t' e; rw [e] at h2; exact h2
    · rename_i t' e
      rw [e] at h2
      exact InTree.rec s (m :: rest) _ (pos ++ [n]) h2 h'

theorem InTree.addTable {m : Mem} (h : InTree m.tableTree) (s : Spec) : InTree (addTableSpec m s).1.tableTree := by
  unfold addTableSpec
  split
  · exact h
  · exact InTree.rec s s.path _ _ h (List.suffix_refl _)

theorem InTree.addFunction {m : Mem} (h : InTree m.tableTree) (s : Spec) : InTree (addFunctionSpec m s).1.tableTree := by
  unfold addFunctionSpec
  split <;> exact h

theorem InTree.addAll {add : Mem → Spec → Mem × Bool} (ha : ∀ m s, InTree m.tableTree → InTree (add m s).1.tableTree) :
    ∀ (l : List Spec) (m : Mem), InTree m.tableTree → InTree (addAll add m l).1.tableTree
  | [], m, h => h
  | s :: l, m, h => by
    have h1 := ha m s h
    simp only [Catalog.addAll]
    split
    · rename_i e; rw [e] at h1; exact h1
    · rename_i e; rw [e] at h1; exact InTree.addAll ha l _ h1

theorem InTree.reset (ts fs : List Spec) : InTree (resetCatalog ts fs).1.tableTree := by
  have h1 := InTree.addAll (add := addTableSpec) (fun m s h => h.addTable s) ts Mem.empty InTree.empty
  unfold resetCatalog
  split
  · rename_i e; rw [e] at h1; exact h1
  · rename_i e; rw [e] at h1
    exact InTree.addAll (add := addFunctionSpec) (fun m s h => h.addFunction s) fs _ h1

theorem InTree.loadRows : ∀ (rs : List Row) (m : Mem), InTree m.tableTree → InTree (loadRows m rs).1.tableTree
  | [], m, h => h
  | r :: rs, m, h => by
    have h1 : InTree (loadRow m r).1.tableTree := by
      unfold loadRow
      split
      · exact h.addTable _
      · exact h.addTable _
      · exact h.addFunction _
    simp only [Catalog.loadRows]
    split
    · rename_i e; rw [e] at h1; exact h1
    · rename_i e; rw [e] at h1; exact InTree.loadRows rs _ h1

theorem InTree.step {w : World} (h : InTree w.proc.mem.tableTree) (dt : Nat) (op : Op) : InTree (w.step dt op).1.proc.mem.tableTree := by
  cases op with
  | createTable s =>
    have := h.addTable s
    simp only [World.step, addNewTableSpec]
    split <;> (rename_i e; rw [e] at this; exact this)
  | createFunction s =>
    have := h.addFunction s
    simp only [World.step, addNewFunctionSpec]
    split <;> (rename_i e; rw [e] at this; exact this)
  | dropTable n =>
    have : InTree (deleteTableSpecByName w.proc.mem n).1.tableTree := by
      unfold deleteTableSpecByName
      split
      · exact h
      · exact InTree.reset _ _
    simp only [World.step, deleteTableSpec]
    split <;> (rename_i e; rw [e] at this; exact this)
  | dropFunction n =>
    have : InTree (deleteFunctionSpecByName w.proc.mem n).1.tableTree := by
      unfold deleteFunctionSpecByName
      split
      · exact h
      · exact InTree.reset _ _
    simp only [World.step, deleteFunctionSpec]
    split <;> (rename_i e; rw [e] at this; exact this)
  | sync =>
    have := InTree.loadRows (w.rows.filter fun r => w.proc.lastSyncedAt ≤ r.updatedAt) _ h
    simp only [World.step, Catalog.sync]
    split <;> (rename_i e; rw [e] at this; exact this)

theorem InTree.run (ops : List (Nat × Op)) : InTree (World.init.run ops).proc.mem.tableTree := by
  have : ∀ (ops : List (Nat × Op)) (w : World), InTree w.proc.mem.tableTree → InTree (w.run ops).proc.mem.tableTree := by
    intro ops
    induction ops with
    | nil => exact fun w h => h
    | cons o ops ih => exact fun w h => ih _ (h.step o.1 o.2)
  exact this ops _ InTree.empty

/-- A table that is found has a name: the last component of the path, except for upper and lower case. -/
theorem tableName_found {t : Tree} (ht : InTree t) {p : Path} {s : Spec} (h : t.find p = some s) :
    ∃ n c, p.getLast? = some c ∧ tableName t p = some n ∧ lower n = lower c := by
  have h0 := h
  unfold Tree.find at h
  split at h
  · cases h
  · rename_i c hc
    obtain ⟨x, hx, hxl⟩ := ht _ _ h
    cases hf : (regNames s.path).find? fun x => lower x == lower c with
    | none =>
      have := List.find?_eq_none.1 hf x hx
      simp [hxl] at this
    | some n =>
      refine ⟨n, c, hc, ?_, by simpa using List.find?_some hf⟩
      simp only [tableName, h0, hc, hf]

/-! ### The table that is meant -/

/-- Only the table with this name has changed, and it is empty. -/
def Emptied {R : Type} (db db' : Name → Option (List R)) (k : Name) : Prop :=
  db' (lower k) = some [] ∧ ∀ m, m ≠ lower k → db' m = db m

/-- Full C252, for TRUNCATE: whatever the history of the catalog and of the name path, if the analyzer finds the table and it is there
(below the name all other statements use), `TRUNCATE TABLE p` empties it and changes no other table. -/
def C252_full : Prop := ∀ (R : Type) (ops : List (Nat × Op)) (cfg : List NamePath.Op) (p : Path) (db : Name → Option (List R)),
  ((World.init.run ops).proc.mem.tableTree.find p).isSome → (db (lower (format (NamePath.run cfg) p))).isSome →
  ∃ db', truncate (World.init.run ops).proc.mem.tableTree db p = some db' ∧ Emptied db db' (format (NamePath.run cfg) p)

theorem mergePath_suffix (np : NamePath) (p : Path) (hp : p ≠ []) : ∃ pre, mergePath np p = pre ++ normalizePath p := by
  unfold mergePath
  simp only
  split
  · exact ⟨[], rfl⟩
  · split
    · rename_i h
      exfalso
      cases p with
      | nil => exact hp rfl
      | cons c cs =>
        have := splitDot_ne_nil c
        simp only [normalizePath, List.flatMap_cons, List.length_append] at h
        have : (splitDot c).length ≠ 0 := by simpa using this
        omega
    · exact ⟨_, rfl⟩

theorem formatPath_length : ∀ {a : Path}, a ≠ [] → (formatPath a).length = (dotted a).length
  | [], h => absurd rfl h
  | [c], _ => rfl
  | c :: d :: cs, _ => by
    have := formatPath_length (a := d :: cs) (by simp)
    rw [formatPath_cons c (by simp), dotted_cons c (by simp)]
    simp [this]

theorem dotted_normalize : ∀ {p : Path}, p ≠ [] → dotted (normalizePath p) = dotted p
  | [], h => absurd rfl h
  | [c], _ => by simp [normalizePath, dotted_splitDot, dotted]
  | c :: d :: cs, _ => by
    have ih := dotted_normalize (p := d :: cs) (by simp)
    have h2 : normalizePath (d :: cs) ≠ [] := by
      simp [normalizePath, splitDot_ne_nil]
    show dotted (splitDot c ++ normalizePath (d :: cs)) = _
    rw [dotted_append (splitDot_ne_nil c) h2, dotted_splitDot, ih, dotted_cons c (by simp)]

theorem dotted_last : ∀ {p : Path} {c : Comp}, p.getLast? = some c → (dotted p).length ≥ c.length ∧ (1 < p.length → (dotted p).length > c.length)
  | [], c, h => by simp at h
  | [a], c, h => by
    simp at h
    subst h
    simp [dotted]
  | a :: b :: cs, c, h => by
    have h' : (b :: cs).getLast? = some c := by simpa [List.getLast?_cons_cons] using h
    have := (dotted_last h').1
    rw [dotted_cons a (by simp)]
    simp
    omega

theorem lower_length (n : Name) : (lower n).length = n.length := by simp [lower]

theorem lowerChar_dot (c : Char) (h : lowerChar c = '.') : c = '.' := by
  unfold lowerChar at h
  split at h
  · rename_i hc
    exfalso
    have h1 : 65 ≤ c.toNat := hc.1
    have h2 : c.toNat ≤ 90 := hc.2
    have : ∀ m, m < 91 → 65 ≤ m → Char.ofNat (m + 32) ≠ '.' := by decide
    exact this c.toNat (by omega) h1 h
  · exact h

theorem dot_lower {n : Name} (h : '.' ∈ n) : '.' ∈ lower n := by
  simp only [lower, List.mem_map]
  exact ⟨'.', h, by decide⟩

theorem lower_dot {n : Name} (h : '.' ∈ lower n) : '.' ∈ n := by
  simp only [lower, List.mem_map] at h
  obtain ⟨c, hc, e⟩ := h
  exact lowerChar_dot c e ▸ hc

theorem formatPath_noDot : ∀ {a : Path}, (∀ c ∈ a, '.' ∉ c) → '.' ∉ formatPath a
  | [], _ => by simp [formatPath]
  | [c], h => by simpa [formatPath] using h c (by simp)
  | c :: d :: cs, h => by
    have := formatPath_noDot (a := d :: cs) fun x hx => h x (by simp [hx])
    rw [formatPath_cons c (by simp)]
    simp only [List.mem_append, List.mem_cons]
    rintro (h1 | h1 | h1)
    · exact h c (by simp) h1
    · revert h1; decide
    · exact this h1

theorem splitDot_single {s : List Char} (h : (splitDot s).length = 1) : splitDot s = [s] := by
  match hs : splitDot s, h with
  | [x], _ =>
    have := dotted_splitDot s
    rw [hs] at this
    simp only [dotted] at this
    rw [this]

/-- The last component is the name of the stored table exactly if the path, completed by the name path, has one component. -/
theorem last_is_format (np : NamePath) {p : Path} {c : Comp} (hc : p.getLast? = some c) :
    lower c = lower (format np p) ↔ (mergePath np p).length = 1 := by
  have hp : p ≠ [] := by rintro rfl; simp at hc
  have hn : normalizePath p ≠ [] := by
    cases p with
    | nil => exact absurd rfl hp
    | cons a as => simp [normalizePath, splitDot_ne_nil]
  obtain ⟨pre, hpre⟩ := mergePath_suffix np p hp
  constructor
  · intro h
    have hl : c.length = (format np p).length := by simpa [lower_length] using congrArg List.length h
    unfold format at hl h
    rw [hpre] at hl h ⊢
    have hd := dotted_last hc
    rw [← dotted_normalize hp] at hd
    cases pre with
    | cons a as =>
      exfalso
      rw [formatPath_length (by simp)] at hl
      rw [dotted_append (by simp) hn] at hl
      simp only [List.length_append, List.length_cons] at hl
      omega
    | nil =>
      rw [List.nil_append] at hl h ⊢
      rw [formatPath_length hn] at hl
      by_cases h1 : 1 < p.length
      · have := hd.2 h1; omega
      · match p, hp, h1 with
        | [a], _, _ =>
          simp only [List.getLast?_singleton, Option.some.injEq] at hc
          subst hc
          have e : normalizePath [a] = splitDot a := by simp [normalizePath]
          rw [e] at h ⊢
          have hnd : '.' ∉ formatPath (splitDot a) := formatPath_noDot (splitDot_noDot a)
          have : '.' ∉ a := fun hm => hnd (lower_dot (h ▸ dot_lower hm))
          rw [splitDot_of_noDot this]
          rfl
        | a :: b :: cs, _, h1 => simp at h1
  · intro h
    rw [hpre] at h
    have hlen : 0 < (normalizePath p).length := by
      cases hx : normalizePath p with
      | nil => exact absurd hx hn
      | cons _ _ => simp
    rw [List.length_append] at h
    have h1 : (normalizePath p).length = 1 := by omega
    have h0 : pre = [] := List.eq_nil_of_length_eq_zero (by omega)
    subst h0
    unfold format
    rw [hpre, List.nil_append]
    match p, hp with
    | [a], _ =>
      simp only [List.getLast?_singleton, Option.some.injEq] at hc
      subst hc
      have e : normalizePath [a] = splitDot a := by simp [normalizePath]
      rw [e] at h1 ⊢
      rw [splitDot_single h1]
      rfl
    | a :: b :: cs, _ =>
      exfalso
      simp only [normalizePath, List.flatMap_cons, List.length_append] at h1
      have ha : (splitDot a).length ≠ 0 := by simpa using splitDot_ne_nil a
      have hb : (splitDot b).length ≠ 0 := by simpa using splitDot_ne_nil b
      omega

/-- **C252** MERGE: its statements change the stored table of the path exactly if the path, completed by the name path, has one
component. -/
theorem C252_merge (ops : List (Nat × Op)) (np : NamePath) (p : Path)
    (hf : ((World.init.run ops).proc.mem.tableTree.find p).isSome) :
    ∃ n, mergeTarget (World.init.run ops).proc.mem.tableTree p = some n ∧ (lower n = lower (format np p) ↔ (mergePath np p).length = 1) := by
  obtain ⟨s, hs⟩ := Option.isSome_iff_exists.1 hf
  obtain ⟨n, c, hc, hn, hl⟩ := tableName_found (InTree.run ops) hs
  exact ⟨n, hn, by rw [hl]; exact last_is_format np hc⟩

/-- **C252** TRUNCATE empties the table it names, in all databases, exactly if the path, completed by the name path, has one
component. -/
theorem C252_iff {R : Type} (ops : List (Nat × Op)) (np : NamePath) (p : Path)
    (hf : ((World.init.run ops).proc.mem.tableTree.find p).isSome) :
    (∀ db : Name → Option (List R), (db (lower (format np p))).isSome →
      ∃ db', truncate (World.init.run ops).proc.mem.tableTree db p = some db' ∧ Emptied db db' (format np p)) ↔
    (mergePath np p).length = 1 := by
  obtain ⟨n, hn, hi⟩ := C252_merge ops np p hf
  unfold mergeTarget at hn
  rw [← hi]
  constructor
  · intro h
    obtain ⟨db', h1, h2⟩ := h (fun m => if m = lower (format np p) then some [] else none) (by simp)
    simp only [truncate, hn, deleteAll] at h1
    by_cases e : lower n = lower (format np p)
    · exact e
    · simp [e] at h1
  · intro e db hdb
    obtain ⟨rows, hr⟩ := Option.isSome_iff_exists.1 hdb
    refine ⟨fun m => if m = lower n then some [] else db m, ?_, ?_, ?_⟩
    · simp only [truncate, hn, deleteAll, e, hr]
    · simp [e]
    · intro m hm
      rw [← e] at hm
      simp [hm]

/-- **C252** in all other cases the table that is named keeps its rows; TRUNCATE empties the table that has the last component for its
whole name, or fails as there is none. -/
theorem C252_other {R : Type} (ops : List (Nat × Op)) (np : NamePath) (p : Path) (c : Comp) (hc : p.getLast? = some c)
    (hf : ((World.init.run ops).proc.mem.tableTree.find p).isSome) (h1 : (mergePath np p).length ≠ 1) (db : Name → Option (List R)) :
    (db (lower c) = none → truncate (World.init.run ops).proc.mem.tableTree db p = none) ∧
    ∀ rows, db (lower c) = some rows → ∃ db', truncate (World.init.run ops).proc.mem.tableTree db p = some db' ∧
      db' (lower (format np p)) = db (lower (format np p)) ∧ db' (lower c) = some [] := by
  obtain ⟨s, hs⟩ := Option.isSome_iff_exists.1 hf
  obtain ⟨n, c', hc', hn, hl⟩ := tableName_found (InTree.run ops) hs
  rw [hc] at hc'
  cases hc'
  have hne : lower c ≠ lower (format np p) := fun e => h1 ((last_is_format np hc).1 e)
  constructor
  · intro h
    simp only [truncate, hn, deleteAll, hl, h]
  · intro rows h
    refine ⟨fun m => if m = lower c then some [] else db m, ?_, ?_, by simp⟩
    · simp only [truncate, hn, deleteAll, hl, h]
    · simp [Ne.symm hne]

/-! ### A table in a dataset -/

def orders : Comp := ['t']
def shop : Comp := ['d']

/-- CREATE TABLE t; CREATE TABLE d.t -/
def history : List (Nat × Op) := [(1, .createTable ⟨[orders], false, false, 1⟩), (1, .createTable ⟨[shop, orders], false, false, 2⟩)]

/-- Two tables with a row each. -/
def twoTables : Name → Option (List Nat) := fun n => if n = ['t'] then some [1] else if n = ['d', '_', 't'] then some [2] else none

/-- `TRUNCATE TABLE d.t` empties `t`. -/
theorem C252_wrong_table : ∃ db', truncate (World.init.run history).proc.mem.tableTree twoTables [shop, orders] = some db' ∧
    db' ['t'] = some [] ∧ db' ['d', '_', 't'] = some [2] := by
  obtain ⟨db', h1, h2, h3⟩ := (C252_other history NamePath.init [shop, orders] orders rfl (by decide) (by decide) twoTables).2 [1] rfl
  exact ⟨db', h1, h3, h2⟩

/-- TRUNCATE of a path at which there is no table fails, whatever tables SQLite has. -/
theorem C252_unknown {R : Type} (t : Tree) (db : Name → Option (List R)) (p : Path) (h : t.find p = none) : truncate t db p = none := by
  unfold truncate tableName
  rw [h]

/-- SQLite's table `t` is of no use while the catalog is empty. -/
example : truncate Tree.empty twoTables [['t']] = none := C252_unknown _ _ _ rfl

theorem C252_full_false : ¬ C252_full := by
  intro h
  obtain ⟨db', h1, h2⟩ := h Nat history [] [shop, orders] twoTables (by decide) (by decide)
  obtain ⟨db'', h3, h4, h5⟩ := C252_wrong_table
  rw [h1] at h3
  cases h3
  have : db' ['d', '_', 't'] = some [] := h2.1
  rw [this] at h5
  cases h5

/-- TRUNCATE TABLE t meets the condition of `C252_iff`. -/
example : ((World.init.run history).proc.mem.tableTree.find [orders]).isSome ∧ (mergePath NamePath.init [orders]).length = 1 := by decide

end Verif.Catalog
