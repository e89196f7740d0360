import Verif.Lemmas.CatalogLives
import Verif.Props.Catalog

/-!
# The catalog after histories that create names again (C07, C08, C09)

CREATE OR REPLACE and CREATE IF NOT EXISTS give an existing name a further definition.  The theorems below say exactly which of
the definitions each lookup finds, for every history in which tables and functions do not share names.
-/

namespace Verif.Catalog
open Spec NamePath

theorem queryFuncMap_shape {m ts fs P Q} (h : Shape m ts fs P Q) (kf : Keys fs) (n : Name) : queryFuncMap m [] n = lookup fs n := by
  simp only [queryFuncMap, getFunctions, h.functions, List.isEmpty_nil, if_true]
  rw [foldl_mapSet fs kf.1]
  simp

theorem all_run (ops : List (Nat × Op)) (ha : Apart Lives.none ops) :
    All (World.init.run ops) (Lives.none.run ops) (Dict.empty.firsts ops) (Dict.empty.storeds ops) := All.init.run ops ha

theorem isSome_iff_ne {α} {o : Option α} {l : List Spec} (h : o.isSome = l.head?.isSome) : o = none ↔ l = [] := by
  cases o <;> cases l <;> simp_all

/-! ## C07 -/

/-- C07, exactly: queries use the oldest definition a function has been given since it was last dropped, never a later one; a table is
known iff it was created since it was last dropped, with one of the definitions given since then; a drop succeeds iff the name
is known; and if all table (function) paths have the same length the analyzer resolves such a path to the oldest definition. -/
theorem C07_exact_partial (ops : List (Nat × Op)) (ha : Apart Lives.none ops) :
    let w := World.init.run ops
    let L := Lives.none.run ops
    let d := Dict.empty.firsts ops
    (∀ n, queryFuncMap w.proc.mem [] n = (L.functions n).head?) ∧
    (∀ n, (w.proc.mem.tableMap n = none ↔ L.tables n = []) ∧ ∀ s, w.proc.mem.tableMap n = some s → s ∈ L.tables n) ∧
    (∀ dt n, (w.step dt (.dropTable n)).2 = true ↔ L.tables n ≠ []) ∧
    (∀ dt n, (w.step dt (.dropFunction n)).2 = true ↔ L.functions n ≠ []) ∧
    (∀ n, lookup d.tables n = (L.tables n).head? ∧ lookup d.functions n = (L.functions n).head?) ∧
    (∀ p, p ≠ [] → (∀ s ∈ d.tables, s.path.length = p.length) →
      w.proc.mem.tableTree.find p = d.tables.find? fun s => s.path.map lower = p.map lower) ∧
    (∀ p, p ≠ [] → (∀ s ∈ d.functions, s.path.length = p.length) →
      w.proc.mem.funcTree.find p = d.functions.find? fun s => s.path.map lower = p.map lower) := by
  intro w L d
  have h : All w L d _ := all_run ops ha
  refine ⟨?_, ?_, ?_, ?_, fun n => ⟨h.firstT n, h.firstF n⟩, ?_, ?_⟩
  · intro n; rw [queryFuncMap_shape h.shape h.kf, h.firstF]
  · intro n
    exact ⟨isSome_iff_ne (by rw [h.shape.tSome, h.firstT]), fun s hs => (h.shape.tKey n s hs).2⟩
  · intro dt n; rw [(h.step dt (.dropTable n) trivial).2]; simp [Lives.succeeds]
  · intro dt n; rw [(h.step dt (.dropFunction n) trivial).2]; simp [Lives.succeeds]
  · intro p hp hl; rw [h.shape.tableTree]; exact tables_find d.tables p.length hl p rfl hp
  · intro p hp hl; rw [h.shape.funcTree]; exact fns_find d.functions p.length hl p rfl hp

/-- A history with two definitions of a function and of a table that meets the hypothesis. -/
example : Apart Lives.none
    [(1, .createFunction (wt 1)), (0, .sync), (1, .createFunction (wt 2)), (1, .createTable wu), (2, .createTable { wu with body := 7 }), (3, .dropFunction ['t'])] := by
  simp [Apart, Lives.none, Lives.step, born, died, wt, wu, Spec.key, formatPath]

theorem run_latest (ops : List (Nat × Op)) :
    (∀ n, lookup (Dict.empty.run ops).tables n = ((Lives.none.run ops).tables n).getLast?) ∧
    (∀ n, lookup (Dict.empty.run ops).functions n = ((Lives.none.run ops).functions n).getLast?) := by
  suffices ∀ (ops : List (Nat × Op)) (d : Dict) (L : Lives), (∀ n, lookup d.tables n = (L.tables n).getLast?) →
      (∀ n, lookup d.functions n = (L.functions n).getLast?) →
      (∀ n, lookup (d.run ops).tables n = ((L.run ops).tables n).getLast?) ∧
      (∀ n, lookup (d.run ops).functions n = ((L.run ops).functions n).getLast?) from
    this ops _ _ (by simp [Dict.empty, Lives.none, lookup]) (by simp [Dict.empty, Lives.none, lookup])
  have hb : ∀ (l : List Spec) (f : Name → List Spec) (s : Spec), (∀ n, lookup l n = (f n).getLast?) →
      ∀ n, lookup (define l s) n = (born f s n).getLast? := by
    intro l f s h n
    rw [lookup_define, born]
    split
    · simp
    · exact h n
  have hd : ∀ (l : List Spec) (f : Name → List Spec) (m : Name), (∀ n, lookup l n = (f n).getLast?) →
      ∀ n, lookup (remove l m) n = (died f m n).getLast? := by
    intro l f m h n
    rw [lookup_remove, died]
    split
    · rfl
    · exact h n
  intro ops
  induction ops with
  | nil => intro d L ht hf; exact ⟨ht, hf⟩
  | cons o os ih =>
    intro d L ht hf
    obtain ⟨dt, op⟩ := o
    refine ih (d.step op) (L.step op) ?_ ?_
    · cases op with
      | createTable s => exact hb _ _ s ht
      | dropTable n => exact hd _ _ n ht
      | createFunction s => exact ht
      | dropFunction n => exact ht
      | sync => exact ht
    · cases op with
      | createTable s => exact hf
      | dropTable n => exact hf
      | createFunction s => exact hb _ _ s hf
      | dropFunction n => exact hd _ _ n hf
      | sync => exact hf

/-- Queries use the latest definition of a function iff it is also the oldest one since the last drop. -/
theorem C07_function_iff_partial (ops : List (Nat × Op)) (ha : Apart Lives.none ops) (n : Name) :
    let L := Lives.none.run ops
    queryFuncMap (World.init.run ops).proc.mem [] n = lookup (Dict.empty.run ops).functions n ↔
      (L.functions n).head? = (L.functions n).getLast? := by
  intro L
  rw [(C07_exact_partial ops ha).1, (run_latest ops).2]

/-- No statement of the history drops anything or creates a table named `n`. -/
def Quiet (n : Name) (ops : List (Nat × Op)) : Prop := ∀ o ∈ ops, match o.2 with
  | .createTable s => s.key ≠ n
  | .dropTable _ | .dropFunction _ => False
  | _ => True

theorem lives_append (L : Lives) (a b : List (Nat × Op)) : L.run (a ++ b) = (L.run a).run b := by simp [Lives.run]
theorem world_append (w : World) (a b : List (Nat × Op)) : w.run (a ++ b) = (w.run a).run b := by simp [World.run]
theorem firsts_append (d : Dict) (a b : List (Nat × Op)) : d.firsts (a ++ b) = (d.firsts a).firsts b := by simp [Dict.firsts]
theorem storeds_append (d : Dict) (a b : List (Nat × Op)) : d.storeds (a ++ b) = (d.storeds a).storeds b := by simp [Dict.storeds]

theorem apart_append {L : Lives} {a b : List (Nat × Op)} : Apart L (a ++ b) ↔ Apart L a ∧ Apart (L.run a) b := by
  induction a generalizing L with
  | nil => simp [Apart, Lives.run]
  | cons o os ih =>
    rw [List.cons_append, apart_cons, apart_cons, ih]
    simp only [Lives.run, List.foldl_cons, and_assoc]

theorem quiet_run {w : World} {L : Lives} {f st : Dict} (h : All w L f st) (s : Spec)
    (hm : w.proc.mem.tableMap s.key = some s) (hs : stored (L.tables s.key) = some s) (post : List (Nat × Op)) (ha : Apart L post)
    (hq : Quiet s.key post) : (w.run post).proc.mem.tableMap s.key = some s := by
  induction post generalizing w L f st with
  | nil => exact hm
  | cons o os ih =>
    rw [apart_cons] at ha
    have hstep := (h.step o.1 o.2 ha.1).1
    have hq0 := hq o (by simp)
    refine ih hstep ?_ ?_ ha.2 (fun x hx => hq x (by simp [hx]))
    · obtain ⟨dt, op⟩ := o
      cases op with
      | createTable u =>
        have hne : u.key ≠ s.key := hq0
        simp only [World.step, addNewTableSpec, addTableSpec]
        have hne' : ¬ s.key = u.key := fun e => hne e.symm
        cases w.proc.mem.tableMap u.key with
        | some _ => simp [mapSet, hne', hm]
        | none =>
          cases addTableRec u w.proc.mem.tableTree [] u.path with
          | mk t b => cases b <;> simp [mapSet, hne', hm]
      | createFunction u =>
        simp only [World.step, addNewFunctionSpec, addFunctionSpec]
        cases w.proc.mem.funcMap u.key with
        | some _ => simp [hm]
        | none =>
          cases addFunctionRec u w.proc.mem.funcTree [] u.path with
          | mk t b => cases b <;> simp [hm]
      | dropTable n => exact absurd hq0 id
      | dropFunction n => exact absurd hq0 id
      | sync =>
        have hsh : Shape w.proc.mem f.tables f.functions (fun n u => n = s.key → u = s) (fun n u => True) :=
          ⟨h.shape.tables, h.shape.functions, h.shape.tableTree, h.shape.funcTree, h.shape.tSome, h.shape.fSome,
            fun n u e => ⟨(h.shape.tKey n u e).1, fun hn => by rw [hn, hm] at e; exact (Option.some.inj e).symm⟩,
            fun n u e => ⟨(h.shape.fKey n u e).1, trivial⟩⟩
        have hload := Shape.load h.kt h.kf (P := fun n u => n = s.key → u = s) (Q := fun n u => True)
          (w.rows.filter fun r => w.proc.lastSyncedAt ≤ r.updatedAt)
          (fun r hr => h.stores.fits r (List.mem_filter.1 hr).1)
          (fun r hr => by
            have hr := h.stores.mem (List.mem_filter.1 hr).1
            cases hf : r.isFn
            · rw [hf] at hr
              simp only [Bool.false_eq_true, if_false] at hr ⊢
              have hl := lookup_mem h.skt hr
              rw [h.stT] at hl
              refine ⟨h.skt.2 _ hr, ?_, ?_⟩
              · rw [h.firstT, head_isSome]
                simpa using List.ne_nil_of_mem (stored_mem hl)
              · intro hn; rw [hn, hs] at hl; exact (Option.some.inj hl).symm
            · rw [hf] at hr
              simp only [if_true] at hr ⊢
              have hl := lookup_mem h.skf hr
              rw [h.stF] at hl
              refine ⟨h.skf.2 _ hr, ?_, trivial⟩
              rw [h.firstF, head_isSome]
              simpa using List.ne_nil_of_mem (stored_mem hl))
          w.proc.mem hsh
        simp only [World.step, Catalog.sync]
        cases hl : loadRows w.proc.mem (w.rows.filter fun r => w.proc.lastSyncedAt ≤ r.updatedAt) with
        | mk m b =>
          rw [hl] at hload
          obtain ⟨hb, hsm⟩ := hload
          simp only at hb hsm
          subst hb
          simp only
          have h1 := hsm.tSome s.key
          rw [← h.shape.tSome, hm] at h1
          cases hx : m.tableMap s.key with
          | none => rw [hx] at h1; simp at h1
          | some u => rw [(hsm.tKey _ _ hx).2 rfl]
    · obtain ⟨dt, op⟩ := o
      cases op with
      | createTable u =>
        have hne : ¬ s.key = u.key := fun e => hq0 e.symm
        simpa [Lives.step, born, hne] using hs
      | createFunction u => exact hs
      | dropTable n => exact absurd hq0 id
      | dropFunction n => exact absurd hq0 id
      | sync => exact hs

/-- The table definition that DROP TABLE and wildcard tables look up is the latest one as long as nothing has been dropped since, however often
the process synchronises. -/
theorem C07_table_partial (pre post : List (Nat × Op)) (dt : Nat) (s : Spec) (hs : s.isTemp = false)
    (ha : Apart Lives.none (pre ++ (dt, .createTable s) :: post)) (hq : Quiet s.key post) :
    (World.init.run (pre ++ (dt, .createTable s) :: post)).proc.mem.tableMap s.key = some s := by
  rw [apart_append, apart_cons] at ha
  have h1 := (all_run pre ha.1).step dt (.createTable s) ha.2.1
  rw [world_append]
  refine quiet_run h1.1 s ?_ ?_ post ha.2.2 hq
  · simp only [World.step, addNewTableSpec, addTableSpec]
    cases (World.init.run pre).proc.mem.tableMap s.key with
    | some _ => simp [mapSet]
    | none =>
      cases addTableRec s (World.init.run pre).proc.mem.tableTree [] s.path with
      | mk t b => cases b <;> simp [mapSet]
  · simp [Lives.step, born, stored, hs]

/-- The hypotheses are met by a replaced table with a Sync and other creates behind it. -/
example : Apart Lives.none ([(1, .createTable (wt 1))] ++ (1, .createTable (wt 2)) :: [(0, .sync), (5, .createTable wu)]) ∧
    Quiet (wt 2).key [(0, .sync), (5, .createTable wu)] := by
  refine ⟨by simp [Apart, Lives.none, Lives.step, born, wt, wu, Spec.key, formatPath], ?_⟩
  intro o ho
  simp at ho
  rcases ho with rfl | rfl
  · trivial
  · decide

/-! ## C08 -/

/-- C08 for all these histories: dropping a table changes no function that queries use and no other name's existence, and the
reverse; if all table paths have the same length the analyzer finds every other table as before.  The looked-up definition of every
other table becomes its oldest one. -/
theorem C08_exact_partial (ops : List (Nat × Op)) (ha : Apart Lives.none ops) (dt : Nat) (n : Name) :
    let w := World.init.run ops
    let L := Lives.none.run ops
    let wt := (w.step dt (.dropTable n)).1
    let wf := (w.step dt (.dropFunction n)).1
    (∀ n', queryFuncMap wt.proc.mem [] n' = queryFuncMap w.proc.mem [] n') ∧
    (∀ n', n' ≠ n → queryFuncMap wf.proc.mem [] n' = queryFuncMap w.proc.mem [] n') ∧
    (queryFuncMap wf.proc.mem [] n = none) ∧ (wt.proc.mem.tableMap n = none) ∧
    (∀ n', n' ≠ n → (wt.proc.mem.tableMap n').isSome = (w.proc.mem.tableMap n').isSome) ∧
    (∀ n', (wf.proc.mem.tableMap n').isSome = (w.proc.mem.tableMap n').isSome) ∧
    (L.tables n ≠ [] → ∀ n', n' ≠ n → wt.proc.mem.tableMap n' = (L.tables n').head?) ∧
    (L.functions n ≠ [] → ∀ n', wf.proc.mem.tableMap n' = (L.tables n').head?) ∧
    (∀ p s, (∀ t ∈ (Dict.empty.firsts ops).tables, t.path.length = p.length) → w.proc.mem.tableTree.find p = some s → s.key ≠ n →
      wt.proc.mem.tableTree.find p = some s) ∧
    (∀ p s, (∀ t ∈ (Dict.empty.firsts ops).functions, t.path.length = p.length) → w.proc.mem.funcTree.find p = some s → s.key ≠ n →
      wf.proc.mem.funcTree.find p = some s) ∧
    wt.proc.mem.funcTree = w.proc.mem.funcTree ∧ wf.proc.mem.tableTree = w.proc.mem.tableTree := by
  intro w L w1 w2
  have h : All w L _ _ := all_run ops ha
  have h1 : All w1 _ _ _ := (h.step dt (.dropTable n) trivial).1
  have h2 : All w2 _ _ _ := (h.step dt (.dropFunction n) trivial).1
  have q : ∀ {w L f st}, All w L f st → ∀ n, queryFuncMap w.proc.mem [] n = (L.functions n).head? := by
    intro w L f st h n; rw [queryFuncMap_shape h.shape h.kf, h.firstF]
  have t : ∀ {w L f st}, All w L f st → ∀ n, (w.proc.mem.tableMap n).isSome = (L.tables n).head?.isSome := by
    intro w L f st h n; rw [h.shape.tSome, h.firstT]
  have fr : ∀ (l : List Spec) (g : Spec → Bool) (s : Spec), l.find? g = some s → s.key ≠ n → (remove l n).find? g = some s := by
    intro l g s hl hs
    induction l with
    | nil => simp at hl
    | cons x xs ih =>
      rw [List.find?_cons] at hl
      simp only [remove, List.filter_cons] at ih ⊢
      by_cases hx : x.key = n
      · have hg : g x = false := by
          cases hg : g x
          · rfl
          · rw [hg] at hl; cases hl; exact absurd hx hs
        rw [hg] at hl
        simp only [ne_eq, hx, not_true, decide_false, Bool.false_eq_true, if_false]
        exact ih hl
      · simp only [ne_eq, hx, not_false_eq_true, decide_true, if_true, List.find?_cons]
        cases hg : g x
        · rw [hg] at hl; exact ih hl
        · rw [hg] at hl; exact hl
  refine ⟨?_, ?_, ?_, ?_, ?_, ?_, ?_, ?_, ?_, ?_, ?_, ?_⟩
  rotate_left 8
  · intro p s hl hf hs
    have hp : p ≠ [] := by rintro rfl; simp [Tree.find] at hf
    rw [h.shape.tableTree, tables_find _ p.length hl p rfl hp] at hf
    rw [h1.shape.tableTree, show ((Dict.empty.firsts ops).stepFirst (.dropTable n)).tables = remove (Dict.empty.firsts ops).tables n from rfl,
      tables_find (remove (Dict.empty.firsts ops).tables n) p.length (fun t ht => hl t (List.mem_filter.1 ht).1) p rfl hp]
    exact fr _ _ s hf hs
  · intro p s hl hf hs
    have hp : p ≠ [] := by rintro rfl; simp [Tree.find] at hf
    rw [h.shape.funcTree, fns_find _ p.length hl p rfl hp] at hf
    rw [h2.shape.funcTree, show ((Dict.empty.firsts ops).stepFirst (.dropFunction n)).functions = remove (Dict.empty.firsts ops).functions n from rfl,
      fns_find (remove (Dict.empty.firsts ops).functions n) p.length (fun t ht => hl t (List.mem_filter.1 ht).1) p rfl hp]
    exact fr _ _ s hf hs
  · rw [h1.shape.funcTree, h.shape.funcTree]; rfl
  · rw [h2.shape.tableTree, h.shape.tableTree]; rfl
  · intro n'; rw [q h1, q h]; rfl
  · intro n' hn; rw [q h2, q h]; simp [Lives.step, died, hn]
  · rw [q h2]; simp [Lives.step, died]
  · have := t h1 n
    simp only [Lives.step, died, if_true, List.head?_nil, Option.isSome_none, Option.isSome_eq_false_iff, Option.isNone_iff_eq_none] at this
    exact this
  · intro n' hn; rw [t h1, t h]; simp [Lives.step, died, hn]
  · intro n'; rw [t h2, t h]; rfl
  · intro hl n' hn
    have hdel := h.shape.deleteTable h.kt h.kf n
    have hb : (lookup (Dict.empty.firsts ops).tables n).isSome = true := by rw [h.firstT, head_isSome]; simpa using hl
    rw [if_pos hb] at hdel
    show (w.step dt (.dropTable n)).1.proc.mem.tableMap n' = _
    simp only [World.step, deleteTableSpec, hdel, canon]
    rw [lookup_remove, if_neg hn, h.firstT]
  · intro hl n'
    have hdel := h.shape.deleteFunction h.kt h.kf n
    have hb : (lookup (Dict.empty.firsts ops).functions n).isSome = true := by rw [h.firstF, head_isSome]; simpa using hl
    rw [if_pos hb] at hdel
    show (w.step dt (.dropFunction n)).1.proc.mem.tableMap n' = _
    simp only [World.step, deleteFunctionSpec, hdel, canon]
    exact h.firstT n'

/-- Sharing a name between a table and a function is worse: the next call fails, and from then on every DROP fails and
takes all functions, and all tables created later, out of the catalog. -/
theorem C08_shared_name_loses_functions :
    let fn : Spec := { path := [['f']], isTemp := false, isView := false, body := 9 }
    let w := World.init.run [(1, .createFunction fn), (1, .createTable (wt 1)), (1, .createFunction (wt 2))]
    let w1 := w.step 1 .sync
    let w2 := w1.1.step 1 .sync
    let w3 := w2.1.step 1 (.dropTable ['t'])
    w1.2 = false ∧ w2.2 = true ∧ queryFuncMap w2.1.proc.mem [] ['f'] = some fn ∧
    w3.2 = false ∧ queryFuncMap w3.1.proc.mem [] ['f'] = none := by decide

/-! ## C09 -/

/-- C09, exactly: after every such history a process that opens the file succeeds and sees for every name the latest permanent definition since
it was last dropped. -/
theorem C09_exact_partial (ops : List (Nat × Op)) (ha : Apart Lives.none ops) (dt : Nat) :
    let w := World.init.run ops
    let L := Lives.none.run ops
    let d := Dict.empty.storeds ops
    (reopen w dt).2 = true ∧
    (∀ n, (reopen w dt).1.mem.tableMap n = stored (L.tables n)) ∧
    (∀ n, queryFuncMap (reopen w dt).1.mem [] n = stored (L.functions n)) ∧
    (∀ n, lookup d.tables n = stored (L.tables n) ∧ lookup d.functions n = stored (L.functions n)) ∧
    (∀ p, p ≠ [] → (∀ s ∈ d.tables, s.path.length = p.length) →
      (reopen w dt).1.mem.tableTree.find p = d.tables.find? fun s => s.path.map lower = p.map lower) ∧
    (∀ p, p ≠ [] → (∀ s ∈ d.functions, s.path.length = p.length) →
      (reopen w dt).1.mem.funcTree.find p = d.functions.find? fun s => s.path.map lower = p.map lower) := by
  intro w L d
  have h : All w L _ d := all_run ops ha
  have hall : (w.rows.filter fun r => Proc.fresh.lastSyncedAt ≤ r.updatedAt) = w.rows := by
    rw [List.filter_eq_self]; intro r _; simp [Proc.fresh]
  have hl := loadRows_new [] w.rows h.stores.fits (by simpa [h.stores.tables] using h.skt) (by simpa [h.stores.functions] using h.skf)
  simp only [List.nil_append, h.stores.tables, h.stores.functions] at hl
  have hm : Proc.fresh.mem = canon (rowTables []) (rowFns []) := canon_empty
  have hr : reopen w dt = ({ mem := canon d.tables d.functions, lastSyncedAt := w.clock + dt }, true) := by
    simp only [reopen, Catalog.sync, hall, hm, hl]
  rw [hr]
  refine ⟨rfl, h.stT, ?_, fun n => ⟨h.stT n, h.stF n⟩, ?_, ?_⟩
  · intro n; rw [queryFuncMap_canon _ _ h.skf, h.stF]
  · intro p hp hlen; exact tables_find d.tables p.length hlen p rfl hp
  · intro p hp hlen; exact fns_find d.functions p.length hlen p rfl hp

theorem lives_permanent (ops : List (Nat × Op)) (hp : Permanent ops) (n : Name) :
    (∀ s ∈ (Lives.none.run ops).tables n, s.isTemp = false) ∧ (∀ s ∈ (Lives.none.run ops).functions n, s.isTemp = false) := by
  suffices ∀ (ops : List (Nat × Op)) (L : Lives), Permanent ops →
      ((∀ s ∈ L.tables n, s.isTemp = false) ∧ (∀ s ∈ L.functions n, s.isTemp = false)) →
      (∀ s ∈ (L.run ops).tables n, s.isTemp = false) ∧ (∀ s ∈ (L.run ops).functions n, s.isTemp = false) from
    this ops _ hp (by simp [Lives.none])
  have hb : ∀ (f : Name → List Spec) (s : Spec), s.isTemp = false → (∀ t ∈ f n, t.isTemp = false) → ∀ t ∈ born f s n, t.isTemp = false := by
    intro f s hs hf t ht
    unfold born at ht
    split at ht
    · rcases List.mem_append.1 ht with ht | ht
      · exact hf t ht
      · simp at ht; exact ht ▸ hs
    · exact hf t ht
  have hd : ∀ (f : Name → List Spec) (m : Name), (∀ t ∈ f n, t.isTemp = false) → ∀ t ∈ died f m n, t.isTemp = false := by
    intro f m hf t ht
    unfold died at ht
    split at ht
    · simp at ht
    · exact hf t ht
  intro ops
  induction ops with
  | nil => intro L _ h; exact h
  | cons o os ih =>
    intro L hp h
    have ho := hp o (by simp)
    obtain ⟨dt, op⟩ := o
    refine ih (L.step op) (fun x hx => hp x (by simp [hx])) ?_
    cases op with
    | createTable s => exact ⟨hb _ s ho h.1, h.2⟩
    | createFunction s => exact ⟨h.1, hb _ s ho h.2⟩
    | dropTable m => exact ⟨hd _ m h.1, h.2⟩
    | dropFunction m => exact ⟨h.1, hd _ m h.2⟩
    | sync => exact h

theorem stored_permanent {l : List Spec} (h : ∀ s ∈ l, s.isTemp = false) : stored l = l.getLast? := by
  unfold stored
  rw [filter_permanent h]

/-- For permanent objects: the reopened database uses the same function as the running process iff the function's latest definition is
also its oldest one since the last drop. -/
theorem C09_function_iff_partial (ops : List (Nat × Op)) (ha : Apart Lives.none ops) (hp : Permanent ops) (dt : Nat) (n : Name) :
    let w := World.init.run ops
    let L := Lives.none.run ops
    queryFuncMap (reopen w dt).1.mem [] n = queryFuncMap w.proc.mem [] n ↔ (L.functions n).head? = (L.functions n).getLast? := by
  intro w L
  rw [(C09_exact_partial ops ha dt).2.2.1, (C07_exact_partial ops ha).1, stored_permanent (lives_permanent ops hp n).2]
  exact eq_comm

/-- A replaced function whose two sides differ, within the hypotheses. -/
example : let ops : List (Nat × Op) := [(1, .createFunction (wt 1)), (1, .createFunction (wt 2))]
    Apart Lives.none ops ∧ Permanent ops ∧ ((Lives.none.run ops).functions ['t']).head? ≠ ((Lives.none.run ops).functions ['t']).getLast? := by
  refine ⟨by simp [Apart, Lives.none, Lives.step, born, wt, Spec.key, formatPath], ?_, by decide⟩
  intro o ho; simp at ho; rcases ho with rfl | rfl <;> simp [wt]

/-! ## C15 -/

/-- C15, exactly: whatever the transaction did, a process that opens the database after the rollback sees the latest permanent definitions
of before; the running process goes on with what the transaction left in its memory. -/
theorem C15_exact_partial (ops tx : List (Nat × Op)) (ha : Apart Lives.none ops) (dt : Nat) :
    let before := World.init.run ops
    let after := before.rollback (before.run tx)
    let L := Lives.none.run ops
    (reopen after dt).2 = true ∧
    (∀ n, (reopen after dt).1.mem.tableMap n = stored (L.tables n)) ∧
    (∀ n, queryFuncMap (reopen after dt).1.mem [] n = stored (L.functions n)) ∧
    (Apart L tx → ∀ n, queryFuncMap after.proc.mem [] n = ((L.run tx).functions n).head? ∧
      (after.proc.mem.tableMap n = none ↔ (L.run tx).tables n = [])) := by
  intro before after L
  have he : (reopen after dt).2 = (reopen before dt).2 ∧ (reopen after dt).1.mem = (reopen before dt).1.mem := by
    simp only [reopen, Catalog.sync, after, World.rollback]
    cases loadRows Proc.fresh.mem (before.rows.filter fun r => Proc.fresh.lastSyncedAt ≤ r.updatedAt) with
    | mk m b => cases b <;> exact ⟨rfl, rfl⟩
  have h := C09_exact_partial ops ha dt
  rw [he.1, he.2]
  refine ⟨h.1, h.2.1, h.2.2.1, ?_⟩
  intro htx n
  have h2 : All (before.run tx) (L.run tx) _ _ := (all_run ops ha).run tx htx
  refine ⟨?_, isSome_iff_ne ?_⟩
  · show queryFuncMap (before.run tx).proc.mem [] n = _
    rw [queryFuncMap_shape h2.shape h2.kf, h2.firstF]
  · show ((before.run tx).proc.mem.tableMap n).isSome = _
    rw [h2.shape.tSome, h2.firstT]

/-- A transaction that drops and replaces, within the hypotheses. -/
example : let ops : List (Nat × Op) := [(1, .createTable (wt 1)), (1, .createTable (wt 2)), (1, .createFunction wu)]
    Apart Lives.none ops ∧ Apart (Lives.none.run ops) [(1, .dropTable ['t']), (0, .createFunction { wu with body := 3 })] := by
  simp [Apart, Lives.none, Lives.step, Lives.run, born, died, wt, wu, Spec.key, formatPath]

end Verif.Catalog
