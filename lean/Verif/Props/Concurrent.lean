import Verif.Props.ConcurrentAlone

/-!
# Calls on several connections (C221–C223)
-/

namespace Verif.Concurrent
open Verif.Catalog Verif.Catalog.Spec Verif.Driver Verif.Engine NamePath

/-! ## The names a call uses -/

/-- The objects a statement names are in `N`; created objects have paths of lengths in `L`, and queries use paths of the one length
in `L` (as with a fixed maximal name path). -/
def StmtIn (N : Name → Bool) (L : Nat → Prop) : Stmt → Prop
  | .ddl (.createTable s _ _) => N s.key = true ∧ L s.path.length
  | .ddl (.createView s _) => N s.key = true ∧ L s.path.length
  | .ddl (.createFunction s) => N s.key = true ∧ L s.path.length
  | .ddl (.dropTable n _) => N n = true
  | .ddl (.dropView n _) => N n = true
  | .ddl (.dropFunction n) => N n = true
  | .ddl (.other _) => True
  | .ddl .rejected => True
  | .query _ p => N (formatPath p) = true ∧ p ≠ [] ∧ ∀ m, L m → m = p.length

/-- Names that differ only in case are both in `N` or both outside. -/
def CaseClosed (N : Name → Bool) : Prop := ∀ n m, lower n = lower m → N n = N m

/-- A create registers a name that no table and no function has. -/
def FreshAt (sh : Shared) : Op → Prop
  | .cat (.createTable s) => s.path ≠ [] ∧ sh.world.proc.mem.tableMap s.key = none ∧ sh.world.proc.mem.funcMap s.key = none
  | .cat (.createFunction s) => s.path ≠ [] ∧ sh.world.proc.mem.tableMap s.key = none ∧ sh.world.proc.mem.funcMap s.key = none
  | _ => True

/-- The call, running alone, never registers a name that exists. -/
def Clean {α : Type} : Prog α → Shared → Prop
  | .ret _, _ => True
  | .op o k, sh => FreshAt sh o ∧ Clean (k (o.run 0 sh).2) (o.run 0 sh).1

/-- Lookups do not run inside another connection's deletion. -/
def NoPeek (es : List Event) : Prop := ∀ e ∈ es, ∃ i dt, e = .run i dt

/-- How often call `i` is scheduled. -/
def turns (i : Nat) : List Event → Nat
  | [] => 0
  | .run j _ :: es => (if j = i then 1 else 0) + turns i es
  | .peek _ _ _ :: es => turns i es

/-! ## Operations in a set of names -/

def OpIn (N : Name → Bool) (L : Nat → Prop) : Op → Prop
  | .cat (.createTable s) => N s.key = true ∧ L s.path.length
  | .cat (.createFunction s) => N s.key = true ∧ L s.path.length
  | .cat (.dropTable n) => N n = true
  | .cat (.dropFunction n) => N n = true
  | .cat .sync => True
  | .drop n _ _ => N n = true
  | .create n _ _ => N n = true
  | .look _ p => N (formatPath p) = true ∧ p ≠ [] ∧ ∀ m, L m → m = p.length
  | .read n => N n = true

def Within {α : Type} (N : Name → Bool) (L : Nat → Prop) : Prog α → Prop
  | .ret _ => True
  | .op o k => OpIn N L o ∧ ∀ r : Out, (∀ s, r.found = some s → N s.key = true) → Within N L (k r)

theorem within_runOps {α : Type} {N : Name → Bool} {L : Nat → Prop} {k : Bool → Prog α} (hk : ∀ b, Within N L (k b)) :
    ∀ os : List Op, (∀ o ∈ os, OpIn N L o) → Within N L (runOps os k)
  | [], _ => hk true
  | o :: os, h => by
    refine ⟨h o (by simp), fun r _ => ?_⟩
    dsimp only
    split
    · exact within_runOps hk os fun o' ho' => h o' (by simp [ho'])
    · exact hk false

theorem ops_in {N : Name → Bool} {L : Nat → Prop} (x : Engine.Stmt) (h : StmtIn N L (.ddl x)) :
    (∀ o ∈ ops x, OpIn N L o) ∧ (∀ o ∈ cleanupOps x, OpIn N L o) := by
  cases x <;> simp only [StmtIn] at h <;> refine ⟨fun o ho => ?_, fun o ho => ?_⟩ <;> simp only [ops, cleanupOps] at ho
  all_goals
    repeat' split at ho
  all_goals
    simp only [List.nil_append, List.cons_append, List.mem_cons, List.not_mem_nil, or_false] at ho
  all_goals
    first
    | exact ho.elim
    | (rcases ho with rfl | rfl | rfl <;> first | exact h | exact h.1)
    | (rcases ho with rfl | rfl <;> first | exact h | exact h.1)
    | (rcases ho with rfl <;> first | exact h | exact h.1)

theorem within_cleanup {N : Name → Bool} {L : Nat → Prop} : ∀ (xs : List Engine.Stmt) (res : Result),
    (∀ x ∈ xs, StmtIn N L (.ddl x)) → Within N L (cleanupProg xs res)
  | [], _, _ => trivial
  | x :: xs, res, h => within_runOps (fun _ => within_cleanup xs _ fun y hy => h y (by simp [hy])) _ (ops_in x (h x (by simp))).2

theorem bodyProg_ddl (x : Engine.Stmt) (hx : x ≠ .rejected) (ho : x ≠ .other false) (xs : List Stmt) (started : List Engine.Stmt)
    (seen : List Catalog.Spec) : bodyProg (.ddl x :: xs) started seen = runOps (ops x) fun ok =>
      if ok then bodyProg xs (started ++ [x]) seen else cleanupProg (started ++ [x]) ⟨[1], seen⟩ := by
  cases x <;> first | rfl | exact absurd rfl hx | skip
  rename_i ok; cases ok
  · exact absurd rfl ho
  · rfl

theorem within_body {N : Name → Bool} {L : Nat → Prop} : ∀ (xs : List Stmt) (started : List Engine.Stmt) (seen : List Catalog.Spec),
    (∀ x ∈ xs, StmtIn N L x) → (∀ x ∈ started, StmtIn N L (.ddl x)) → Within N L (bodyProg xs started seen)
  | [], started, seen, _, h => within_cleanup started _ h
  | .ddl x :: xs, started, seen, hx, h => by
    have h1 := hx (.ddl x) (by simp)
    have h2 : ∀ y ∈ started ++ [x], StmtIn N L (.ddl y) := by
      intro y hy
      rcases List.mem_append.1 hy with hy | hy
      · exact h y hy
      · simp only [List.mem_singleton] at hy; rw [hy]; exact h1
    by_cases e1 : x = .rejected
    · subst e1; exact within_cleanup started _ h
    by_cases e2 : x = .other false
    · subst e2; exact within_cleanup _ _ h2
    rw [bodyProg_ddl x e1 e2]
    refine within_runOps (fun b => ?_) _ (ops_in x h1).1
    split
    · exact within_body xs _ _ (fun y hy => hx y (by simp [hy])) h2
    · exact within_cleanup _ _ h2
  | .query fn p :: xs, started, seen, hx, h => by
    refine ⟨hx (.query fn p) (by simp), fun r hr => ?_⟩
    dsimp only
    have hrest := fun seen => within_body xs started seen (fun y hy => hx y (by simp [hy])) h
    cases hf : r.found with
    | none => exact within_cleanup started _ h
    | some s =>
      simp only
      split
      · exact hrest _
      · refine ⟨hr s hf, fun r' _ => ?_⟩
        dsimp only
        split
        · exact hrest _
        · exact within_cleanup started _ h

theorem within_call {N : Name → Bool} {L : Nat → Prop} (xs : List Stmt) (h : ∀ x ∈ xs, StmtIn N L x) : Within N L (callProg xs) := by
  refine ⟨trivial, fun r _ => ?_⟩
  dsimp only
  split
  · exact within_body xs [] [] h (by simp)
  · trivial

/-! ## States that agree on a set of names -/

abbrev tabs (sh : Shared) : List Catalog.Spec := sh.world.proc.mem.tables
abbrev fns (sh : Shared) : List Catalog.Spec := sh.world.proc.mem.functions

/-- The catalog is consistent and the lengths of all paths are in `L`. -/
structure Good (L : Nat → Prop) (sh : Shared) : Prop where
  inv : Inv sh.world ⟨tabs sh, fns sh⟩
  lt : ∀ s ∈ tabs sh, L s.path.length
  lf : ∀ s ∈ fns sh, L s.path.length

theorem good_of_inv {L : Nat → Prop} {sh : Shared} {d : Dict} (h : Inv sh.world d) (ht : ∀ s ∈ d.tables, L s.path.length)
    (hf : ∀ s ∈ d.functions, L s.path.length) : Good L sh := by
  have e1 : tabs sh = d.tables := by rw [tabs, h.mem]; rfl
  have e2 : fns sh = d.functions := by rw [fns, h.mem]; rfl
  refine ⟨?_, by rw [e1]; exact ht, by rw [e2]; exact hf⟩
  rw [e1, e2]; exact h

theorem Good.mem {L : Nat → Prop} {sh : Shared} (h : Good L sh) : sh.world.proc.mem = canon (tabs sh) (fns sh) := h.inv.mem

structure Agree (N : Name → Bool) (sh sh' : Shared) : Prop where
  tables : (tabs sh).filter (fun s => N s.key) = (tabs sh').filter (fun s => N s.key)
  fns : (fns sh).filter (fun s => N s.key) = (fns sh').filter (fun s => N s.key)
  phys : ∀ n, N n = true → sh.phys n = sh'.phys n

theorem Agree.refl (N : Name → Bool) (sh : Shared) : Agree N sh sh := ⟨rfl, rfl, fun _ _ => rfl⟩

theorem find?_filter_of {α : Type} (p q : α → Bool) (h : ∀ x, q x = true → p x = true) :
    ∀ l : List α, (l.filter p).find? q = l.find? q
  | [] => rfl
  | x :: xs => by
    rw [List.filter_cons]
    cases hp : p x with
    | true => simp only [if_true, List.find?_cons, find?_filter_of p q h xs]
    | false =>
      have : q x = false := by
        cases hq : q x with
        | false => rfl
        | true => have := h x hq; rw [hp] at this; cases this
      simp [List.find?_cons, this, find?_filter_of p q h xs]

theorem lookup_filter {N : Name → Bool} {l l' : List Catalog.Spec} (h : l.filter (fun s => N s.key) = l'.filter (fun s => N s.key))
    {n : Name} (hn : N n = true) : lookup l n = lookup l' n := by
  have e : ∀ l : List Catalog.Spec, lookup l n = lookup (l.filter fun s => N s.key) n := fun l =>
    (find?_filter_of (fun s : Catalog.Spec => N s.key) (fun t => decide (t.key = n)) (by intro x hx; simp at hx; rw [hx]; exact hn) l).symm
  rw [e l, e l', h]

theorem fresh_iff {L : Nat → Prop} {sh : Shared} (h : Good L sh) (s : Catalog.Spec) :
    (s.path ≠ [] ∧ sh.world.proc.mem.tableMap s.key = none ∧ sh.world.proc.mem.funcMap s.key = none) ↔
      FreshOp ⟨tabs sh, fns sh⟩ (.createTable s) := by
  rw [h.mem]
  show (s.path ≠ [] ∧ lookup (tabs sh) s.key = none ∧ lookup (fns sh) s.key = none) ↔ _
  rw [lookup_none, lookup_none]
  exact Iff.rfl

theorem freshAt_cat {L : Nat → Prop} {sh : Shared} (h : Good L sh) (o : Catalog.Op) : FreshAt sh (.cat o) ↔ FreshOp ⟨tabs sh, fns sh⟩ o := by
  cases o with
  | createTable s => exact fresh_iff h s
  | createFunction s => exact fresh_iff h s
  | _ => exact Iff.rfl

/-- A catalog method on a consistent catalog. -/
theorem cat_run {L : Nat → Prop} {N : Name → Bool} {sh : Shared} (h : Good L sh) (dt : Nat) (o : Catalog.Op) (hf : FreshAt sh (.cat o)) (ho : OpIn N L (.cat o)) :
    Good L ((Op.cat o).run dt sh).1 ∧ tabs ((Op.cat o).run dt sh).1 = (Dict.step ⟨tabs sh, fns sh⟩ o).tables ∧
    fns ((Op.cat o).run dt sh).1 = (Dict.step ⟨tabs sh, fns sh⟩ o).functions ∧
    ((Op.cat o).run dt sh).2 = ⟨Dict.succeeds ⟨tabs sh, fns sh⟩ o, none⟩ ∧ ((Op.cat o).run dt sh).1.phys = sh.phys := by
  have hf' := (freshAt_cat h o).1 hf
  obtain ⟨h1, h2⟩ := h.inv.step dt o hf'
  have e1 : tabs ((Op.cat o).run dt sh).1 = (Dict.step ⟨tabs sh, fns sh⟩ o).tables := by
    show (sh.world.step dt o).1.proc.mem.tables = _
    rw [h1.mem]; rfl
  have e2 : fns ((Op.cat o).run dt sh).1 = (Dict.step ⟨tabs sh, fns sh⟩ o).functions := by
    show (sh.world.step dt o).1.proc.mem.functions = _
    rw [h1.mem]; rfl
  refine ⟨good_of_inv (d := Dict.step ⟨tabs sh, fns sh⟩ o) h1 ?_ ?_, e1, e2, ?_, rfl⟩
  · intro s hs
    cases o with
    | createTable t =>
      simp only [Dict.step, define_new hf'.2.1] at hs
      rcases List.mem_append.1 hs with hs | hs
      · exact h.lt s hs
      · simp only [List.mem_singleton] at hs; rw [hs]; exact ho.2
    | dropTable n => exact h.lt s (List.mem_filter.1 hs).1
    | _ => exact h.lt s hs
  · intro s hs
    cases o with
    | createFunction t =>
      simp only [Dict.step, define_new hf'.2.2] at hs
      rcases List.mem_append.1 hs with hs | hs
      · exact h.lf s hs
      · simp only [List.mem_singleton] at hs; rw [hs]; exact ho.2
    | dropFunction n => exact h.lf s (List.mem_filter.1 hs).1
    | _ => exact h.lf s hs
  · show (⟨(sh.world.step dt o).2, none⟩ : Out) = _
    rw [h2]

theorem filter_remove (N : Name → Bool) (l : List Catalog.Spec) (n : Name) :
    (remove l n).filter (fun s => N s.key) = (l.filter fun s => N s.key).filter fun s => decide (s.key ≠ n) := by
  simp only [remove, List.filter_filter]
  congr 1; funext s; rw [Bool.and_comm]

theorem filter_remove_other {N : Name → Bool} {n : Name} (hn : N n = false) (l : List Catalog.Spec) :
    (remove l n).filter (fun s => N s.key) = l.filter fun s => N s.key := by
  rw [filter_remove, List.filter_eq_self]
  intro s hs
  have := (List.mem_filter.1 hs).2
  simp only [decide_eq_true_eq]
  rintro rfl
  rw [hn] at this; cases this

theorem lower_formatPath : ∀ p : Path, lower (formatPath p) = formatPath (p.map lower)
  | [] => rfl
  | [c] => by simp [formatPath]
  | c :: d :: cs => by
    have ih := lower_formatPath (d :: cs)
    simp only [List.map_cons, formatPath] at ih ⊢
    simp only [lower, List.map_append, List.map_cons] at ih ⊢
    rw [ih]
    have : lowerChar '_' = '_' := by decide
    rw [this]

theorem find_in {N : Name → Bool} (hN : CaseClosed N) {p : Path} (hp : N (formatPath p) = true) (s : Catalog.Spec)
    (h : s.path.map lower = p.map lower) : N s.key = true := by
  rw [← hp]
  apply hN
  rw [Spec.key, lower_formatPath, lower_formatPath, h]

theorem find_agree {N : Name → Bool} (hN : CaseClosed N) {p : Path} (hp : N (formatPath p) = true) {l l' : List Catalog.Spec}
    (h : l.filter (fun s => N s.key) = l'.filter (fun s => N s.key)) :
    (l.find? fun s => decide (s.path.map lower = p.map lower)) = l'.find? fun s => decide (s.path.map lower = p.map lower) := by
  have e : ∀ l : List Catalog.Spec, (l.find? fun s => decide (s.path.map lower = p.map lower)) =
      (l.filter fun s => N s.key).find? fun s => decide (s.path.map lower = p.map lower) := fun l =>
    (find?_filter_of (fun s : Catalog.Spec => N s.key) _ (by intro x hx; exact find_in hN hp x (by simpa using hx)) l).symm
  rw [e l, e l', h]

theorem find_good {L : Nat → Prop} {sh : Shared} (h : Good L sh) (fn : Bool) {p : Path} (h0 : p ≠ []) (hl : ∀ m, L m → m = p.length) :
    findIn sh.world.proc.mem fn p =
      (let r := (if fn then fns sh else tabs sh).find? fun s => decide (s.path.map lower = p.map lower)
       ⟨r.isSome, r⟩) := by
  rw [findIn, h.mem]
  cases fn with
  | true =>
    have : (canon (tabs sh) (fns sh)).funcTree.find p = _ := fns_find (fns sh) p.length (fun s hs => hl _ (h.lf s hs)) p rfl h0
    simp only [if_true, this]
  | false =>
    have : (canon (tabs sh) (fns sh)).tableTree.find p = _ := tables_find (tabs sh) p.length (fun s hs => hl _ (h.lt s hs)) p rfl h0
    simp only [Bool.false_eq_true, if_false, this]

/-! ## One operation -/

/-- The outcome of an operation on the names `N` depends only on the state of these names. -/
theorem own_step {N : Name → Bool} {L : Nat → Prop} (hN : CaseClosed N) {sh sh' : Shared} (h : Good L sh) (h' : Good L sh') (ha : Agree N sh sh')
    (o : Op) (hi : OpIn N L o) (hf : FreshAt sh' o) (dt dt' : Nat) :
    FreshAt sh o ∧ (o.run dt sh).2 = (o.run dt' sh').2 ∧ (∀ s, (o.run dt sh).2.found = some s → N s.key = true) ∧
    Good L (o.run dt sh).1 ∧ Good L (o.run dt' sh').1 ∧ Agree N (o.run dt sh).1 (o.run dt' sh').1 := by
  cases o with
  | cat c =>
    have hfr : FreshAt sh (.cat c) := by
      have hm : ∀ n, N n = true → sh.world.proc.mem.tableMap n = sh'.world.proc.mem.tableMap n ∧
          sh.world.proc.mem.funcMap n = sh'.world.proc.mem.funcMap n := by
        intro n hn
        rw [h.mem, h'.mem]
        exact ⟨lookup_filter ha.tables hn, lookup_filter ha.fns hn⟩
      cases c with
      | createTable s => exact ⟨hf.1, by rw [(hm _ hi.1).1]; exact hf.2.1, by rw [(hm _ hi.1).2]; exact hf.2.2⟩
      | createFunction s => exact ⟨hf.1, by rw [(hm _ hi.1).1]; exact hf.2.1, by rw [(hm _ hi.1).2]; exact hf.2.2⟩
      | _ => trivial
    obtain ⟨g1, t1, f1, o1, p1⟩ := cat_run h dt c hfr hi
    obtain ⟨g2, t2, f2, o2, p2⟩ := cat_run h' dt' c hf hi
    have q1 := (freshAt_cat h c).1 hfr
    have q2 := (freshAt_cat h' c).1 hf
    refine ⟨hfr, ?_, by rw [o1]; simp, g1, g2, ?_, ?_, by rw [p1, p2]; exact ha.phys⟩
    · rw [o1, o2]
      cases c with
      | dropTable n => simp only [Dict.succeeds, lookup_filter ha.tables hi]
      | dropFunction n => simp only [Dict.succeeds, lookup_filter ha.fns hi]
      | _ => rfl
    · rw [t1, t2]
      cases c with
      | createTable s =>
        simp only [Dict.step, define_new q1.2.1, define_new q2.2.1, List.filter_append, ha.tables]
      | dropTable n => simp only [Dict.step, filter_remove, ha.tables]
      | _ => exact ha.tables
    · rw [f1, f2]
      cases c with
      | createFunction s =>
        simp only [Dict.step, define_new q1.2.2, define_new q2.2.2, List.filter_append, ha.fns]
      | dropFunction n => simp only [Dict.step, filter_remove, ha.fns]
      | _ => exact ha.fns
  | drop n view ie =>
    have e := ha.phys n hi
    refine ⟨trivial, ?_, by simp [Op.run], ⟨h.inv, h.lt, h.lf⟩, ⟨h'.inv, h'.lt, h'.lf⟩, ha.tables, ha.fns, ?_⟩
    · simp only [Op.run, sqlDrop, e]
      repeat' split
      all_goals rfl
    · intro m hm
      have e' := ha.phys m hm
      simp only [Op.run, sqlDrop, e]
      repeat' split
      all_goals first | exact e' | simp only [e']
  | create n view ine =>
    have e := ha.phys n hi
    refine ⟨trivial, ?_, by simp [Op.run], ⟨h.inv, h.lt, h.lf⟩, ⟨h'.inv, h'.lt, h'.lf⟩, ha.tables, ha.fns, ?_⟩
    · simp only [Op.run, sqlCreate, e]
      repeat' split
      all_goals rfl
    · intro m hm
      have e' := ha.phys m hm
      simp only [Op.run, sqlCreate, e]
      repeat' split
      all_goals first | exact e' | simp only [e']
  | look fn p =>
    obtain ⟨i1, i2, i3⟩ := hi
    have e : findIn sh.world.proc.mem fn p = findIn sh'.world.proc.mem fn p := by
      rw [find_good h fn i2 i3, find_good h' fn i2 i3]
      cases fn with
      | true => simp only [if_true, find_agree hN i1 ha.fns]
      | false => simp only [Bool.false_eq_true, if_false, find_agree hN i1 ha.tables]
    refine ⟨trivial, e, ?_, h, h', ha⟩
    intro s hs
    simp only [Op.run] at hs
    rw [find_good h fn i2 i3] at hs
    have := List.find?_some (p := fun s : Catalog.Spec => decide (s.path.map lower = p.map lower)) hs
    exact find_in hN i1 s (by simpa using this)
  | read n =>
    refine ⟨trivial, ?_, by simp [Op.run], h, h', ha⟩
    simp only [Op.run, ha.phys n hi]

/-- An operation on other names does not change the state of the names `N`. -/
theorem other_step {N M : Name → Bool} {L : Nat → Prop} {sh sh' : Shared} (h : Good L sh) (ha : Agree N sh sh') (hd : ∀ n, N n = true → M n = false)
    (o : Op) (hi : OpIn M L o) (hf : FreshAt sh o) (dt : Nat) : Agree N (o.run dt sh).1 sh' := by
  have hd' : ∀ n, M n = true → N n = false := by
    intro n hn
    cases hN : N n with
    | false => rfl
    | true => have := hd n hN; rw [hn] at this; cases this
  cases o with
  | cat c =>
    obtain ⟨_, t1, f1, _, p1⟩ := cat_run h dt c hf hi
    have q1 := (freshAt_cat h c).1 hf
    refine ⟨?_, ?_, by rw [p1]; exact ha.phys⟩
    · rw [t1]
      cases c with
      | createTable s =>
        have := hd' _ hi.1
        simp only [Dict.step, define_new q1.2.1, List.filter_append, ha.tables, List.filter_cons, this, List.filter_nil, List.append_nil]
        simp
      | dropTable n => simp only [Dict.step, filter_remove_other (hd' n hi), ha.tables]
      | _ => exact ha.tables
    · rw [f1]
      cases c with
      | createFunction s =>
        have := hd' _ hi.1
        simp only [Dict.step, define_new q1.2.2, List.filter_append, ha.fns, List.filter_cons, this, List.filter_nil, List.append_nil]
        simp
      | dropFunction n => simp only [Dict.step, filter_remove_other (hd' n hi), ha.fns]
      | _ => exact ha.fns
  | drop n view ie =>
    refine ⟨ha.tables, ha.fns, fun m hm => ?_⟩
    have hne : m ≠ n := by rintro rfl; have := hd m hm; rw [show M m = true from hi] at this; cases this
    simp only [Op.run, sqlDrop]
    repeat' split
    all_goals first | exact ha.phys m hm | simp only [hne, if_false, ha.phys m hm]
  | create n view ine =>
    refine ⟨ha.tables, ha.fns, fun m hm => ?_⟩
    have hne : m ≠ n := by rintro rfl; have := hd m hm; rw [show M m = true from hi] at this; cases this
    simp only [Op.run, sqlCreate]
    repeat' split
    all_goals first | exact ha.phys m hm | simp only [hne, if_false, ha.phys m hm]
  | look fn p => exact ha
  | read n => exact ha

/-! ## Every schedule -/

theorem aloneN_succ' {α : Type} : ∀ (n : Nat) (c : Shared × Prog α), aloneN (n + 1) c = stepAlone (aloneN n c)
  | 0, _ => rfl
  | n + 1, c => by rw [aloneN, aloneN_succ' n, aloneN]

/-- What holds after a schedule that ran call `i` for `n i` turns. -/
structure Sched {α : Type} (N : Nat → Name → Bool) (L : Nat → Prop) (sh0 : Shared) (P : Nat → Prog α) (n : Nat → Nat) (c : Conf α) : Prop where
  good : Good L c.sh
  thr : ∀ i, c.thr i = (aloneN (n i) (sh0, P i)).2
  goodA : ∀ i, Good L (aloneN (n i) (sh0, P i)).1
  agree : ∀ i, Agree (N i) c.sh (aloneN (n i) (sh0, P i)).1
  within : ∀ i, Within (N i) L (c.thr i)
  clean : ∀ i, Clean (c.thr i) (aloneN (n i) (sh0, P i)).1
  rest : ∀ M : Name → Bool, (∀ i m, M m = true → N i m = false) → Agree M c.sh sh0

theorem Sched.step {α : Type} {N : Nat → Name → Bool} {L : Nat → Prop} {sh0 : Shared} {P : Nat → Prog α} {n : Nat → Nat} {c : Conf α}
    (hN : ∀ i, CaseClosed (N i)) (hd : ∀ i j, i ≠ j → ∀ m, N i m = true → N j m = false) (h : Sched N L sh0 P n c) (i dt : Nat) :
    Sched N L sh0 P (fun j => if i = j then n j + 1 else n j) (c.step (.run i dt)) := by
  have hthr := h.thr i
  cases hp : c.thr i with
  | ret a =>
    have hs : stepAlone (aloneN (n i) (sh0, P i)) = aloneN (n i) (sh0, P i) := by
      have : aloneN (n i) (sh0, P i) = ((aloneN (n i) (sh0, P i)).1, Prog.ret a) := Prod.ext rfl (by rw [← hthr, hp])
      rw [this, stepAlone]
    have hn : ∀ j, aloneN (if i = j then n j + 1 else n j) (sh0, P j) = aloneN (n j) (sh0, P j) := by
      intro j
      split
      · subst j; rw [aloneN_succ', hs]
      · rfl
    simp only [Conf.step, hp]
    refine ⟨h.good, ?_, ?_, ?_, h.within, ?_, h.rest⟩ <;> intro j <;> rw [hn j]
    · exact h.thr j
    · exact h.goodA j
    · exact h.agree j
    · exact h.clean j
  | op o k =>
    have hal : aloneN (n i) (sh0, P i) = ((aloneN (n i) (sh0, P i)).1, Prog.op o k) := Prod.ext rfl (by rw [← hthr, hp])
    have hw := h.within i
    have hc := h.clean i
    rw [hp] at hw hc
    obtain ⟨hfr, hout, hfound, g1, g2, ag⟩ := own_step (hN i) h.good (h.goodA i) (h.agree i) o hw.1 hc.1 dt 0
    have hsucc : aloneN (n i + 1) (sh0, P i) = ((o.run 0 (aloneN (n i) (sh0, P i)).1).1, k (o.run 0 (aloneN (n i) (sh0, P i)).1).2) := by
      rw [aloneN_succ', hal, stepAlone]
    simp only [Conf.step, hp]
    refine ⟨g1, ?_, ?_, ?_, ?_, ?_, ?_⟩
    · intro j
      by_cases e : i = j
      · subst e; simp only [update, if_true, hsucc, hout]
      · simp only [update, e, Ne.symm e, if_false]; exact h.thr j
    · intro j
      by_cases e : i = j
      · subst e; simp only [if_true, hsucc]; exact g2
      · simp only [e, if_false]; exact h.goodA j
    · intro j
      by_cases e : i = j
      · subst e; simp only [if_true, hsucc]; exact ag
      · simp only [e, if_false]
        exact other_step h.good (h.agree j) (hd j i (Ne.symm e)) o hw.1 hfr dt
    · intro j
      by_cases e : i = j
      · subst e; simp only [update, if_true]; exact hw.2 _ hfound
      · simp only [update, Ne.symm e, if_false]; exact h.within j
    · intro j
      by_cases e : i = j
      · subst e; simp only [update, if_true, hsucc, hout]; exact hc.2
      · simp only [update, e, Ne.symm e, if_false]; exact h.clean j
    · intro M hM
      exact other_step h.good (h.rest M hM) (hM i) o hw.1 hfr dt

theorem Sched.run {α : Type} {N : Nat → Name → Bool} {L : Nat → Prop} {sh0 : Shared} {P : Nat → Prog α} (hN : ∀ i, CaseClosed (N i))
    (hd : ∀ i j, i ≠ j → ∀ m, N i m = true → N j m = false) : ∀ (es : List Event) (n : Nat → Nat) (c : Conf α), NoPeek es →
    Sched N L sh0 P n c → Sched N L sh0 P (fun i => n i + turns i es) (c.run es)
  | [], n, c, _, h => h
  | e :: es, n, c, hp, h => by
    obtain ⟨i, dt, rfl⟩ := hp e (by simp)
    have h1 := Sched.run hN hd es _ _ (fun e' he' => hp e' (by simp [he'])) (h.step hN hd i dt)
    have e : (fun j => n j + turns j (Event.run i dt :: es)) = fun j => (if i = j then n j + 1 else n j) + turns j es := by
      funext j
      simp only [turns]
      split <;> omega
    rw [e]
    exact h1

end Verif.Concurrent
