import Verif.Model.Prepared

/-!
# C122 transactions in scripts, C123 prepared statements, C124 preparing has no effect
-/

namespace Verif.Prepared
open Verif.Go Verif.Params Verif.Driver

/-! ### C122 -/

/-- What a script should do to the database: BEGIN remembers it, COMMIT makes the changes stay, and a failure takes back what was
done since BEGIN; so does the end of a script that has not committed.  `saved` is the database at BEGIN. -/
def transactional {σ : Type} : List (Item σ) → Option σ → σ → σ × Option Err
  | [], saved, s => (saved.getD s, none)
  | .begin :: is, saved, s => transactional is (some (saved.getD s)) s
  | .commit :: is, _, s => transactional is none s
  | .stmt f :: is, saved, s =>
    match f s with
    | (s', .error e) => (saved.getD s', some e)
    | (s', .ok a) =>
      match a.exec s' with
      | (s'', some e) => (saved.getD s'', some e)
      | (s'', none) => transactional is saved s''

/-- No statement has anything to clean up (only TEMP objects and views have). -/
def NoCleanup {σ : Type} (is : List (Item σ)) : Prop := ∀ f, Item.stmt f ∈ is → ∀ s s' a, f s = (s', .ok a) → ∀ x, a.cleanup x = (x, none)

/-- C122: a script with BEGIN and COMMIT is a transaction. -/
def C122_full : Prop := ∀ (σ : Type) (is : List (Item σ)) (s : σ), NoCleanup is → (execContext (is.map Item.func) s).1 = (transactional is none s).1

/-- An INSERT into a table of numbers. -/
def insert (n : Nat) : ActionFunc (List Nat) := fun s => (s, .ok ⟨fun s => (s ++ [n], none), fun s => (s, none)⟩)
/-- A statement that fails when it is run. -/
def failing : ActionFunc (List Nat) := fun s => (s, .ok ⟨fun s => (s, some 1), fun s => (s, none)⟩)

theorem C122_full_false : ¬ C122_full := by
  intro h
  have := h (List Nat) [.begin, .stmt (insert 1), .stmt failing, .commit] [] (by
    intro f hf s s' a e x
    simp only [List.mem_cons, List.not_mem_nil, or_false, reduceCtorEq, false_or, Item.stmt.injEq] at hf
    rcases hf with rfl | rfl
    · simp only [insert, Prod.mk.injEq, Except.ok.injEq] at e
      rw [← e.2]
    · simp only [failing, Prod.mk.injEq, Except.ok.injEq] at e
      rw [← e.2])
  revert this
  decide

/-- The script without BEGIN and COMMIT. -/
def plain {σ : Type} (is : List (Item σ)) : List (ActionFunc σ) := is.filterMap fun
  | .stmt f => some f
  | _ => none

theorem cleanups_append {σ : Type} (a b : List (Action σ)) (s : σ) :
    cleanups (a ++ b) s = ((cleanups b (cleanups a s).1).1, (cleanups a s).2 ++ (cleanups b (cleanups a s).1).2) := by
  induction a generalizing s with
  | nil => simp [cleanups]
  | cons x a ih => simp [cleanups, ih]

theorem loop_plain {σ : Type} (is : List (Item σ)) (s : σ) (acts acts' : List (Action σ)) (ha : ∀ x, cleanups acts x = cleanups acts' x) :
    (loop (is.map Item.func) s acts).1 = (loop (plain is) s acts').1 ∧ (loop (is.map Item.func) s acts).2.2 = (loop (plain is) s acts').2.2 ∧
    ∀ x, cleanups (loop (is.map Item.func) s acts).2.1 x = cleanups (loop (plain is) s acts').2.1 x := by
  induction is generalizing s acts acts' with
  | nil => exact ⟨rfl, rfl, ha⟩
  | cons i is ih =>
    have nop : ∀ x, cleanups (acts ++ [(⟨fun s => (s, none), fun s => (s, none)⟩ : Action σ)]) x = cleanups acts' x := by
      intro x
      rw [cleanups_append, ← ha x]
      simp [cleanups]
    cases i with
    | begin => exact ih s _ acts' nop
    | commit => exact ih s _ acts' nop
    | stmt f =>
      have hp : plain (.stmt f :: is) = f :: plain is := rfl
      rw [hp, List.map_cons]
      simp only [Item.func, loop]
      rcases f s with ⟨s', e | a⟩
      · exact ⟨rfl, rfl, ha⟩
      · have hacts : ∀ x, cleanups (acts ++ [a]) x = cleanups (acts' ++ [a]) x := by
          intro x
          rw [cleanups_append, cleanups_append, ha x]
        simp only
        rcases a.exec s' with ⟨s'', _ | e⟩
        · exact ih s'' _ _ hacts
        · exact ⟨rfl, rfl, hacts⟩

/-- BEGIN and COMMIT have no effect: every script does what it does without them. -/
theorem C122_ignored {σ : Type} (is : List (Item σ)) (s : σ) : execContext (is.map Item.func) s = execContext (plain is) s := by
  obtain ⟨h1, h2, h3⟩ := loop_plain is s [] [] fun _ => rfl
  unfold execContext
  simp only
  rw [h1, h2, h3]

/-- The actions of a script without clean-ups. -/
theorem loop_noCleanup {σ : Type} (is : List (Item σ)) (hc : NoCleanup is) (s : σ) (acts : List (Action σ)) (ha : ∀ x, cleanups acts x = (x, [])) :
    ∀ x, cleanups (loop (is.map Item.func) s acts).2.1 x = (x, []) := by
  induction is generalizing s acts with
  | nil => exact ha
  | cons i is ih =>
    have hc' : NoCleanup is := fun f hf => hc f (List.mem_cons_of_mem _ hf)
    have nop : ∀ x, cleanups (acts ++ [(⟨fun s => (s, none), fun s => (s, none)⟩ : Action σ)]) x = (x, []) := by
      intro x
      rw [cleanups_append, ha x]
      simp [cleanups]
    cases i with
    | begin => exact ih hc' s _ nop
    | commit => exact ih hc' s _ nop
    | stmt f =>
      rw [List.map_cons]
      simp only [Item.func, loop]
      rcases hfs : f s with ⟨s', e | a⟩
      · exact ha
      · have hacts : ∀ x, cleanups (acts ++ [a]) x = (x, []) := by
          intro x
          rw [cleanups_append, ha x]
          simp [cleanups, hc f List.mem_cons_self s s' a hfs x]
        simp only
        rcases a.exec s' with ⟨s'', _ | e⟩
        · exact ih hc' s'' _ hacts
        · exact hacts

/-- Every BEGIN has its COMMIT. -/
def closed {σ : Type} : Bool → List (Item σ) → Bool
  | b, [] => !b
  | _, .begin :: is => closed true is
  | _, .commit :: is => closed false is
  | b, .stmt _ :: is => closed b is

theorem loop_transactional {σ : Type} (is : List (Item σ)) (s : σ) (acts : List (Action σ)) (saved : Option σ) :
    ((transactional is saved s).2 = (loop (is.map Item.func) s acts).2.2) ∧
    ((loop (is.map Item.func) s acts).2.2 = none → closed saved.isSome is = true → (transactional is saved s).1 = (loop (is.map Item.func) s acts).1) := by
  induction is generalizing s acts saved with
  | nil =>
    refine ⟨rfl, fun _ hcl => ?_⟩
    cases saved with
    | none => rfl
    | some _ => simp [closed] at hcl
  | cons i is ih =>
    cases i with
    | begin => exact ih s _ (some (saved.getD s))
    | commit => exact ih s _ none
    | stmt f =>
      rw [List.map_cons]
      simp only [Item.func, loop, transactional]
      rcases f s with ⟨s', e | a⟩
      · exact ⟨rfl, fun h => by cases h⟩
      · simp only
        rcases a.exec s' with ⟨s'', _ | e⟩
        · exact ih s'' _ saved
        · exact ⟨rfl, fun h => by cases h⟩

/-- C122, in part: a script fails when it should; if it does not fail and every BEGIN has its COMMIT, the database is as it
should be.  What is missing: after a failure between BEGIN and COMMIT the earlier changes stay (`C122_full_false`). -/
theorem C122_partial {σ : Type} (is : List (Item σ)) (hc : NoCleanup is) (s : σ) :
    (execContext (is.map Item.func) s).2 = (transactional is none s).2.toList ∧
    ((execContext (is.map Item.func) s).2 = [] → closed false is = true → (execContext (is.map Item.func) s).1 = (transactional is none s).1) := by
  obtain ⟨h1, h2⟩ := loop_transactional is s [] none
  have h3 := loop_noCleanup is hc s [] (fun _ => rfl)
  unfold execContext
  simp only
  rw [h3, ← h1]
  refine ⟨by simp, fun he hcl => ?_⟩
  rw [List.append_nil] at he
  have : (transactional is none s).2 = none := by
    cases e : (transactional is none s).2 with
    | none => rfl
    | some x => rw [e] at he; simp at he
  exact (h2 (h1 ▸ this) hcl).symm

example : closed false [Item.begin, .stmt (insert 1), .stmt (insert 2), .commit] = true ∧
    (transactional [Item.begin, .stmt (insert 1), .stmt (insert 2), .commit] none []).1 = [1, 2] ∧
    (transactional [Item.begin, .stmt (insert 1), .stmt failing, .commit] none []) = ([], some 1) ∧
    (execContext ([Item.begin, .stmt (insert 1), .stmt failing, .commit].map Item.func) []) = ([1], [1]) := ⟨rfl, rfl, rfl, rfl⟩

/-! ### C123 -/

/-- C123: a prepared statement does what the statement does when it is run at once. -/
def C123_full : Prop := ∀ (s : PStmt) (m : Method) (values : List (Arg Nat)), runPrepared (prepareScript [s]) m values = direct s values

theorem C123_full_false : ¬ C123_full := by
  intro h
  have := h ⟨.createTable 0 false, .lit⟩ .exec []
  revert this
  decide

/-- A prepared CREATE TABLE or CREATE VIEW can never be run. -/
theorem C123_create {V} (k : Kind) (hk : (∃ t r, k = .createTable t r) ∨ ∃ t r, k = .createView t r) (e : Expr) (m : Method) (values : List (Arg V)) :
    runPrepared (prepareScript [⟨k, e⟩]) m values = .err := by
  rcases hk with ⟨t, r, rfl⟩ | ⟨t, r, rfl⟩ <;> simp only [prepareScript, prepared, runPrepared, call] <;> (split <;> try rfl) <;> split <;> rfl

/-- A prepared DROP, TRUNCATE, MERGE, BEGIN or COMMIT panics. -/
theorem C123_nil {V} (k : Kind) (hk : k ∈ [Kind.drop, .truncate, .merge, .begin, .commit]) (e : Expr) (m : Method) (values : List (Arg V)) :
    runPrepared (prepareScript [⟨k, e⟩]) m values = .panic := by
  simp only [List.mem_cons, List.not_mem_nil, or_false] at hk
  rcases hk with rfl | rfl | rfl | rfl | rfl <;> rfl

/-- A prepared CREATE TEMP FUNCTION stays, and is never reported as changed. -/
theorem C123_function (temp : Bool) (e : Expr) : runPrepared (prepareScript [⟨.createFunction temp, e⟩]) .exec ([] : List (Arg Nat)) = .function false true ∧
    direct ⟨.createFunction temp, e⟩ ([] : List (Arg Nat)) = .function true (!temp) := ⟨rfl, rfl⟩

/-- Of a script, only the last statement is run, and it gets the first arguments. -/
theorem C123_last {V} (ss : List PStmt) (s : PStmt) (m : Method) (values : List (Arg V)) :
    runPrepared (prepareScript (ss ++ [s])) m values = runPrepared (prepareScript [s]) m values := by
  congr 1
  induction ss with
  | nil => rfl
  | cons a ss ih =>
    rw [← ih]
    cases ss with
    | nil => rfl
    | cons b ss => rfl

/-- Arguments with names are refused. -/
theorem C123_named {V} (s : PStmt) (m : Method) (values : List (Arg V)) (a : Arg V) (ha : a ∈ values) (hn : a.name ≠ []) (hs : prepared s = some s) :
    runPrepared (prepareScript [s]) m values = .err := by
  have : values.any (fun a => decide (a.name ≠ [])) = true := List.any_eq_true.2 ⟨a, ha, by simp [hn]⟩
  simp only [prepareScript, hs, runPrepared, this, if_true]
  split <;> rfl

theorem pickAll_unnamed {V} (values : List (Arg V)) (hu : ∀ a ∈ values, a.name = []) (ns : List Name) (k : Nat) (hk : k + ns.length = values.length) :
    pickAll values k ns = some (values.drop k) := by
  induction ns generalizing k with
  | nil =>
    rw [List.length_nil, Nat.add_zero] at hk
    rw [pickAll, hk, List.drop_length]
  | cons n ns ih =>
    rw [List.length_cons] at hk
    have hlt : k < values.length := by omega
    have hp : pick values k n = some values[k] := by
      unfold pick
      have hl : n ≠ [] → lastNamed values n = none := by
        intro hn
        unfold lastNamed
        rw [List.filter_eq_nil_iff.2]
        · rfl
        · intro a ha
          rw [hu a ha]
          simp only [lower, List.map_nil, decide_eq_true_eq]
          exact fun e => hn e.symm
      split
      · rename_i hn
        rw [hl hn]
        exact List.getElem?_eq_getElem hlt
      · exact List.getElem?_eq_getElem hlt
    have hd : values.drop k = values[k] :: values.drop (k + 1) := List.drop_eq_getElem_cons hlt
    rw [pickAll, hp, ih (k + 1) (by omega), hd]
    have hname := hu values[k] (List.getElem_mem hlt)
    generalize values[k] = a at hname ⊢
    obtain ⟨nm, v⟩ := a
    simp only at hname
    subst hname
    rfl

theorem sqlite_names {V} (occ : List Name) (values : List (Arg V)) (hu : ∀ a ∈ values, a.name = []) :
    (values.map Arg.value).map (fun v => (⟨[], v⟩ : Arg V)) = values := by
  induction values with
  | nil => rfl
  | cons a values ih =>
    rw [List.map_cons, List.map_cons, ih fun x hx => hu x (List.mem_cons_of_mem _ hx)]
    obtain ⟨nm, v⟩ := a
    have := hu ⟨nm, v⟩ List.mem_cons_self
    simp only at this
    subst this
    rfl

/-- C123, in part: a prepared INSERT, UPDATE, DELETE (with `Exec`) or query (with `Query`), with as many arguments as it has
parameters and no names on them, does exactly what it does when it is run at once; with another number of arguments it
fails.  What is missing: everything else (the theorems above). -/
theorem C123_partial {V} (s : PStmt) (m : Method) (hk : (s.kind = .dml ∧ m = .exec) ∨ (s.kind = .query ∧ m = .query)) (values : List (Arg V)) (hu : ∀ a ∈ values, a.name = []) :
    runPrepared (prepareScript [s]) m values = if values.length = (getParams [] s.expr.walk).length then direct s values else .err := by
  obtain ⟨k, e⟩ := s
  have hany : values.any (fun a => decide (a.name ≠ [])) = false := by
    rw [List.any_eq_false]
    intro a ha
    simp [hu a ha]
  have main : values.length = (getParams [] e.walk).length →
      Out.ofRes (sqlite ((e.format 0).map Prod.snd) ((values.map Arg.value).map fun v => (⟨[], v⟩ : Arg V))) = Out.ofRes (runStmt values e) := by
    intro hl
    have hp := pickAll_unnamed values hu (getParams [] e.walk) 0 (by omega)
    rw [sqlite_names [] values hu]
    unfold runStmt getArgs
    rw [if_neg (by omega), hp, List.drop_zero]
    rfl
  simp only at hk
  rcases hk with ⟨rfl, rfl⟩ | ⟨rfl, rfl⟩
  · simp only [prepareScript, prepared, runPrepared, numInput, hany]
    by_cases hl : values.length = (getParams [] e.walk).length
    · simp only [hl, ne_eq, not_true, if_false, if_true, Bool.false_eq_true, call, direct]
      exact main hl
    · simp only [hl, ne_eq, not_false_eq_true, if_true, if_false]
  · simp only [prepareScript, prepared, runPrepared, numInput, hany]
    by_cases hl : values.length = (getParams [] e.walk).length
    · simp only [hl, ne_eq, not_true, if_false, if_true, Bool.false_eq_true, call, direct]
      exact main hl
    · simp only [hl, ne_eq, not_false_eq_true, if_true, if_false]

example : runPrepared (prepareScript [⟨.dml, .app (.param []) (.param [])⟩]) .exec [(⟨[], 7⟩ : Arg Nat), ⟨[], 8⟩] = .ran [some 7, some 8] := by decide

/-! ### C124 -/

/-- C124: preparing a statement changes no table. -/
def C124_full : Prop := ∀ (db : Tables) (ss : List PStmt), prepareScriptEffect db ss = db

theorem C124_full_false : ¬ C124_full := by
  intro h
  have := congrFun (h (fun _ => some [1]) [⟨.createTable 0 true, .lit⟩]) 0
  revert this
  decide

/-- The tables and views that a statement of the script creates or replaces. -/
def replaces (ss : List PStmt) (t : Nat) : Prop := ∃ s ∈ ss, s.kind = .createTable t true ∨ s.kind = .createView t true

theorem effect_other (db : Tables) (s : PStmt) (t : Nat) (hs : ¬ (s.kind = .createTable t true ∨ s.kind = .createView t true)) : prepareEffect db s t = db t := by
  obtain ⟨k, e⟩ := s
  cases k with
  | createTable u r =>
    cases r with
    | false => rfl
    | true =>
      show (if t = u then none else db t) = db t
      rw [if_neg]
      rintro rfl
      exact hs (.inl rfl)
  | createView u r =>
    cases r with
    | false => rfl
    | true =>
      show (if t = u then none else db t) = db t
      rw [if_neg]
      rintro rfl
      exact hs (.inr rfl)
  | _ => rfl

theorem effect_at (db : Tables) (s : PStmt) (t : Nat) : prepareEffect db s t = none ∨ prepareEffect db s t = db t := by
  by_cases hs : s.kind = .createTable t true ∨ s.kind = .createView t true
  · left
    unfold prepareEffect
    rcases hs with hk | hk <;> (rw [hk]; simp)
  · exact .inr (effect_other db s t hs)

/-- C124, in part: exactly the tables of CREATE OR REPLACE are gone, the others are unchanged. -/
theorem C124_partial (db : Tables) (ss : List PStmt) (t : Nat) :
    (replaces ss t → prepareScriptEffect db ss t = none) ∧ (¬ replaces ss t → prepareScriptEffect db ss t = db t) := by
  have keep : ∀ (ss : List PStmt) (db : Tables), db t = none → prepareScriptEffect db ss t = none := by
    intro ss
    induction ss with
    | nil => intro db h; exact h
    | cons s ss ih =>
      intro db h
      refine ih _ ?_
      rcases effect_at db s t with e | e
      · exact e
      · rw [e, h]
  induction ss generalizing db with
  | nil =>
    constructor
    · rintro ⟨s, hs, _⟩; cases hs
    · intro _; rfl
  | cons s ss ih =>
    have unf : prepareScriptEffect db (s :: ss) = prepareScriptEffect (prepareEffect db s) ss := rfl
    rw [unf]
    constructor
    · rintro ⟨x, hx, hk⟩
      rcases List.mem_cons.1 hx with rfl | hx
      · refine keep ss _ ?_
        unfold prepareEffect
        rcases hk with hk | hk <;> (rw [hk]; simp)
      · exact (ih (prepareEffect db s)).1 ⟨x, hx, hk⟩
    · intro hn
      rw [(ih (prepareEffect db s)).2 fun ⟨x, hx, hk⟩ => hn ⟨x, List.mem_cons_of_mem _ hx, hk⟩]
      have hs : ¬ (s.kind = .createTable t true ∨ s.kind = .createView t true) := fun hk => hn ⟨s, List.mem_cons_self, hk⟩
      exact effect_other db s t hs

/-- A prepared CREATE OR REPLACE TABLE removes the table and can then not be run: the data is lost. -/
theorem C124_lost (db : Tables) (t : Nat) (e : Expr) (m : Method) (values : List (Arg Nat)) :
    prepareScriptEffect db [⟨.createTable t true, e⟩] t = none ∧ runPrepared (prepareScript [⟨.createTable t true, e⟩]) m values = .err :=
  ⟨(C124_partial db _ t).1 ⟨_, List.mem_cons_self, .inl rfl⟩, C123_create _ (.inl ⟨t, true, rfl⟩) e m values⟩

end Verif.Prepared
