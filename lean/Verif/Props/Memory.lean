import Verif.Model.Memory

/-! # C295: connections of one name work on one database -/

namespace Verif.Memory

open Go

variable {N V : Type} [DecidableEq N]

/-- One database: what a statement does and returns, whoever makes it. -/
def ideal (db : N → Option (List V)) : Call N V → (N → Option (List V)) × Res (List V)
  | .create n => match db n with
    | some _ => (db, .err)
    | none => (fun m => if m = n then some [] else db m, .ok [])
  | .insert n v => match db n with
    | none => (db, .err)
    | some t => (fun m => if m = n then some (t ++ [v]) else db m, .ok [])
  | .select n => match db n with
    | none => (db, .err)
    | some t => (db, .ok t)
  | .drop n => match db n with
    | none => (db, .err)
    | some _ => (fun m => if m = n then none else db m, .ok [])

/-- What the statements return if there is one database. -/
def answers : (N → Option (List V)) → List (Call N V) → List (Res (List V))
  | _, [] => []
  | db, x :: h => (ideal db x).2 :: answers (ideal db x).1 h

/-- **C295** in full: connections opened with one name work on one database, whatever the name. -/
def C295_full (N V : Type) [DecidableEq N] : Prop :=
  ∀ (s : Store) (h : List (Nat × Call N V)), run s .empty h = answers (fun _ => none) (h.map Prod.snd)

/-- The catalog has the tables of `db`, which all are in the database 0. -/
def OneFile (st : St N V) (db : N → Option (List V)) : Prop := st.db 0 = db ∧ ∀ n, st.cat n = (db n).isSome

theorem step_file (c : Nat) {st : St N V} {db} (h : OneFile st db) (x : Call N V) :
    (step .file c st x).2 = (ideal db x).2 ∧ OneFile (step .file c st x).1 (ideal db x).1 := by
  obtain ⟨h1, h2⟩ := h
  subst h1
  cases x with
  | create n =>
    simp only [step, ideal, Store.at]
    cases hn : st.db 0 n with
    | some t => exact ⟨rfl, rfl, h2⟩
    | none =>
      refine ⟨rfl, ?_, fun m => ?_⟩
      · funext m; simp [put]
      · by_cases hm : m = n
        · simp [hm]
        · simp [hm, h2 m]
  | insert n v =>
    simp only [step, ideal, Store.at, h2 n]
    cases hn : st.db 0 n with
    | none => exact ⟨rfl, rfl, h2⟩
    | some t =>
      refine ⟨rfl, ?_, fun m => ?_⟩
      · funext m; simp [put]
      · by_cases hm : m = n
        · simp [hm, h2 n, hn]
        · simp [hm, h2 m]
  | select n =>
    simp only [step, ideal, Store.at, h2 n]
    cases hn : st.db 0 n with
    | none => exact ⟨rfl, rfl, h2⟩
    | some t => exact ⟨rfl, rfl, h2⟩
  | drop n =>
    simp only [step, ideal, Store.at, h2 n]
    cases hn : st.db 0 n with
    | none => exact ⟨rfl, rfl, h2⟩
    | some t =>
      refine ⟨rfl, ?_, fun m => ?_⟩
      · funext m; simp [put]
      · by_cases hm : m = n
        · simp [hm]
        · simp [hm, h2 m]

/-- **C295** holds for files: every history of any number of connections. -/
theorem C295_file_partial (h : List (Nat × Call N V)) : run .file .empty h = answers (fun _ => none) (h.map Prod.snd) := by
  have key : ∀ (h : List (Nat × Call N V)) (st : St N V) db, OneFile st db → run .file st h = answers db (h.map Prod.snd) := by
    intro h
    induction h with
    | nil => intros; rfl
    | cons p h ih =>
      intro st db hs
      obtain ⟨c, x⟩ := p
      obtain ⟨e, hs'⟩ := step_file c hs x
      simp only [run, List.map_cons, answers, e, ih _ _ hs']
  exact key h _ _ ⟨rfl, fun _ => rfl⟩

/-- Whose connection made the table of a name. -/
def owner (own : N → Option Nat) (c : Nat) : Call N V → N → Option Nat
  | .create n => fun m => if m = n then some c else own m
  | .drop n => fun m => if m = n then none else own m
  | _ => own

/-- While there is a table, only the connection that made it uses its name. -/
def Alone : (N → Option Nat) → List (Nat × Call N V) → Prop
  | _, [] => True
  | own, (c, x) :: h => (∀ k, own x.name = some k → k = c) ∧ Alone (owner own c x) h

/-- Each table is in the database of its owner and nowhere else. -/
def Owned (st : St N V) (own : N → Option Nat) (db : N → Option (List V)) : Prop :=
  (∀ n, st.cat n = (db n).isSome) ∧ (∀ n, (own n).isSome = (db n).isSome) ∧ ∀ c n, st.db c n = if own n = some c then db n else none

theorem step_memory (c : Nat) {st : St N V} {own db} (h : Owned st own db) (x : Call N V) :
    ((∀ k, own x.name = some k → k = c) → (step .memory c st x).2 = (ideal db x).2 ∧ Owned (step .memory c st x).1 (owner own c x) (ideal db x).1) ∧
    ((step .memory c st x).2 = (ideal db x).2 → ∀ k, own x.name = some k → k = c) := by
  obtain ⟨h1, h2, h3⟩ := h
  have hc := h1 x.name
  have ho := h2 x.name
  have hd := h3 c x.name
  have same : Owned st own db := ⟨h1, h2, h3⟩
  have upd : ∀ (own' : N → Option Nat) (t : Option (List V)), (∀ m, m ≠ x.name → own' m = own m) →
      (own' x.name = none ∧ t = none ∨ own' x.name = some c ∧ t.isSome = true) → (∀ k, own x.name = some k → k = c) → ∀ cat : N → Bool,
      (∀ m, cat m = if m = x.name then t.isSome else st.cat m) →
      Owned { cat := cat, db := put st.db c x.name t } own' (fun m => if m = x.name then t else db m) := by
    intro own' t ho' ht hk cat hcat
    refine ⟨fun m => ?_, fun m => ?_, fun d m => ?_⟩
    · show cat m = _
      rw [hcat m]
      by_cases hm : m = x.name
      · simp [hm]
      · simp [hm, h1 m]
    · by_cases hm : m = x.name
      · subst hm; rcases ht with ⟨e, rfl⟩ | ⟨e, et⟩ <;> simp [*]
      · simp [hm, ho' m hm, h2 m]
    · by_cases hm : m = x.name
      · subst hm
        by_cases hdc : d = c
        · subst hdc; rcases ht with ⟨e, rfl⟩ | ⟨e, et⟩ <;> simp [put, *]
        · have e1 : own' x.name ≠ some d := by
            rcases ht with ⟨e, -⟩ | ⟨e, -⟩
            · simp [e]
            · rw [e]; intro h; cases h; exact hdc rfl
          have e2 : own x.name ≠ some d := fun h => hdc (hk d h)
          simp [put, hdc, h3, e1, e2]
      · simp [put, hm, h3, ho' m hm]
  cases e : own x.name with
  | none =>
    rw [e] at ho hd
    have hn : db x.name = none := by cases h : db x.name <;> simp_all
    simp only [hn, Option.isSome_none, reduceCtorEq, if_false] at hc hd
    refine ⟨fun hk => ?_, fun _ k hk => by cases hk⟩
    cases x with
    | create n =>
      simp only [Call.name] at *
      simp only [step, ideal, Store.at, hd, hn]
      refine ⟨by trivial, upd _ _ (fun m hm => by simp [owner, hm]) (.inr ⟨by simp [owner], rfl⟩) (by simp [e]) _ (fun m => rfl)⟩
    | insert n v =>
      simp only [Call.name] at *
      simp only [step, ideal, hc, hn]
      exact ⟨by trivial, same⟩
    | select n =>
      simp only [Call.name] at *
      simp only [step, ideal, hc, hn]
      exact ⟨by trivial, same⟩
    | drop n =>
      simp only [Call.name] at *
      simp only [step, ideal, Store.at, hd, hn]
      refine ⟨by trivial, h1, fun m => ?_, fun d m => ?_⟩
      · by_cases hm : m = n
        · subst hm; simp [owner, hn]
        · simp [owner, hm, h2 m]
      · by_cases hm : m = n
        · subst hm; simp [owner, h3, e]
        · simp [owner, hm, h3]
  | some k =>
    rw [e] at ho hd
    obtain ⟨t, ht⟩ : ∃ t, db x.name = some t := by cases h : db x.name <;> simp_all
    rw [ht] at hc hd
    by_cases hk : k = c
    · subst hk
      simp only [if_true] at hd
      refine ⟨fun _ => ?_, fun _ k' hk' => by cases hk'; rfl⟩
      cases x with
      | create n =>
        simp only [Call.name] at *
        simp only [step, ideal, Store.at, hd, ht]
        refine ⟨by trivial, h1, fun m => ?_, fun d m => ?_⟩
        · by_cases hm : m = n
          · subst hm; simp [owner, ht]
          · simp [owner, hm, h2 m]
        · by_cases hm : m = n
          · subst hm; simp [owner, h3, e]
          · simp [owner, hm, h3]
      | insert n v =>
        simp only [Call.name] at *
        simp only [step, ideal, Store.at, hc, hd, ht, Option.isSome_some, if_true]
        refine ⟨by trivial, upd _ _ (fun m hm => rfl) (.inr ⟨e, rfl⟩) (by simp [e]) _ (fun m => ?_)⟩
        by_cases hm : m = n
        · simp [hm, hc]
        · simp [hm]
      | select n =>
        simp only [Call.name] at *
        simp only [step, ideal, Store.at, hc, hd, ht, Option.isSome_some, if_true]
        exact ⟨by trivial, same⟩
      | drop n =>
        simp only [Call.name] at *
        simp only [step, ideal, Store.at, hc, hd, ht, Option.isSome_some, if_true]
        exact ⟨by trivial, upd _ _ (fun m hm => by simp [owner, hm]) (.inl ⟨by simp [owner], rfl⟩) (by simp [e]) _ (fun m => rfl)⟩
    · have hd : st.db c x.name = none := by rw [hd, if_neg (fun h => hk (Option.some.inj h))]
      refine ⟨fun h => absurd (h k rfl) hk, fun heq => ?_⟩
      exfalso
      cases x <;> simp only [Call.name] at * <;> simp [step, ideal, Store.at, hc, hd, ht] at heq

/-- **C295** for `:memory:`, exactly: the answers are right just if every table is used by the connection that made it only. -/
theorem C295_memory_partial (h : List (Nat × Call N V)) :
    run .memory .empty h = answers (fun _ => none) (h.map Prod.snd) ↔ Alone (fun _ => none) h := by
  have key : ∀ (h : List (Nat × Call N V)) (st : St N V) own db, Owned st own db → (run .memory st h = answers db (h.map Prod.snd) ↔ Alone own h) := by
    intro h
    induction h with
    | nil => intros; simp [run, answers, Alone]
    | cons p h ih =>
      intro st own db hs
      obtain ⟨c, x⟩ := p
      obtain ⟨h1, h2⟩ := step_memory c hs x
      simp only [run, List.map_cons, answers, Alone, List.cons.injEq]
      constructor
      · rintro ⟨e, er⟩
        have ho := h2 e
        exact ⟨ho, (ih _ _ _ (h1 ho).2).1 er⟩
      · rintro ⟨ho, ha⟩
        exact ⟨(h1 ho).1, (ih _ _ _ (h1 ho).2).2 ha⟩
  exact key h _ _ _ ⟨fun _ => rfl, fun _ => rfl, fun _ _ => by simp [St.empty]⟩

/-- A table that one connection makes does not exist for another. -/
theorem C295_full_false (n : N) : ¬ C295_full N V := by
  intro h
  have := (C295_memory_partial [(0, .create n), (1, .select n)]).1 (h .memory _)
  have := this.2.1 0 (by simp [owner, Call.name])
  cases this

/-- One connection on its own never notices. -/
theorem C295_single (c : Nat) (h : List (Call N V)) : run .memory .empty (h.map fun x => (c, x)) = answers (fun _ => none) h := by
  have e : (h.map fun x => (c, x)).map Prod.snd = h := by rw [List.map_map]; exact List.map_id' h
  have key : ∀ (h : List (Call N V)) own, (∀ n k, own n = some k → k = c) → Alone own (h.map fun x => (c, x)) := by
    intro h
    induction h with
    | nil => intros; trivial
    | cons x h ih =>
      intro own ho
      refine ⟨ho _, ih _ fun n k hk => ?_⟩
      cases x with
      | create m =>
        simp only [owner] at hk
        split at hk
        · cases hk; rfl
        · exact ho n k hk
      | drop m =>
        simp only [owner] at hk
        split at hk
        · cases hk
        · exact ho n k hk
      | insert m v => exact ho n k hk
      | select m => exact ho n k hk
  have := (C295_memory_partial (h.map fun x => (c, x))).2 (key h _ (by simp))
  rwa [e] at this

/-- Two connections that leave each other's tables alone, and one that takes a name over after its table was dropped. -/
example : Alone (fun _ => none) [(0, Call.create 'a'), (1, .create 'b'), (0, .insert 'a' 5), (0, .drop 'a'), (1, .create 'a')] := by
  simp [Alone, owner, Call.name]
example : run .memory .empty [(0, Call.create 'a'), (0, .insert 'a' 5), (1, .select 'a')] = [.ok [], .ok [], .err] := by rfl
example : run .file .empty [(0, Call.create 'a'), (0, .insert 'a' 5), (1, .select 'a')] = [.ok [], .ok [], .ok [5]] := by rfl

end Verif.Memory
