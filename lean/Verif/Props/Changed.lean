import Verif.Model.Catalog

/-!
# C06: the catalog changes reported for a call are the net effect
-/

namespace Verif.Catalog
open Verif.Go

namespace Spec

/-- What an event says about table `n`: created (`true`), dropped (`false`), nothing. -/
def aboutTable (n : Name) : Ev → Option Bool
  | .addTable s => if s.key = n then some true else none
  | .delTable s => if s.key = n then some false else none
  | _ => none

/-- What an event says about function `n`. -/
def aboutFn (n : Name) : Ev → Option Bool
  | .addFn s => if s.key = n then some true else none
  | .delFn (some s) => if s.key = n then some false else none
  | _ => none

/-- The last thing a history says. -/
def last (about : Ev → Option Bool) : List Ev → Option Bool
  | [] => none
  | e :: es => (last about es).or (about e)

end Spec

/-- No dropped function is unknown to the connection (nil specification). -/
def NoNil (evs : List Ev) : Prop := ∀ e ∈ evs, e ≠ .delFn none

/-- **C06** (full): the claim for every history, including drops of functions whose
specification the connection does not hold. -/
def C06_full : Prop := ∀ evs : List Ev, ∃ c, Changed.new.run evs = .ok c ∧
  (∀ n, (∃ s ∈ c.tAdded, s.key = n) ↔ Spec.last (Spec.aboutTable n) evs = some true) ∧
  (∀ n, (∃ s ∈ c.tDeleted, s.key = n) ↔ Spec.last (Spec.aboutTable n) evs = some false) ∧
  (∀ n, (∃ s, some s ∈ c.fAdded ∧ s.key = n) ↔ Spec.last (Spec.aboutFn n) evs = some true) ∧
  (∀ n, (∃ s, some s ∈ c.fDeleted ∧ s.key = n) ↔ Spec.last (Spec.aboutFn n) evs = some false) ∧
  (c.changed = true ↔ evs ≠ [])

/-- A DROP FUNCTION recorded without a specification makes the next change panic. -/
theorem C06_full_false : ¬ C06_full := by
  intro h
  obtain ⟨c, hc, -⟩ := h [.delFn none, .addFn ⟨["f".toList], false, false, 0⟩]
  simp [Changed.run, Changed.step, Changed.new, removeFn] at hc

theorem removeFn_some (l : List Spec) (s : Spec) :
    removeFn (l.map some) (some s) = .ok ((removeTable l s).map some) := by
  induction l with
  | nil => rfl
  | cons x xs ih =>
    simp only [List.map_cons, removeFn, ih, Res.bind'_ok, removeTable, List.filter_cons]
    by_cases h : x.key = s.key <;> simp [h]

/-- Per-kind invariant: the two lists hold, per name, what the last event says. -/
structure ChInv (about : Name → Ev → Option Bool) (evs : List Ev) (added deleted : List Spec) : Prop where
  added : ∀ n, (∃ s ∈ added, s.key = n) ↔ Spec.last (about n) evs = some true
  deleted : ∀ n, (∃ s ∈ deleted, s.key = n) ↔ Spec.last (about n) evs = some false

theorem last_append (about : Ev → Option Bool) (evs : List Ev) (e : Ev) :
    Spec.last about (evs ++ [e]) = (about e).or (Spec.last about evs) := by
  induction evs with
  | nil => simp [Spec.last]
  | cons x xs ih => simp [Spec.last, ih, Option.or_assoc]

theorem inv_step_other {about evs a d} (e : Ev) (h : ChInv about evs a d) (ho : ∀ n, about n e = none) :
    ChInv about (evs ++ [e]) a d := by
  constructor
  · intro n; rw [last_append, ho]; simpa using h.added n
  · intro n; rw [last_append, ho]; simpa using h.deleted n

theorem mem_removeTable {l : List Spec} {s : Spec} {n : Name} :
    (∃ t ∈ removeTable l s, t.key = n) ↔ (∃ t ∈ l, t.key = n) ∧ n ≠ s.key := by
  constructor
  · rintro ⟨t, ht, rfl⟩
    simp only [removeTable, List.mem_filter, decide_eq_true_eq] at ht
    exact ⟨⟨t, ht.1, rfl⟩, ht.2⟩
  · rintro ⟨⟨t, ht, rfl⟩, hne⟩
    exact ⟨t, by simp [removeTable, ht, hne], rfl⟩

theorem inv_step_add {about evs a d} (e : Ev) (s : Spec) (h : ChInv about evs a d)
    (ho : ∀ n, about n e = if s.key = n then some true else none) :
    ChInv about (evs ++ [e]) (a ++ [s]) (removeTable d s) := by
  constructor
  · intro n
    rw [last_append, ho]
    by_cases hn : s.key = n
    · simp [hn]
    · rw [if_neg hn]
      rw [Option.none_or, ← h.added n]
      constructor
      · rintro ⟨t, ht, rfl⟩
        simp at ht
        rcases ht with ht | rfl
        · exact ⟨t, ht, rfl⟩
        · exact absurd rfl hn
      · rintro ⟨t, ht, rfl⟩; exact ⟨t, by simp [ht], rfl⟩
  · intro n
    rw [last_append, ho, mem_removeTable, h.deleted n]
    by_cases hn : s.key = n
    · simp [hn]
    · simp [hn]
      intro _ h'; exact hn h'.symm

theorem inv_step_del {about evs a d} (e : Ev) (s : Spec) (h : ChInv about evs a d)
    (ho : ∀ n, about n e = if s.key = n then some false else none) :
    ChInv about (evs ++ [e]) (removeTable a s) (d ++ [s]) := by
  constructor
  · intro n
    rw [last_append, ho, mem_removeTable, h.added n]
    by_cases hn : s.key = n
    · simp [hn]
    · simp [hn]
      intro _ h'; exact hn h'.symm
  · intro n
    rw [last_append, ho]
    by_cases hn : s.key = n
    · simp [hn]
    · rw [if_neg hn]
      rw [Option.none_or, ← h.deleted n]
      constructor
      · rintro ⟨t, ht, rfl⟩
        simp at ht
        rcases ht with ht | rfl
        · exact ⟨t, ht, rfl⟩
        · exact absurd rfl hn
      · rintro ⟨t, ht, rfl⟩; exact ⟨t, by simp [ht], rfl⟩

theorem run_inv (pre evs : List Ev) (c : Changed) (fa fd : List Spec) (hn : NoNil evs)
    (ht : ChInv Spec.aboutTable pre c.tAdded c.tDeleted)
    (hf : ChInv Spec.aboutFn pre fa fd) (hfa : c.fAdded = fa.map some) (hfd : c.fDeleted = fd.map some)
    (hu : c.tUpdated = []) :
    ∃ c' fa' fd', c.run evs = .ok c' ∧ ChInv Spec.aboutTable (pre ++ evs) c'.tAdded c'.tDeleted ∧
      ChInv Spec.aboutFn (pre ++ evs) fa' fd' ∧ c'.fAdded = fa'.map some ∧ c'.fDeleted = fd'.map some ∧
      c'.tUpdated = [] := by
  induction evs generalizing pre c fa fd with
  | nil => exact ⟨c, fa, fd, rfl, by simpa using ht, by simpa using hf, hfa, hfd, hu⟩
  | cons e es ih =>
    have hes : NoNil es := fun x hx => hn x (List.mem_cons_of_mem _ hx)
    have happ : pre ++ e :: es = (pre ++ [e]) ++ es := by simp
    rw [happ]
    cases e with
    | addTable s =>
      simp only [Changed.run, Changed.step, Res.bind'_ok]
      exact ih (pre ++ [.addTable s])
        { c with tDeleted := removeTable c.tDeleted s, tAdded := c.tAdded ++ [s] } fa fd hes (inv_step_add _ s ht (fun n => rfl))
        (inv_step_other _ hf (fun n => rfl)) hfa hfd hu
    | delTable s =>
      simp only [Changed.run, Changed.step, Res.bind'_ok]
      exact ih (pre ++ [.delTable s])
        { c with tAdded := removeTable c.tAdded s, tDeleted := c.tDeleted ++ [s] } fa fd hes (inv_step_del _ s ht (fun n => rfl))
        (inv_step_other _ hf (fun n => rfl)) hfa hfd hu
    | addFn s =>
      simp only [Changed.run, Changed.step, hfd, removeFn_some, Res.bind'_ok]
      exact ih (pre ++ [.addFn s])
        { c with fDeleted := (removeTable fd s).map some, fAdded := c.fAdded ++ [some s] } (fa ++ [s]) (removeTable fd s) hes
        (inv_step_other _ ht (fun n => rfl)) (inv_step_add _ s hf (fun n => rfl)) (by simp [hfa]) rfl hu
    | delFn o =>
      cases o with
      | none => exact absurd rfl (hn (.delFn none) (List.mem_cons_self ..))
      | some s =>
        simp only [Changed.run, Changed.step, hfa, hfd, removeFn_some, Res.bind'_ok]
        exact ih (pre ++ [.delFn (some s)])
          { c with fAdded := (removeTable fa s).map some, fDeleted := fd.map some ++ [some s] } (removeTable fa s) (fd ++ [s]) hes
          (inv_step_other _ ht (fun n => rfl)) (inv_step_del _ s hf (fun n => rfl)) rfl (by simp) hu

theorem last_some_of_ne_nil (evs : List Ev) (hne : evs ≠ []) (hn : NoNil evs) :
    ∃ n b, Spec.last (Spec.aboutTable n) evs = some b ∨ Spec.last (Spec.aboutFn n) evs = some b := by
  rcases List.eq_nil_or_concat evs with h | ⟨es, e, rfl⟩
  · exact absurd h hne
  · simp only [List.concat_eq_append] at *
    cases e with
    | addTable s => exact ⟨s.key, true, Or.inl (by rw [last_append]; simp [Spec.aboutTable])⟩
    | delTable s => exact ⟨s.key, false, Or.inl (by rw [last_append]; simp [Spec.aboutTable])⟩
    | addFn s => exact ⟨s.key, true, Or.inr (by rw [last_append]; simp [Spec.aboutFn])⟩
    | delFn o =>
      cases o with
      | none => exact absurd rfl (hn (.delFn none) (by simp))
      | some s => exact ⟨s.key, false, Or.inr (by rw [last_append]; simp [Spec.aboutFn])⟩

/-- **C06 (partial)**.  For every history in which each dropped function is known to the
connection, no call panics and an object is reported Added / Deleted iff the last change to
its name created / dropped it; Changed() is true iff anything happened.  Missing:
drops of functions outside the connection's base path, where a later change
panics (`C06_full_false`). -/
theorem C06_changed_is_net_effect_partial (evs : List Ev) (hn : NoNil evs) :
    ∃ c, Changed.new.run evs = .ok c ∧
    (∀ n, (∃ s ∈ c.tAdded, s.key = n) ↔ Spec.last (Spec.aboutTable n) evs = some true) ∧
    (∀ n, (∃ s ∈ c.tDeleted, s.key = n) ↔ Spec.last (Spec.aboutTable n) evs = some false) ∧
    (∀ n, (∃ s, some s ∈ c.fAdded ∧ s.key = n) ↔ Spec.last (Spec.aboutFn n) evs = some true) ∧
    (∀ n, (∃ s, some s ∈ c.fDeleted ∧ s.key = n) ↔ Spec.last (Spec.aboutFn n) evs = some false) ∧
    (c.changed = true ↔ evs ≠ []) := by
  have hinit : ∀ about, ChInv about [] [] [] := fun about =>
    ⟨fun n => by simp [Spec.last], fun n => by simp [Spec.last]⟩
  obtain ⟨c, fa, fd, hrun, ht, hf, hfa, hfd, hu⟩ :=
    run_inv [] evs Changed.new [] [] hn (hinit _) (hinit _) rfl rfl rfl
  simp only [List.nil_append] at ht hf
  refine ⟨c, hrun, ht.added, ht.deleted, ?_, ?_, ?_⟩
  · intro n; rw [← hf.added n, hfa]; simp
  · intro n; rw [← hf.deleted n, hfd]; simp
  · constructor
    · intro hc he
      subst he
      simp [Changed.run] at hrun
      subst hrun
      simp [Changed.changed, Changed.new] at hc
    · intro hne
      obtain ⟨n, b, h⟩ := last_some_of_ne_nil evs hne hn
      have key : c.tAdded ≠ [] ∨ c.tDeleted ≠ [] ∨ c.fAdded ≠ [] ∨ c.fDeleted ≠ [] := by
        rcases h with h | h <;> cases b
        · obtain ⟨s, hs, _⟩ := (ht.deleted n).2 h; exact Or.inr (Or.inl (List.ne_nil_of_mem hs))
        · obtain ⟨s, hs, _⟩ := (ht.added n).2 h; exact Or.inl (List.ne_nil_of_mem hs)
        · obtain ⟨s, hs, _⟩ := (hf.deleted n).2 h
          have := List.ne_nil_of_mem hs
          exact Or.inr (Or.inr (Or.inr (by simp [hfd, this])))
        · obtain ⟨s, hs, _⟩ := (hf.added n).2 h
          have := List.ne_nil_of_mem hs
          exact Or.inr (Or.inr (Or.inl (by simp [hfa, this])))
      simp [Changed.changed]
      rcases key with h | h | h | h <;> simp [h]

/-- A history with every kind of change satisfies the hypothesis. -/
example : NoNil [.addTable ⟨["t".toList], false, false, 0⟩, .delTable ⟨["t".toList], false, false, 0⟩,
    .addFn ⟨["f".toList], false, false, 1⟩, .delFn (some ⟨["f".toList], false, false, 1⟩)] := by
  intro e he
  simp at he
  rcases he with rfl | rfl | rfl | rfl <;> simp

/-- Consequently nothing is reported both as added and as deleted. -/
theorem C06_never_both_partial (evs : List Ev) (hn : NoNil evs) (c : Changed) (h : Changed.new.run evs = .ok c)
    (s s' : Spec) :
    (s ∈ c.tAdded → s' ∈ c.tDeleted → s.key ≠ s'.key) ∧
    (some s ∈ c.fAdded → some s' ∈ c.fDeleted → s.key ≠ s'.key) := by
  obtain ⟨c', hc', h1, h2, h3, h4, -⟩ := C06_changed_is_net_effect_partial evs hn
  rw [h] at hc'
  cases hc'
  constructor
  · intro ha hd he
    have a := (h1 s.key).1 ⟨s, ha, rfl⟩
    have b := (h2 s.key).1 ⟨s', hd, he.symm⟩
    rw [a] at b; simp at b
  · intro ha hd he
    have a := (h3 s.key).1 ⟨s, ha, rfl⟩
    have b := (h4 s.key).1 ⟨s', hd, he.symm⟩
    rw [a] at b; simp at b

end Verif.Catalog
