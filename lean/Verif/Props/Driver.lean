import Verif.Model.Driver

/-!
# The driver loop, transactions and DSNs (C12, C13, C14, C16)
-/

namespace Verif.Driver

/-! ## C12 -/

/-- Specification: all of `fs` succeed one after the other, leading from `s` to `s'` and
creating the actions `acts`. -/
inductive AllSucceed {σ : Type} : List (ActionFunc σ) → σ → σ → List (Action σ) → Prop
  | nil (s) : AllSucceed [] s s []
  | cons {f fs s s1 s2 s3 a acts} : f s = (s1, .ok a) → a.exec s1 = (s2, none) → AllSucceed fs s2 s3 acts →
      AllSucceed (f :: fs) s s3 (a :: acts)

/-- Specification: the statement `f` fails at `s` with `e`, leaving `s'`; `acts` is the
action if one was created. -/
inductive Fails {σ : Type} (f : ActionFunc σ) (s : σ) : σ → List (Action σ) → Err → Prop
  | analysis {s' e} : f s = (s', .error e) → Fails f s s' [] e
  | execution {s1 s' a e} : f s = (s1, .ok a) → a.exec s1 = (s', some e) → Fails f s s' [a] e

theorem loop_spec {σ : Type} (fs : List (ActionFunc σ)) (s : σ) (acc : List (Action σ)) :
    (∃ s' acts, AllSucceed fs s s' acts ∧ loop fs s acc = (s', acc ++ acts, none)) ∨
    (∃ pre f post s1 s' acts last e, fs = pre ++ f :: post ∧ AllSucceed pre s s1 acts ∧ Fails f s1 s' last e ∧
      loop fs s acc = (s', acc ++ acts ++ last, some e)) := by
  induction fs generalizing s acc with
  | nil => exact .inl ⟨s, [], .nil s, by simp [loop]⟩
  | cons f fs ih =>
    cases hf : f s with
    | mk s1 r =>
      cases r with
      | error e =>
        exact .inr ⟨[], f, fs, s, s1, [], [], e, rfl, .nil s, .analysis hf, by simp [loop, hf]⟩
      | ok a =>
        cases he : a.exec s1 with
        | mk s2 o =>
          cases o with
          | some e =>
            exact .inr ⟨[], f, fs, s, s2, [], [a], e, rfl, .nil s, .execution hf he, by simp [loop, hf, he]⟩
          | none =>
            rcases ih s2 (acc ++ [a]) with ⟨s', acts, h1, h2⟩ | ⟨pre, g, post, s3, s', acts, last, e, h0, h1, h2, h3⟩
            · exact .inl ⟨s', a :: acts, .cons hf he h1, by simp [loop, hf, he, h2]⟩
            · exact .inr ⟨f :: pre, g, post, s3, s', a :: acts, last, e, by simp [h0], .cons hf he h1, h2, by
                simp [loop, hf, he, h3]⟩

/-- C12 and the Exec half of C13.  Either every statement succeeded in text order, or there is a
first failing statement: the statements before it succeeded in order, the statements after it
never ran, and its error heads the reported errors.  In both cases the cleanup of
every action created by the call runs exactly once, in creation order, whatever the
errors of the other cleanups; and success is reported iff nothing failed. -/
theorem C12_exec_stops_at_first_failure {σ : Type} (fs : List (ActionFunc σ)) (s : σ) :
    (∃ s' acts, AllSucceed fs s s' acts ∧ execContext fs s = cleanups acts s') ∨
    (∃ pre f post s1 s' acts last e, fs = pre ++ f :: post ∧ AllSucceed pre s s1 acts ∧ Fails f s1 s' last e ∧
      (execContext fs s).1 = (cleanups (acts ++ last) s').1 ∧
      (execContext fs s).2 = e :: (cleanups (acts ++ last) s').2) := by
  rcases loop_spec fs s [] with ⟨s', acts, h1, h2⟩ | ⟨pre, f, post, s1, s', acts, last, e, h0, h1, h2, h3⟩
  · exact .inl ⟨s', acts, h1, by simp [execContext, h2]⟩
  · exact .inr ⟨pre, f, post, s1, s', acts, last, e, h0, h1, h2, by simp [execContext, h3], by simp [execContext, h3]⟩

/-- The statements before the first failure are determined by the script: the same script cannot both
run completely and stop. -/
theorem C12_outcome_unique {σ : Type} {pre post : List (ActionFunc σ)} {f : ActionFunc σ} {s s1 s' s'' : σ} {acts acts' last e}
    (h : AllSucceed pre s s1 acts) (hf : Fails f s1 s' last e) : ¬ AllSucceed (pre ++ f :: post) s s'' acts' := by
  intro h'
  induction h generalizing acts' with
  | nil s =>
    cases h' with
    | cons g1 g2 g3 =>
      cases hf with
      | analysis k => rw [k] at g1; simp at g1
      | execution k1 k2 =>
        rw [k1] at g1; simp at g1
        obtain ⟨rfl, rfl⟩ := g1
        rw [k2] at g2; simp at g2
  | cons k1 k2 k3 ih =>
    cases h' with
    | cons g1 g2 g3 =>
      rw [k1] at g1; simp at g1
      obtain ⟨rfl, rfl⟩ := g1
      rw [k2] at g2; simp at g2
      subst g2
      exact ih hf g3

/-- Test statement: adds `n` to the counter, fails if `fail`; cleanup subtracts it again. -/
def demo (n : Nat) (fail : Bool) : ActionFunc Nat :=
  fun s => (s, .ok { exec := fun s => (s + n, if fail then some n else none), cleanup := fun s => (s - n, none) })

example : execContext [demo 1 false, demo 2 true, demo 4 false] 10 = (10, [2]) := by decide
example : ∃ s' acts, AllSucceed [demo 1 false, demo 2 false] 10 s' acts :=
  ⟨13, _, .cons rfl rfl (.cons rfl rfl (.nil 13))⟩

/-! ## C13 -/

/-- Cleaning up all of `acts` once, in order. -/
def cleanedUp {σ : Type} (acts : List (Action σ)) (s : σ) : σ := acts.foldl (fun s a => (a.cleanup s).1) s

theorem cleanups_state {σ : Type} (acts : List (Action σ)) (s : σ) : (cleanups acts s).1 = cleanedUp acts s := by
  induction acts generalizing s with
  | nil => rfl
  | cons a as ih => simp [cleanups, cleanedUp, ih]

/-- C13 for Exec: whatever failed, the state after the call is the state the statements left
with every created action cleaned up once. -/
theorem C13_exec_cleans_up {σ : Type} (fs : List (ActionFunc σ)) (s : σ) :
    ∃ pre post s1 s' acts last, fs = pre ++ post ∧ AllSucceed pre s s1 acts ∧
      ((post = [] ∧ last = [] ∧ s' = s1) ∨ (∃ f rest e, post = f :: rest ∧ Fails f s1 s' last e)) ∧
      (execContext fs s).1 = cleanedUp (acts ++ last) s' := by
  rcases C12_exec_stops_at_first_failure fs s with ⟨s', acts, h1, h2⟩ | ⟨pre, f, post, s1, s', acts, last, e, h0, h1, h2, h3, _⟩
  · exact ⟨fs, [], s', s', acts, [], by simp, h1, .inl ⟨rfl, rfl, rfl⟩, by rw [h2, cleanups_state, List.append_nil]⟩
  · exact ⟨pre, f :: post, s1, s', acts, last, h0, h1, .inr ⟨f, post, e, rfl, h2⟩, by rw [h3, cleanups_state]⟩

/-- C13 for Query at full strength: a Query that fails has cleaned up what it created. -/
def C13_query_full : Prop := ∀ (σ : Type) (fs : List (ActionFunc σ)) (s s' : σ) (e : Err),
  queryContext fs s = (s', .error e) → ∃ s1, (loop fs s []).1 = s1 ∧ s' = cleanedUp (loop fs s []).2.1 s1

/-- The code violates C13: when a later statement of a Query fails, the temporary objects
created by the earlier ones stay. -/
theorem C13_query_full_false : ¬ C13_query_full := by
  intro h
  obtain ⟨s1, h1, h2⟩ := h Nat [demo 1 false, demo 2 true] 10 13 2 rfl
  subst h1
  revert h2; decide

/-- C13 for a Query that succeeds: closing the rows cleans every action up once, also if closing the
SQLite rows fails. -/
theorem C13_query_close_partial {σ : Type} (fs : List (ActionFunc σ)) (s s' : σ) (acts : List (Action σ))
    (h : queryContext fs s = (s', .rows acts)) :
    AllSucceed fs s s' acts ∧
    ∀ closeErr later, (closeRows acts closeErr later).1 = cleanedUp acts later := by
  refine ⟨?_, fun closeErr later => cleanups_state acts later⟩
  rcases loop_spec fs s [] with ⟨s1, acts1, h1, h2⟩ | ⟨pre, f, post, s1, s2, acts1, last, e, h0, h1, h2, h3⟩
  · simp [queryContext, h2] at h
    obtain ⟨rfl, rfl⟩ := h; exact h1
  · simp [queryContext, h3] at h

example : ∃ s' acts, queryContext [demo 1 false, demo 2 false] 10 = (s', .rows acts) := ⟨_, _, rfl⟩

/-! ## C14 -/

/-- Specification: the transaction open after a history: the last successful `begin` that has not been
followed by a commit or rollback, numbered by the successful begins before it. -/
def openTx : List Call → Option Nat × Nat
  | [] => (none, 0)
  | c :: cs =>  -- newest call first
    let (o, n) := openTx cs
    match c, o with
    | .begin true, none => (some n, n + 1)
    | .begin _, o => (o, n)
    | .commit _, _ => (none, n)
    | .rollback _, _ => (none, n)
    | .stmt, o => (o, n)

/-- C14: after any history of calls, successful or not, a statement runs in the transaction that is
open and outside any transaction if none is. -/
theorem C14_statement_runs_in_open_tx (calls : List Call) :
    ((Conn.init.run calls).step .stmt).2 = some (openTx calls.reverse).1 := by
  suffices h : ∀ calls, ((Conn.init.run calls).tx, (Conn.init.run calls).next) = openTx calls.reverse by
    have := h calls
    simp only [Conn.step]
    rw [← this]
  intro calls
  rw [← List.reverse_reverse calls]
  generalize calls.reverse = r
  simp only [List.reverse_reverse]
  induction r with
  | nil => rfl
  | cons c cs ih =>
    have hrun : Conn.init.run (c :: cs).reverse = ((Conn.init.run cs.reverse).step c).1 := by
      simp [Conn.run, List.foldl_append]
    rw [hrun]
    simp only [openTx]
    rw [← ih]
    generalize Conn.init.run cs.reverse = x
    obtain ⟨tx, next⟩ := x
    cases c with
    | begin ok => cases ok <;> cases tx <;> simp [Conn.step]
    | commit ok => simp [Conn.step]
    | rollback ok => simp [Conn.step]
    | stmt => simp [Conn.step]

/-- In particular a commit or rollback always ends the transaction, also when it reports an error, and
a begin that succeeds while none is open starts one. -/
theorem C14_ends_even_on_error (calls : List Call) (ok : Bool) :
    ((Conn.init.run (calls ++ [.commit ok])).step .stmt).2 = some none ∧
    ((Conn.init.run (calls ++ [.rollback ok])).step .stmt).2 = some none := by
  simp [C14_statement_runs_in_open_tx, openTx]

example : ((Conn.init.run [.begin true, .commit false, .stmt, .begin true]).step .stmt).2 = some (some 1) := by decide

/-! ## C16 -/

def Pc.locked : Pc → Bool
  | .start | .done _ => false
  | _ => true

def Pc.result : Pc → Option Handle
  | .unlock r | .done r => r
  | _ => none

structure RegInv (r : Reg) : Prop where
  lock : ∀ i, (r.threads i).pc.locked = true → r.lockedBy = some i
  opening : ∀ i, ((r.threads i).pc = .opening ∨ ∃ h, (r.threads i).pc = .store h) → r.dbs (r.threads i).dsn = none
  fresh : ∀ d h, r.dbs d = some h → h < r.next
  freshStore : ∀ i h, (r.threads i).pc = .store h → h < r.next ∧ ∀ d, r.dbs d ≠ some h
  inj : ∀ d d' h, r.dbs d = some h → r.dbs d' = some h → d = d'
  result : ∀ i h, (r.threads i).pc.result = some h → r.dbs (r.threads i).dsn = some h

theorem RegInv.init (dsns : Nat → Dsn) : RegInv (Reg.init dsns) := by
  constructor <;> intros <;> simp_all [Reg.init, Pc.locked, Pc.result]

theorem set_pc (r : Reg) (i j : Nat) (pc : Pc) :
    ((r.set i pc).threads j).pc = if j = i then pc else (r.threads j).pc := by
  simp only [Reg.set]; split <;> rfl

theorem set_dsn (r : Reg) (i j : Nat) (pc : Pc) : ((r.set i pc).threads j).dsn = (r.threads j).dsn := by
  simp only [Reg.set]; split
  · rename_i h; rw [h]
  · rfl

theorem RegInv.step {r : Reg} (h : RegInv r) (i : Nat) (ok : Bool) : RegInv (r.step i ok) := by
  unfold Reg.step
  cases hpc : (r.threads i).pc with
  | start =>
    by_cases hl : r.lockedBy = none
    · simp only [hpc, hl, if_true]
      have nolock : ∀ j, (r.threads j).pc.locked = false := by
        intro j
        cases hj : (r.threads j).pc.locked with
        | false => rfl
        | true => rw [h.lock j hj] at hl; simp at hl
      refine ⟨?_, ?_, h.fresh, ?_, h.inj, ?_⟩
      · intro j hj
        rw [set_pc] at hj
        split at hj
        · rename_i e; simp [Reg.set, e]
        · have := nolock j; simp_all
      · intro j hj
        simp only [set_pc] at hj
        split at hj
        · simp at hj
        · rw [set_dsn]; exact h.opening j hj
      · intro j h' hj
        rw [set_pc] at hj
        split at hj
        · simp at hj
        · exact h.freshStore j h' hj
      · intro j h' hj
        rw [set_pc] at hj
        split at hj
        · simp [Pc.result] at hj
        · rw [set_dsn]; exact h.result j h' hj
    · simp only [hpc, hl, if_false]; exact h
  | check =>
    cases hd : r.dbs (r.threads i).dsn with
    | some x =>
      simp only [hpc, hd]
      refine ⟨?_, ?_, h.fresh, ?_, h.inj, ?_⟩
      · intro j hj
        rw [set_pc] at hj
        split at hj
        · rename_i e; subst e; exact h.lock j (by rw [hpc]; rfl)
        · exact h.lock j hj
      · intro j hj
        simp only [set_pc] at hj
        rw [set_dsn]
        split at hj
        · simp at hj
        · exact h.opening j hj
      · intro j h' hj
        rw [set_pc] at hj
        split at hj
        · simp at hj
        · exact h.freshStore j h' hj
      · intro j h' hj
        rw [set_pc] at hj
        rw [set_dsn]
        split at hj
        · rename_i e; subst e; simp [Pc.result] at hj; subst hj; exact hd
        · exact h.result j h' hj
    | none =>
      simp only [hpc, hd]
      refine ⟨?_, ?_, h.fresh, ?_, h.inj, ?_⟩
      · intro j hj
        rw [set_pc] at hj
        split at hj
        · rename_i e; subst e; exact h.lock j (by rw [hpc]; rfl)
        · exact h.lock j hj
      · intro j hj
        simp only [set_pc] at hj
        rw [set_dsn]
        split at hj
        · rename_i e; subst e; exact hd
        · exact h.opening j hj
      · intro j h' hj
        rw [set_pc] at hj
        split at hj
        · simp at hj
        · exact h.freshStore j h' hj
      · intro j h' hj
        rw [set_pc] at hj
        rw [set_dsn]
        split at hj
        · simp [Pc.result] at hj
        · exact h.result j h' hj
  | opening =>
    have hnone := h.opening i (.inl hpc)
    cases ok with
    | true =>
      simp only [hpc, if_true]
      refine ⟨?_, ?_, ?_, ?_, h.inj, ?_⟩
      · intro j hj
        rw [set_pc] at hj
        split at hj
        · rename_i e; subst e; exact h.lock j (by rw [hpc]; rfl)
        · exact h.lock j hj
      · intro j hj
        simp only [set_pc] at hj
        rw [set_dsn]
        split at hj
        · rename_i e; subst e; exact hnone
        · exact h.opening j hj
      · intro d h' hd; exact Nat.lt_succ_of_lt (h.fresh d h' hd)
      · intro j h' hj
        rw [set_pc] at hj
        split at hj
        · simp at hj; subst hj
          exact ⟨Nat.lt_succ_self _, fun d hd => Nat.lt_irrefl _ (h.fresh d _ hd)⟩
        · have := h.freshStore j h' hj
          exact ⟨Nat.lt_succ_of_lt this.1, this.2⟩
      · intro j h' hj
        rw [set_pc] at hj
        rw [set_dsn]
        split at hj
        · simp [Pc.result] at hj
        · exact h.result j h' hj
    | false =>
      simp only [hpc, Bool.false_eq_true, if_false]
      refine ⟨?_, ?_, h.fresh, ?_, h.inj, ?_⟩
      · intro j hj
        rw [set_pc] at hj
        split at hj
        · rename_i e; subst e; exact h.lock j (by rw [hpc]; rfl)
        · exact h.lock j hj
      · intro j hj
        simp only [set_pc] at hj
        rw [set_dsn]
        split at hj
        · simp at hj
        · exact h.opening j hj
      · intro j h' hj
        rw [set_pc] at hj
        split at hj
        · simp at hj
        · exact h.freshStore j h' hj
      · intro j h' hj
        rw [set_pc] at hj
        rw [set_dsn]
        split at hj
        · simp [Pc.result] at hj
        · exact h.result j h' hj
  | store x =>
    have hnone := h.opening i (.inr ⟨x, hpc⟩)
    simp only [hpc]
    have hx := h.freshStore i x hpc
    have only : ∀ j, j ≠ i → (r.threads j).pc.locked = false := by
      intro j hj
      cases hl : (r.threads j).pc.locked with
      | false => rfl
      | true =>
        have h1 := h.lock j hl
        have h2 := h.lock i (by rw [hpc]; rfl)
        rw [h1] at h2; simp at h2; exact absurd h2 hj
    refine ⟨?_, ?_, ?_, ?_, ?_, ?_⟩
    · intro j hj
      rw [set_pc] at hj
      split at hj
      · rename_i e; subst e; exact h.lock j (by rw [hpc]; rfl)
      · exact h.lock j hj
    · intro j hj
      simp only [set_pc] at hj
      split at hj
      · simp at hj
      · rename_i hne
        have := only j hne
        rcases hj with hj | ⟨y, hj⟩ <;> rw [hj] at this <;> simp [Pc.locked] at this
    · intro d h' hd
      simp only [Reg.set] at hd ⊢
      split at hd
      · simp at hd; subst hd; exact hx.1
      · exact h.fresh d h' hd
    · intro j h' hj
      rw [set_pc] at hj
      split at hj
      · simp at hj
      · rename_i hne
        have := only j hne
        rw [hj] at this; simp [Pc.locked] at this
    · intro d d' h' hd hd'
      simp only [Reg.set] at hd hd'
      split at hd <;> split at hd'
      · rename_i e e'; rw [e, e']
      · simp at hd; subst hd; exact absurd hd' (hx.2 d')
      · simp at hd'; subst hd'; exact absurd hd (hx.2 d)
      · exact h.inj d d' h' hd hd'
    · intro j h' hj
      rw [set_pc] at hj
      rw [set_dsn]
      simp only [Reg.set]
      split at hj
      · rename_i e; subst e; simp [Pc.result] at hj; subst hj; simp
      · have := h.result j h' hj
        split
        · rename_i e; rw [e, hnone] at this; simp at this
        · exact this
  | unlock x =>
    simp only [hpc]
    have only : ∀ j, j ≠ i → (r.threads j).pc.locked = false := by
      intro j hj
      cases hl : (r.threads j).pc.locked with
      | false => rfl
      | true =>
        have h1 := h.lock j hl
        have h2 := h.lock i (by rw [hpc]; rfl)
        rw [h1] at h2; simp at h2; exact absurd h2 hj
    refine ⟨?_, ?_, h.fresh, ?_, h.inj, ?_⟩
    · intro j hj
      rw [set_pc] at hj
      split at hj
      · simp [Pc.locked] at hj
      · rename_i hne; have := only j hne; simp_all
    · intro j hj
      simp only [set_pc] at hj
      rw [set_dsn]
      split at hj
      · simp at hj
      · exact h.opening j hj
    · intro j h' hj
      rw [set_pc] at hj
      split at hj
      · simp at hj
      · exact h.freshStore j h' hj
    · intro j h' hj
      rw [set_pc] at hj
      rw [set_dsn]
      split at hj
      · rename_i e; subst e; exact h.result j h' (by rw [hpc]; exact hj)
      · exact h.result j h' hj
  | done x => simp only [hpc]; exact h

theorem RegInv.run {r : Reg} (h : RegInv r) (sched : List (Nat × Bool)) : RegInv (r.run sched) := by
  induction sched generalizing r with
  | nil => exact h
  | cons x xs ih => exact ih (h.step x.1 x.2)

theorem step_dsn (r : Reg) (i j : Nat) (ok : Bool) : ((r.step i ok).threads j).dsn = (r.threads j).dsn := by
  unfold Reg.step
  cases hpc : (r.threads i).pc <;> simp only [hpc]
  · split
    · exact set_dsn _ _ _ _
    · rfl
  · split <;> exact set_dsn _ _ _ _
  · split <;> exact set_dsn _ _ _ _
  · exact set_dsn _ _ _ _
  · exact set_dsn _ _ _ _

theorem run_dsn (r : Reg) (sched : List (Nat × Bool)) (j : Nat) : ((r.run sched).threads j).dsn = (r.threads j).dsn := by
  induction sched generalizing r with
  | nil => rfl
  | cons x xs ih =>
    have : (r.run (x :: xs)) = (r.step x.1 x.2).run xs := rfl
    rw [this, ih, step_dsn]

/-- C16: for every interleaving of any number of goroutines opening connections (with opens failing at
will), two opens that returned a handle got the same handle exactly when they asked for the
same DSN. -/
theorem C16_one_database_per_dsn (dsns : Nat → Dsn) (sched : List (Nat × Bool)) (i j : Nat) (hi hj : Handle)
    (h1 : (((Reg.init dsns).run sched).threads i).pc = .done (some hi))
    (h2 : (((Reg.init dsns).run sched).threads j).pc = .done (some hj)) :
    hi = hj ↔ dsns i = dsns j := by
  have h := (RegInv.init dsns).run sched
  have r1 := h.result i hi (by rw [h1]; rfl)
  have r2 := h.result j hj (by rw [h2]; rfl)
  rw [run_dsn] at r1 r2
  have d : ∀ i, ((Reg.init dsns).threads i).dsn = dsns i := fun _ => rfl
  rw [d] at r1 r2
  constructor
  · rintro rfl; exact h.inj _ _ _ r1 r2
  · intro e; rw [e] at r1; rw [r1] at r2; simpa using r2

/-- Two goroutines opening the same DSN, interleaved, both finish with handle 0. -/
example : let r := (Reg.init fun _ => 7).run [(0, true), (1, true), (0, true), (1, true), (0, true), (0, true), (0, true), (1, true), (1, true), (1, true)]
    (r.threads 0).pc = .done (some 0) ∧ (r.threads 1).pc = .done (some 0) := by decide

/-! ## What the call reports -/

/-- Specification: cleaning up `acts` leads from `s` to `s'`; `es` are the errors of the cleanups that fail, in order. -/
inductive CleansUp {σ : Type} : List (Action σ) → σ → σ → List Err → Prop
  | nil (s) : CleansUp [] s s []
  | ok {a as s s1 s2 es} : a.cleanup s = (s1, none) → CleansUp as s1 s2 es → CleansUp (a :: as) s s2 es
  | fail {a as s s1 s2 e es} : a.cleanup s = (s1, some e) → CleansUp as s1 s2 es → CleansUp (a :: as) s s2 (e :: es)

theorem cleanups_spec {σ : Type} (acts : List (Action σ)) (s : σ) : CleansUp acts s (cleanups acts s).1 (cleanups acts s).2 := by
  induction acts generalizing s with
  | nil => exact .nil s
  | cons a as ih =>
    cases h : a.cleanup s with
    | mk s1 o =>
      cases o with
      | none => simp only [cleanups, h]; exact .ok h (ih s1)
      | some e => simp only [cleanups, h]; exact .fail h (ih s1)

/-- **C13** every error of every cleanup is reported, after the error of the failing statement. -/
theorem C13_errors_reported {σ : Type} (fs : List (ActionFunc σ)) (s : σ) :
    (∃ s' acts, AllSucceed fs s s' acts ∧ CleansUp acts s' (execContext fs s).1 (execContext fs s).2) ∨
    (∃ pre f post s1 s' acts last e es, fs = pre ++ f :: post ∧ AllSucceed pre s s1 acts ∧ Fails f s1 s' last e ∧
      (execContext fs s).2 = e :: es ∧ CleansUp (acts ++ last) s' (execContext fs s).1 es) := by
  rcases C12_exec_stops_at_first_failure fs s with ⟨s', acts, h1, h2⟩ | ⟨pre, f, post, s1, s', acts, last, e, h0, h1, h2, h3, h4⟩
  · exact .inl ⟨s', acts, h1, h2 ▸ cleanups_spec acts s'⟩
  · exact .inr ⟨pre, f, post, s1, s', acts, last, e, _, h0, h1, h2, h4, h3 ▸ cleanups_spec (acts ++ last) s'⟩

/-- **C13** closing the rows reports the error of closing and every error of a cleanup. -/
theorem C13_close_errors {σ : Type} (acts : List (Action σ)) (closeErr : Option Err) (s : σ) :
    ∃ es, (closeRows acts closeErr s).2 = closeErr.toList ++ es ∧ CleansUp acts s (closeRows acts closeErr s).1 es :=
  ⟨_, rfl, cleanups_spec acts s⟩

/-- A cleanup that fails does not hide behind the ones that succeed. -/
example : (cleanups [⟨fun s => (s, none), fun s => (s + 1, some 7)⟩, ⟨fun s => (s, none), fun s => (s + 10, none)⟩] 0) = (11, [7]) := by decide

/-! ## No open is stuck -/

/-- The lock is held only by a goroutine that is between Lock and Unlock. -/
def LockOwned (r : Reg) : Prop := ∀ i, r.lockedBy = some i → (r.threads i).pc.locked = true

theorem LockOwned.step {r : Reg} (h : LockOwned r) (hi : RegInv r) (i : Nat) (ok : Bool) : LockOwned (r.step i ok) := by
  intro j hj
  unfold Reg.step at hj ⊢
  have key : ∀ (r' : Reg) pc, r'.lockedBy = r.lockedBy → r'.threads = r.threads → (pc.locked = true) →
      (r'.set i pc).lockedBy = some j → ((r'.set i pc).threads j).pc.locked = true := by
    intro r' pc h1 h2 h3 h4
    rw [set_pc]
    split
    · exact h3
    · rw [h2]; exact h j (h1 ▸ h4)
  cases hpc : (r.threads i).pc with
  | start =>
    simp only [hpc] at hj ⊢
    by_cases hl : r.lockedBy = none
    · simp only [hl, if_true] at hj ⊢
      rw [set_pc]
      have : j = i := by simpa [Reg.set, eq_comm] using hj
      rw [if_pos this]; rfl
    · simp only [hl, if_false] at hj ⊢
      exact h j hj
  | check =>
    simp only [hpc] at hj ⊢
    cases hd : r.dbs (r.threads i).dsn with
    | some x => simp only [hd] at hj ⊢; exact key r _ rfl rfl rfl hj
    | none => simp only [hd] at hj ⊢; exact key r _ rfl rfl rfl hj
  | opening =>
    simp only [hpc] at hj ⊢
    cases ok
    · simp only [Bool.false_eq_true, if_false] at hj ⊢; exact key r _ rfl rfl rfl hj
    · simp only [if_true] at hj ⊢; exact key { r with next := r.next + 1 } _ rfl rfl rfl hj
  | store x =>
    simp only [hpc] at hj ⊢
    exact key { r with dbs := fun d => if d = (r.threads i).dsn then some x else r.dbs d } _ rfl rfl rfl hj
  | unlock x =>
    simp only [hpc] at hj
    simp [Reg.set] at hj
  | done x =>
    simp only [hpc] at hj ⊢
    exact h j hj

theorem LockOwned.run {r : Reg} (h : LockOwned r) (hi : RegInv r) (sched : List (Nat × Bool)) : LockOwned (r.run sched) := by
  induction sched generalizing r with
  | nil => exact h
  | cons x xs ih => exact ih (h.step hi x.1 x.2) (hi.step x.1 x.2)

/-- The goroutine is through. -/
def Pc.finished : Pc → Bool
  | .done _ => true
  | _ => false

theorem run_append (r : Reg) (a b : List (Nat × Bool)) : r.run (a ++ b) = (r.run a).run b := by simp [Reg.run]

/-- The holder of the lock gets through by itself, leaves the lock free and the others where they are. -/
theorem holder_finishes (r : Reg) (i : Nat) (hl : (r.threads i).pc.locked = true) :
    ∃ sched, ((r.run sched).threads i).pc.finished = true ∧ (r.run sched).lockedBy = none ∧
      ∀ j, j ≠ i → (r.run sched).threads j = r.threads j := by
  have unlock : ∀ (r : Reg) x, (r.threads i).pc = .unlock x → ∃ sched, ((r.run sched).threads i).pc.finished = true ∧
      (r.run sched).lockedBy = none ∧ ∀ j, j ≠ i → (r.run sched).threads j = r.threads j := by
    intro r x h
    refine ⟨[(i, true)], ?_⟩
    simp only [Reg.run, List.foldl_cons, List.foldl_nil, Reg.step, h]
    refine ⟨by simp [Reg.set, Pc.finished], rfl, fun j hj => by simp [Reg.set, hj]⟩
  have cons : ∀ (r r' : Reg), r.step i true = r' → (∀ j, j ≠ i → r'.threads j = r.threads j) →
      (∃ sched, ((r'.run sched).threads i).pc.finished = true ∧ (r'.run sched).lockedBy = none ∧
        ∀ j, j ≠ i → (r'.run sched).threads j = r'.threads j) →
      ∃ sched, ((r.run sched).threads i).pc.finished = true ∧ (r.run sched).lockedBy = none ∧
        ∀ j, j ≠ i → (r.run sched).threads j = r.threads j := by
    rintro r r' rfl h2 ⟨sched, a, b, c⟩
    exact ⟨(i, true) :: sched, a, b, fun j hj => (c j hj).trans (h2 j hj)⟩
  have store : ∀ (r : Reg) x, (r.threads i).pc = .store x → ∃ sched, ((r.run sched).threads i).pc.finished = true ∧
      (r.run sched).lockedBy = none ∧ ∀ j, j ≠ i → (r.run sched).threads j = r.threads j := by
    intro r x h
    refine cons r _ rfl ?_ (unlock _ (some x) ?_)
    · intro j hj; simp [Reg.step, h, Reg.set, hj]
    · simp [Reg.step, h, Reg.set]
  have opening : ∀ (r : Reg), (r.threads i).pc = .opening → ∃ sched, ((r.run sched).threads i).pc.finished = true ∧
      (r.run sched).lockedBy = none ∧ ∀ j, j ≠ i → (r.run sched).threads j = r.threads j := by
    intro r h
    refine cons r _ rfl ?_ (store _ r.next ?_)
    · intro j hj; simp [Reg.step, h, Reg.set, hj]
    · simp [Reg.step, h, Reg.set]
  cases h : (r.threads i).pc with
  | start => rw [h] at hl; cases hl
  | done x => rw [h] at hl; cases hl
  | unlock x => exact unlock r x h
  | store x => exact store r x h
  | opening => exact opening r h
  | check =>
    cases hd : r.dbs (r.threads i).dsn with
    | some x =>
      refine cons r _ rfl ?_ (unlock _ (some x) ?_)
      · intro j hj; simp [Reg.step, h, hd, Reg.set, hj]
      · simp [Reg.step, h, hd, Reg.set]
    | none =>
      refine cons r _ rfl ?_ (opening _ ?_)
      · intro j hj; simp [Reg.step, h, hd, Reg.set, hj]
      · simp [Reg.step, h, hd, Reg.set]

/-- **C16** no open is ever stuck: after every interleaving, with opens that failed before, each goroutine can still finish. -/
theorem C16_every_open_can_finish (dsns : Nat → Dsn) (sched : List (Nat × Bool)) (i : Nat) :
    ∃ more, (((Reg.init dsns).run (sched ++ more)).threads i).pc.finished = true := by
  have hi := (RegInv.init dsns).run sched
  have ho := LockOwned.run (r := Reg.init dsns) (fun i h => by simp [Reg.init] at h) (RegInv.init dsns) sched
  generalize hr : (Reg.init dsns).run sched = r at hi ho
  suffices h : ∃ more, ((r.run more).threads i).pc.finished = true by
    obtain ⟨more, h⟩ := h
    exact ⟨more, by rw [run_append, hr]; exact h⟩
  -- free the lock first
  have free : ∀ r : Reg, r.lockedBy = none → (r.threads i).pc = .start → ∃ more, ((r.run more).threads i).pc.finished = true := by
    intro r hn hs
    obtain ⟨more, h, _⟩ := holder_finishes (r.step i true) i (by simp [Reg.step, hs, hn, Reg.set, Pc.locked])
    exact ⟨(i, true) :: more, h⟩
  cases hpc : (r.threads i).pc with
  | done x => exact ⟨[], by simp [Reg.run, hpc, Pc.finished]⟩
  | start =>
    cases hl : r.lockedBy with
    | none => exact free r hl hpc
    | some j =>
      have hne : i ≠ j := by
        rintro rfl
        have := ho i hl
        rw [hpc] at this; cases this
      obtain ⟨s1, _, h2, h3⟩ := holder_finishes r j (ho j hl)
      obtain ⟨s2, h4⟩ := free (r.run s1) h2 (by rw [h3 i hne]; exact hpc)
      exact ⟨s1 ++ s2, by rw [run_append]; exact h4⟩
  | _ =>
    obtain ⟨s, h, _⟩ := holder_finishes r i (by rw [hpc]; rfl)
    exact ⟨s, h⟩

end Verif.Driver
