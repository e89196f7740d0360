import Verif.Model.Pool
import Verif.Props.Memory

/-! # C296: a database in memory begins empty and belongs to its connection -/

namespace Verif.Memory

open Go

variable {N V : Type} [DecidableEq N]

/-- Databases in memory as SQLite documents them: one for each connection, empty at first, gone when it is closed. -/
def own (s : Nat → Option (N → Option (List V))) : Event N V → (Nat → Option (N → Option (List V))) × Res (List V)
  | .opens c => match s c with
    | some _ => (s, .err)
    | none => (fun d => if d = c then some (fun _ => none) else s d, .ok [])
  | .call c x => match s c with
    | none => (s, .err)
    | some db => (fun d => if d = c then some (ideal db x).1 else s d, (ideal db x).2)
  | .closes c => match s c with
    | none => (s, .err)
    | some _ => (fun d => if d = c then none else s d, .ok [])

/-- What the events return if every connection has a database of its own. -/
def ownAnswers : (Nat → Option (N → Option (List V))) → List (Event N V) → List (Res (List V))
  | _, [] => []
  | s, e :: h => (own s e).2 :: ownAnswers (own s e).1 h

/-- **C296** in full: a connection to `:memory:` has a database of its own, which is empty when it is opened. -/
def C296_full (N V : Type) [DecidableEq N] : Prop :=
  ∀ (P : Pick) (h : List (Event N V)), prun P .empty h = ownAnswers (fun _ => none) h

/-- Takes the first. -/
def firstIdle : Pick where
  pick l := l.headD 0
  mem l h := by cases l with
    | nil => exact absurd rfl h
    | cons a l => simp

/-- **C296** fails: the tables of a connection that was closed are there when the name is opened again. -/
theorem C296_full_false (n : N) : ¬ C296_full N V := by
  intro h
  have := h firstIdle [.opens 0, .call 0 (.create n), .closes 0, .opens 1, .call 1 (.create n)]
  simp [prun, pstep, ownAnswers, own, ideal, step, PSt.empty, St.empty, firstIdle, Store.at, put] at this

/-- It also fails without closing anything: one connection drops its table and another one no longer finds its own of that name. -/
theorem C296_drop (P : Pick) (n : N) :
    prun P (.empty : PSt N V) [.opens 0, .opens 1, .call 0 (.create n), .call 1 (.create n), .call 0 (.drop n), .call 1 (.select n)] =
      [.ok [], .ok [], .ok [], .ok [], .ok [], .err] ∧
    ownAnswers (V := V) (fun _ => none) [.opens 0, .opens 1, .call 0 (.create n), .call 1 (.create n), .call 0 (.drop n), .call 1 (.select n)] =
      [.ok [], .ok [], .ok [], .ok [], .ok [], .ok []] := by
  constructor
  · simp [prun, pstep, step, PSt.empty, St.empty, Store.at, put]
  · simp [ownAnswers, own, ideal]

/-- The tables after some statements. -/
def after (db : N → Option (List V)) : List (Call N V) → N → Option (List V)
  | [] => db
  | x :: h => after (ideal db x).1 h

/-- Connections that are opened and closed one after the other, with their statements. -/
def sessions : List (Nat × List (Call N V)) → List (Event N V)
  | [] => []
  | (c, h) :: ss => .opens c :: (h.map (.call c) ++ .closes c :: sessions ss)

/-- What they return if all work on one database that outlives them. -/
def kept (db : N → Option (List V)) : List (Nat × List (Call N V)) → List (Res (List V))
  | [] => []
  | (_, h) :: ss => .ok [] :: (answers db h ++ .ok [] :: kept (after db h) ss)

/-- No connection is open, and what is in the catalog is in the one database there is. -/
def Rest (s : PSt N V) (db : N → Option (List V)) : Prop :=
  (∀ c, s.held c = none) ∧ (∀ n, s.st.cat n = (db n).isSome) ∧
    ((s.idle = [] ∧ s.st.db s.next = db) ∨ ∃ k, s.idle = [k] ∧ s.st.db k = db)

/-- A statement on a database that has all the tables of the catalog. -/
theorem step_one (k : Nat) {st : St N V} {db} (hd : st.db k = db) (hc : ∀ n, st.cat n = (db n).isSome) (x : Call N V) :
    (step .memory k st x).2 = (ideal db x).2 ∧ (step .memory k st x).1.db k = (ideal db x).1 ∧
      ∀ n, (step .memory k st x).1.cat n = ((ideal db x).1 n).isSome := by
  subst hd
  cases x with
  | create n =>
    simp only [step, ideal, Store.at]
    cases hn : st.db k n with
    | some t => exact ⟨rfl, rfl, hc⟩
    | none =>
      refine ⟨rfl, ?_, fun m => ?_⟩
      · funext m; simp [put]
      · by_cases hm : m = n
        · simp [hm]
        · simp [hm, hc m]
  | insert n v =>
    simp only [step, ideal, Store.at, hc n]
    cases hn : st.db k n with
    | none => exact ⟨rfl, rfl, hc⟩
    | some t =>
      refine ⟨rfl, ?_, fun m => ?_⟩
      · funext m; simp [put]
      · by_cases hm : m = n
        · simp [hm, hc n, hn]
        · simp [hm, hc m]
  | select n =>
    simp only [step, ideal, Store.at, hc n]
    cases hn : st.db k n with
    | none => exact ⟨rfl, rfl, hc⟩
    | some t => exact ⟨rfl, rfl, hc⟩
  | drop n =>
    simp only [step, ideal, Store.at, hc n]
    cases hn : st.db k n with
    | none => exact ⟨rfl, rfl, hc⟩
    | some t =>
      refine ⟨rfl, ?_, fun m => ?_⟩
      · funext m; simp [put]
      · by_cases hm : m = n
        · simp [hm]
        · simp [hm, hc m]

/-- The statements of the only open connection. -/
theorem prun_calls (P : Pick) (c k : Nat) (e : List (Event N V)) : ∀ (h : List (Call N V)) (s : PSt N V) (db : N → Option (List V)),
    s.held c = some k → s.st.db k = db → (∀ n, s.st.cat n = (db n).isSome) →
    ∃ st' : St N V, st'.db k = after db h ∧ (∀ n, st'.cat n = (after db h n).isSome) ∧
      prun P s (h.map (.call c) ++ e) = answers db h ++ prun P { s with st := st' } e := by
  intro h
  induction h with
  | nil => intro s db _ hd hc; exact ⟨s.st, hd, hc, rfl⟩
  | cons x h ih =>
    intro s db hk hd hc
    obtain ⟨e1, e2, e3⟩ := step_one k hd hc x
    obtain ⟨st', a, b, r⟩ := ih { s with st := (step .memory k s.st x).1 } _ hk e2 e3
    refine ⟨st', a, b, ?_⟩
    simp only [List.map_cons, List.cons_append, prun, pstep, hk, answers, e1]
    exact congrArg _ r

/-- **What closing does if one connection is open at a time**: nothing.  Whatever is opened, done and closed, the statements return what
they would return on one database that is never closed. -/
theorem C296_sessions (P : Pick) (ss : List (Nat × List (Call N V))) :
    prun P .empty (sessions ss) = kept (fun _ => none) ss := by
  have key : ∀ (ss : List (Nat × List (Call N V))) (s : PSt N V) db, Rest s db → prun P s (sessions ss) = kept db ss := by
    intro ss
    induction ss with
    | nil => intros; rfl
    | cons p ss ih =>
      obtain ⟨c, h⟩ := p
      rintro s db ⟨hh, hc, hi⟩
      obtain ⟨k, s', e1, e2, e3, e4, e5, e6⟩ : ∃ k s', pstep P s (.opens c) = (s', .ok []) ∧ s'.held c = some k ∧
          (∀ d, d ≠ c → s'.held d = none) ∧ s'.st.db k = db ∧ (∀ n, s'.st.cat n = (db n).isSome) ∧ s'.idle = [] := by
        rcases hi with ⟨hi, hd⟩ | ⟨k, hi, hd⟩
        · refine ⟨s.next, { s with held := fun d => if d = c then some s.next else s.held d, next := s.next + 1 },
            by simp only [pstep, hh c, hi, if_true], by simp, fun d hdc => by simp [hdc, hh], hd, hc, hi⟩
        · have hp : P.pick [k] = k := by simpa using P.mem [k] (by simp)
          refine ⟨k, { s with held := fun d => if d = c then some k else s.held d, idle := [] },
            by simp [pstep, hh c, hi, hp], by simp, fun d hdc => by simp [hdc, hh], hd, hc, rfl⟩
      simp only [sessions, prun, e1, kept]
      obtain ⟨st', a, b, r⟩ := prun_calls P c k (.closes c :: sessions ss) h s' db e2 e4 e5
      rw [r]
      simp only [prun, pstep, e2, e6]
      rw [ih _ (after db h)]
      refine ⟨fun d => ?_, b, .inr ⟨k, by simp, a⟩⟩
      by_cases hdc : d = c
      · simp [hdc]
      · simp [hdc, e3 d hdc]
  exact key ss _ _ ⟨fun _ => rfl, fun _ => rfl, .inl ⟨rfl, rfl⟩⟩

/-- No connection is closed that has tables, and none makes a table of a name that another one has. -/
def Polite : (Nat → Option (N → Option (List V))) → List (Event N V) → Prop
  | _, [] => True
  | s, e :: h => (match e with
      | .call c (.create n) => ∀ d db, d ≠ c → s d = some db → db n = none
      | .closes c => ∀ db, s c = some db → ∀ n, db n = none
      | _ => True) ∧ Polite (own s e).1 h

/-- The databases of the open connections are theirs alone, all others are empty, and the catalog has the tables of all. -/
structure Inv (p : PSt N V) (s : Nat → Option (N → Option (List V))) : Prop where
  same : ∀ c, s c = (p.held c).map p.st.db
  inj : ∀ c d k, p.held c = some k → p.held d = some k → c = d
  busy : ∀ c k, p.held c = some k → k < p.next ∧ k ∉ p.idle
  idle : ∀ k, k ∈ p.idle → k < p.next ∧ ∀ n, p.st.db k n = none
  later : ∀ k, p.next ≤ k → ∀ n, p.st.db k n = none
  cat : ∀ n, p.st.cat n = true ↔ ∃ c db, s c = some db ∧ (db n).isSome = true
  apart : ∀ c d db db' n, s c = some db → s d = some db' → (db n).isSome = true → (db' n).isSome = true → c = d

/-- A table of one connection changes. -/
theorem Inv.put {p : PSt N V} {s} (h : Inv p s) {c k : Nat} (hk : p.held c = some k) (n : N) (t : Option (List V)) (cat : N → Bool)
    (hcat : ∀ m, cat m = if m = n then t.isSome else p.st.cat m)
    (ho : ∀ d db, d ≠ c → s d = some db → db n = none) :
    Inv { p with st := { cat := cat, db := Memory.put p.st.db k n t } }
      (fun d => if d = c then some (fun m => if m = n then t else p.st.db k m) else s d) := by
  have hs : ∀ d, s d = (p.held d).map p.st.db := h.same
  have hc : s c = some (p.st.db k) := by rw [hs, hk]; rfl
  refine ⟨fun d => ?_, h.inj, h.busy, fun k' hk' => ⟨(h.idle k' hk').1, fun m => ?_⟩, fun k' hk' m => ?_, fun m => ?_, ?_⟩
  · by_cases hd : d = c
    · subst hd
      simp only [if_true, hk, Option.map_some]
      congr 1
      funext m; simp [Memory.put]
    · simp only [if_neg hd, hs d]
      cases e : p.held d with
      | none => rfl
      | some k' =>
        have : k' ≠ k := fun h' => hd (h.inj d c k (h' ▸ e) hk)
        simp only [Option.map_some]
        congr 1
        funext m; simp [Memory.put, this]
  · have : k' ≠ k := fun e => (h.busy c k hk).2 (e ▸ hk')
    simp [Memory.put, this, (h.idle k' hk').2 m]
  · have hk' : p.next ≤ k' := hk'
    have : k' ≠ k := by have := (h.busy c k hk).1; omega
    simp [Memory.put, this, h.later k' hk' m]
  · show cat m = true ↔ _
    rw [hcat m]
    by_cases hm : m = n
    · subst hm
      simp only [if_true]
      constructor
      · intro ht; exact ⟨c, _, by simp; rfl, by simpa using ht⟩
      · rintro ⟨d, db, h1, h2⟩
        by_cases hd : d = c
        · simp only [if_pos hd, Option.some.injEq] at h1; subst h1; simpa using h2
        · rw [if_neg hd] at h1; rw [ho d db hd h1] at h2; cases h2
    · rw [if_neg hm, h.cat m]
      constructor
      · rintro ⟨d, db, h1, h2⟩
        by_cases hd : d = c
        · subst hd
          rw [hc] at h1; cases h1
          exact ⟨d, _, by simp; rfl, by simpa [hm] using h2⟩
        · exact ⟨d, db, by simpa [hd] using h1, h2⟩
      · rintro ⟨d, db, h1, h2⟩
        by_cases hd : d = c
        · simp only [if_pos hd, Option.some.injEq] at h1; subst h1
          exact ⟨c, _, hc, by simpa [hm] using h2⟩
        · exact ⟨d, db, by simpa [hd] using h1, h2⟩
  · intro a b da db m ha hb ta tb
    by_cases hac : a = c
    · by_cases hbc : b = c
      · rw [hac, hbc]
      · simp only [if_pos hac, Option.some.injEq] at ha; simp only [if_neg hbc] at hb; subst ha
        by_cases hm : m = n
        · subst hm; rw [ho b db hbc hb] at tb; cases tb
        · rw [hac]; exact h.apart c b _ db m hc hb (by simpa [hm] using ta) tb
    · simp only [if_neg hac] at ha
      by_cases hbc : b = c
      · simp only [if_pos hbc, Option.some.injEq] at hb; subst hb
        by_cases hm : m = n
        · subst hm; rw [ho a da hac ha] at ta; cases ta
        · rw [hbc]; exact h.apart a c da _ m ha hc ta (by simpa [hm] using tb)
      · simp only [if_neg hbc] at hb
        exact h.apart a b da db m ha hb ta tb

omit [DecidableEq N] in
theorem self_update {s : Nat → Option (N → Option (List V))} {c : Nat} {db} (h : s c = some db) :
    (fun d => if d = c then some db else s d) = s := by
  funext d
  by_cases hd : d = c
  · simp [hd, h]
  · simp [hd]

theorem pstep_polite (P : Pick) {p : PSt N V} {s} (h : Inv p s) (e : Event N V) (es : List (Event N V)) (hp : Polite s (e :: es)) :
    (pstep P p e).2 = (own s e).2 ∧ Inv (pstep P p e).1 (own s e).1 := by
  have hs := h.same
  replace hp := hp.1
  cases e with
  | opens c =>
    cases hc : p.held c with
    | some k =>
      have hsc : s c = some (p.st.db k) := by rw [hs, hc]; rfl
      simp only [pstep, own, hc, hsc]
      exact ⟨trivial, h⟩
    | none =>
      have hsc : s c = none := by rw [hs, hc]; rfl
      have main : ∀ k idle next, (∀ n, p.st.db k n = none) → (∀ d, p.held d ≠ some k) → k < next → p.next ≤ next →
          (∀ j, j ∈ idle → j ∈ p.idle ∧ j ≠ k) →
          Inv { p with held := fun d => if d = c then some k else p.held d, idle := idle, next := next }
            (fun d => if d = c then some (fun _ => none) else s d) := by
        intro k idle next he hk hn hnn hi
        refine ⟨fun d => ?_, fun a b j ha hb => ?_, fun a j ha => ?_, fun j hj => ?_, fun j hj m => ?_, fun m => ?_, ?_⟩
        · by_cases hd : d = c
          · simp only [if_pos hd, Option.map_some]
            congr 1
            funext m; exact (he m).symm
          · simp only [if_neg hd, hs d]
        · simp only at ha hb
          by_cases hac : a = c <;> by_cases hbc : b = c
          · rw [hac, hbc]
          · rw [if_pos hac] at ha; rw [if_neg hbc] at hb; cases ha; exact absurd hb (hk b)
          · rw [if_neg hac] at ha; rw [if_pos hbc] at hb; cases hb; exact absurd ha (hk a)
          · rw [if_neg hac] at ha; rw [if_neg hbc] at hb; exact h.inj a b j ha hb
        · simp only at ha ⊢
          by_cases hac : a = c
          · rw [if_pos hac] at ha; cases ha; exact ⟨hn, fun hm => (hi _ hm).2 rfl⟩
          · rw [if_neg hac] at ha
            have := h.busy a j ha
            exact ⟨by omega, fun hm => this.2 (hi j hm).1⟩
        · have := h.idle j (hi j hj).1
          exact ⟨by show j < next; omega, this.2⟩
        · exact h.later j (by have : next ≤ j := hj; omega) m
        · rw [show (({ p with held := fun d => if d = c then some k else p.held d, idle := idle, next := next } : PSt N V).st.cat m = true) =
            (p.st.cat m = true) from rfl, h.cat m]
          constructor
          · rintro ⟨d, db, h1, h2⟩
            refine ⟨d, db, ?_, h2⟩
            rw [if_neg (fun e => by rw [e, hsc] at h1; cases h1)]; exact h1
          · rintro ⟨d, db, h1, h2⟩
            by_cases hd : d = c
            · simp only [if_pos hd, Option.some.injEq] at h1; subst h1; cases h2
            · exact ⟨d, db, by simpa [hd] using h1, h2⟩
        · intro a b da db m ha hb ta tb
          by_cases hac : a = c
          · simp only [if_pos hac, Option.some.injEq] at ha; subst ha; cases ta
          · by_cases hbc : b = c
            · simp only [if_pos hbc, Option.some.injEq] at hb; subst hb; cases tb
            · simp only [if_neg hac] at ha; simp only [if_neg hbc] at hb
              exact h.apart a b da db m ha hb ta tb
      simp only [pstep, own, hc, hsc]
      by_cases hi : p.idle = []
      · simp only [if_pos hi]
        refine ⟨trivial, main p.next p.idle (p.next + 1) (h.later _ (Nat.le_refl _)) (fun d hd => ?_) (by omega) (by omega) (by simp [hi])⟩
        exact absurd (h.busy d _ hd).1 (by omega)
      · simp only [if_neg hi]
        have hm := P.mem p.idle hi
        refine ⟨trivial, main _ _ p.next (h.idle _ hm).2 (fun d hd => (h.busy d _ hd).2 hm) (h.idle _ hm).1 (Nat.le_refl _) ?_⟩
        intro j hj
        simpa using hj
  | closes c =>
    cases hc : p.held c with
    | none =>
      have hsc : s c = none := by rw [hs, hc]; rfl
      simp only [pstep, own, hc, hsc]
      exact ⟨trivial, h⟩
    | some k =>
      have hsc : s c = some (p.st.db k) := by rw [hs, hc]; rfl
      have hempty := hp _ hsc
      simp only [pstep, own, hc, hsc]
      have hi : ∀ j, j ∈ (if p.idle.length < 2 then p.idle ++ [k] else p.idle) → j ∈ p.idle ∨ j = k := by
        intro j hj
        split at hj
        · simpa using hj
        · exact .inl hj
      refine ⟨trivial, fun d => ?_, fun a b j ha hb => ?_, fun a j ha => ?_, fun j hj => ?_, h.later, fun m => ?_, ?_⟩
      · by_cases hd : d = c
        · simp [hd]
        · simp only [if_neg hd, hs d]
      · simp only at ha hb
        by_cases hac : a = c
        · rw [if_pos hac] at ha; cases ha
        · by_cases hbc : b = c
          · rw [if_pos hbc] at hb; cases hb
          · rw [if_neg hac] at ha; rw [if_neg hbc] at hb; exact h.inj a b j ha hb
      · simp only at ha ⊢
        by_cases hac : a = c
        · rw [if_pos hac] at ha; cases ha
        · rw [if_neg hac] at ha
          refine ⟨(h.busy a j ha).1, fun hm => ?_⟩
          rcases hi j hm with hm | rfl
          · exact (h.busy a j ha).2 hm
          · exact hac (h.inj a c j ha hc)
      · rcases hi j hj with hm | rfl
        · exact h.idle j hm
        · exact ⟨(h.busy c j hc).1, hempty⟩
      · show p.st.cat m = true ↔ _
        rw [h.cat m]
        constructor
        · rintro ⟨d, db, h1, h2⟩
          refine ⟨d, db, ?_, h2⟩
          rw [if_neg (fun e => by rw [e, hsc] at h1; cases h1; rw [hempty m] at h2; cases h2)]; exact h1
        · rintro ⟨d, db, h1, h2⟩
          by_cases hd : d = c
          · rw [if_pos hd] at h1; cases h1
          · exact ⟨d, db, by simpa [hd] using h1, h2⟩
      · intro a b da db m ha hb ta tb
        by_cases hac : a = c
        · rw [if_pos hac] at ha; cases ha
        · by_cases hbc : b = c
          · rw [if_pos hbc] at hb; cases hb
          · rw [if_neg hac] at ha; rw [if_neg hbc] at hb; exact h.apart a b da db m ha hb ta tb
  | call c x =>
    cases hc : p.held c with
    | none =>
      have hsc : s c = none := by rw [hs, hc]; rfl
      simp only [pstep, own, hc, hsc]
      exact ⟨trivial, h⟩
    | some k =>
      have hsc : s c = some (p.st.db k) := by rw [hs, hc]; rfl
      have hcat : ∀ n t, p.st.db k n = some t → p.st.cat n = true := fun n t ht => (h.cat n).2 ⟨c, _, hsc, by rw [ht]; rfl⟩
      have hoth : ∀ n t, p.st.db k n = some t → ∀ d db, d ≠ c → s d = some db → db n = none := by
        intro n t ht d db hd hdb
        cases e : db n with
        | none => rfl
        | some u => exact absurd (h.apart d c db _ n hdb hsc (by rw [e]; rfl) (by rw [ht]; rfl)) hd
      simp only [pstep, own, hc, hsc]
      cases x with
      | create n =>
        cases hn : p.st.db k n with
        | some t =>
          simp only [step, ideal, Store.at, hn]
          exact ⟨trivial, by rw [self_update hsc]; exact h⟩
        | none =>
          simp only [step, ideal, Store.at, hn]
          exact ⟨trivial, h.put hc n _ _ (fun m => rfl) hp⟩
      | insert n v =>
        cases hn : p.st.db k n with
        | none =>
          simp only [step, ideal, Store.at, hn, ite_self]
          exact ⟨trivial, by rw [self_update hsc]; exact h⟩
        | some t =>
          simp only [step, ideal, Store.at, hn, hcat n t hn, if_true]
          refine ⟨trivial, h.put hc n _ _ (fun m => ?_) (hoth n t hn)⟩
          by_cases hm : m = n
          · simp [hm, hcat n t hn]
          · simp [hm]
      | select n =>
        cases hn : p.st.db k n with
        | none =>
          simp only [step, ideal, Store.at, hn, ite_self]
          exact ⟨trivial, by rw [self_update hsc]; exact h⟩
        | some t =>
          simp only [step, ideal, Store.at, hn, hcat n t hn, if_true]
          exact ⟨trivial, by rw [self_update hsc]; exact h⟩
      | drop n =>
        cases hn : p.st.db k n with
        | none =>
          simp only [step, ideal, Store.at, hn]
          exact ⟨trivial, by rw [self_update hsc]; exact h⟩
        | some t =>
          simp only [step, ideal, Store.at, hn, hcat n t hn, if_true]
          exact ⟨trivial, h.put hc n _ _ (fun m => rfl) (hoth n t hn)⟩

/-- **C296** holds for every history in which no connection is closed that has tables, and none makes a table of a name that another open
connection has, whichever idle connections are taken.  (These conditions are sufficient, not necessary: two tables of one name do no harm if
neither is dropped.) -/
theorem C296_partial (P : Pick) (h : List (Event N V)) (hp : Polite (fun _ => none) h) :
    prun P .empty h = ownAnswers (fun _ => none) h := by
  have key : ∀ (h : List (Event N V)) (p : PSt N V) s, Inv p s → Polite s h → prun P p h = ownAnswers s h := by
    intro h
    induction h with
    | nil => intros; rfl
    | cons e h ih =>
      intro p s hi hp
      obtain ⟨e1, hi'⟩ := pstep_polite P hi e h hp
      simp only [prun, ownAnswers, e1, ih _ _ hi' hp.2]
  refine key h _ _ ⟨fun _ => rfl, ?_, ?_, ?_, fun _ _ _ => rfl, fun n => ?_, ?_⟩ hp
  · intro a b k ha; cases ha
  · intro a k ha; cases ha
  · intro k hk; cases hk
  · simp [PSt.empty, St.empty]
  · intro a b da db n ha; cases ha

/-- Two connections with a table each, of which one is dropped before its connection is closed and opened again. -/
example : Polite (N := Bool) (V := Nat) (fun _ => none) [.opens 0, .opens 1, .call 0 (.create true), .call 1 (.create false),
    .call 0 (.insert true 7), .call 1 (.select true), .call 0 (.drop true), .closes 0, .opens 0, .call 0 (.create true), .call 1 (.select false)] ∧
    ownAnswers (N := Bool) (V := Nat) (fun _ => none) [.opens 0, .opens 1, .call 0 (.create true), .call 1 (.create false),
    .call 0 (.insert true 7), .call 1 (.select true), .call 0 (.drop true), .closes 0, .opens 0, .call 0 (.create true), .call 1 (.select false)] =
      [.ok [], .ok [], .ok [], .ok [], .ok [], .err, .ok [], .ok [], .ok [], .ok [], .ok []] := by
  constructor
  · simp only [Polite, own, ideal]
    simp
    grind
  · simp [ownAnswers, own, ideal]

/-- A table made by one connection and read by the next. -/
example : prun firstIdle (.empty : PSt Bool Nat) (sessions [(0, [.create true, .insert true 7]), (1, [.select true])]) =
    [.ok [], .ok [], .ok [], .ok [], .ok [], .ok [7], .ok []] := by
  rw [C296_sessions]; rfl

end Verif.Memory
