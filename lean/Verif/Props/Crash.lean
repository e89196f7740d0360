import Verif.Props.ConcurrentCalls

/-!
# Crashes during a call (C223)
-/

namespace Verif.Concurrent
open Verif.Catalog Verif.Catalog.Spec Verif.Driver Verif.Engine NamePath

/-- The process dies after `k` operations of the call; what remains is the file: the SQLite objects and the catalog rows. -/
def crash (k : Nat) (script : List Stmt) (sh : Shared) : Shared := (aloneN k (sh, callProg script)).1

/-- A process opens the file after the crash. -/
def reopen (sh : Shared) : Shared := { sh with world := { proc := Proc.fresh, rows := sh.world.rows, clock := sh.world.clock } }

/-- Under the name `n` the file holds what the objects `d` say: the SQLite object and the catalog row belong together. -/
def Whole (d : Dict) (sh : Shared) (n : Name) : Prop :=
  sh.phys n = (lookup d.tables n).map Catalog.Spec.isView ∧
  stored sh n = ((lookup d.tables n).map fun s => (s, false)).or ((lookup d.functions n).map fun s => (s, true))

/-- C223 at full strength: statements are atomic with respect to crashes.  Whenever the process dies during a call on a consistent
database without temporary objects, the file holds the permanent objects that the first `j` statements leave, for some `j`. -/
def C223_full : Prop := ∀ (xs : List Engine.Stmt) (d : Dict) (st : St) (last k : Nat), EInv st d →
  (∀ s ∈ d.tables, s.isTemp = false) → (∀ s ∈ d.functions, s.isTemp = false) → TameScript d xs →
  ∃ j, ∀ n, Whole (permanent (runSpec d (xs.take j)).1) (crash k (xs.map .ddl) (toShared st last)) n

/-- Half a CREATE TABLE: the table exists in SQLite, the catalog does not know it.  After reopening it cannot be read and it cannot
be created. -/
theorem C223_half_create :
    let sh := crash 2 [.ddl (.createTable (tSpec false 1) .default false)] (toShared St.init 0)
    sh.phys ['t'] = some false ∧ stored sh ['t'] = none ∧
    (runAlone (callProg [.query false [['t']]]) (reopen sh)).2 = ⟨[1], []⟩ ∧
    (runAlone (callProg [.ddl (.createTable (tSpec false 1) .default false)]) (reopen sh)).2 = ⟨[1], []⟩ ∧
    (runAlone (callProg [.ddl (.dropTable ['t'] false)]) (reopen sh)).2 = ⟨[1], []⟩ := ⟨rfl, rfl, rfl, rfl, rfl⟩

/-- Half a DROP TABLE: the catalog lists a table that cannot be read and whose DROP fails. -/
theorem C223_half_drop :
    let sh := crash 2 [.ddl (.dropTable ['t'] false)] (toShared (exec [.createTable (tSpec false 1) .default false] St.init).1 0)
    sh.phys ['t'] = none ∧ stored sh ['t'] = some (tSpec false 1, false) ∧
    (runAlone (callProg [.query false [['t']]]) (reopen sh)).2 = ⟨[1], []⟩ ∧
    (runAlone (callProg [.ddl (.dropTable ['t'] false)]) (reopen sh)).2 = ⟨[1], []⟩ := ⟨rfl, rfl, rfl, rfl⟩

/-- A temporary table outlives the process: after a crash its name is taken for ever. -/
theorem C223_temp_survives :
    let sh := crash 3 [.ddl (.createTable (tSpec true 1) .default false)] (toShared St.init 0)
    sh.phys ['t'] = some false ∧ stored sh ['t'] = none ∧
    (runAlone (callProg [.ddl (.createTable (tSpec false 2) .default false)]) (reopen sh)).2 = ⟨[1], []⟩ := ⟨rfl, rfl, rfl⟩

theorem tame_create_t (b : Bool) : TameScript Dict.empty [.createTable (tSpec b 1) .default false] := by
  simp [TameScript, Tame, outcome, createOut, FreshOp, Dict.empty, tSpec, Catalog.Spec.key, NamePath.formatPath, lookup]

/-- The code violates C223. -/
theorem C223_full_false : ¬ C223_full := by
  intro h
  obtain ⟨j, hj⟩ := h [.createTable (tSpec false 1) .default false] Dict.empty St.init 0 2 EInv.init (by intro s hs; cases hs) (by intro s hs; cases hs)
    (tame_create_t false)
  obtain ⟨h1, h2⟩ := hj ['t']
  have e1 := C223_half_create.1
  have e2 := C223_half_create.2.1
  have e1' : crash 2 ([Engine.Stmt.createTable (tSpec false 1) .default false].map .ddl) (toShared St.init 0) =
    crash 2 [.ddl (.createTable (tSpec false 1) .default false)] (toShared St.init 0) := rfl
  rw [e1', e1] at h1
  rw [e1', e2] at h2
  cases j with
  | zero => cases h1
  | succ j =>
    have : (runSpec Dict.empty (List.take (j + 1) [Engine.Stmt.createTable (tSpec false 1) .default false])).1 = ⟨[tSpec false 1], []⟩ := by
      rw [List.take_of_length_le (by simp)]; rfl
    rw [this] at h2
    cases h2

/-! ## What a crash can break -/

theorem good_step {N : Name → Bool} {L : Nat → Prop} {sh : Shared} (h : Good L sh) (o : Op) (hi : OpIn N L o) (hf : FreshAt sh o) (dt : Nat) :
    Good L (o.run dt sh).1 := by
  cases o with
  | cat c => exact (cat_run h dt c hf hi).1
  | drop n v ie => exact ⟨h.inv, h.lt, h.lf⟩
  | create n v ine => exact ⟨h.inv, h.lt, h.lf⟩
  | look fn p => exact h
  | read n => exact h

theorem cleanOps_take : ∀ (i : Nat) (os : List Op) (sh : Shared), cleanOps os sh → cleanOps (os.take i) sh
  | 0, _, _, _ => trivial
  | _ + 1, [], _, _ => trivial
  | i + 1, _ :: os, _, h => ⟨h.1, fun hok => cleanOps_take i os _ (h.2 hok)⟩

/-- Operations on the names `M` leave other names alone. -/
theorem doOps_agree {M N : Name → Bool} {L : Nat → Prop} (hd : ∀ n, N n = true → M n = false) {sh0 : Shared} : ∀ (os : List Op) (sh : Shared), Good L sh →
    Agree N sh sh0 → (∀ o ∈ os, OpIn M L o) → cleanOps os sh → Good L (doOps os sh).1 ∧ Agree N (doOps os sh).1 sh0
  | [], sh, h, ha, _, _ => ⟨h, ha⟩
  | o :: os, sh, h, ha, hi, hc => by
    have g := good_step h o (hi o (by simp)) hc.1 0
    have a := other_step h ha hd o (hi o (by simp)) hc.1 0
    simp only [doOps]
    cases hok : (o.run 0 sh).2.ok with
    | true => simp only [if_true]; exact doOps_agree hd os _ g a (fun o' ho' => hi o' (by simp [ho'])) (hc.2 hok)
    | false => simp only [Bool.false_eq_true, if_false]; exact ⟨g, a⟩

/-- A crash happens inside a sequence of operations or after it. -/
theorem aloneN_runOps {α : Type} (cont : Bool → Prog α) : ∀ (os : List Op) (sh : Shared) (k : Nat),
    (∃ i, (aloneN k (sh, runOps os cont)).1 = (doOps (os.take i) sh).1) ∨
    (∃ k', aloneN k (sh, runOps os cont) = aloneN k' ((doOps os sh).1, cont (doOps os sh).2))
  | [], sh, k => .inr ⟨k, rfl⟩
  | o :: os, sh, 0 => .inl ⟨0, rfl⟩
  | o :: os, sh, k + 1 => by
    have e : aloneN (k + 1) (sh, runOps (o :: os) cont) =
        aloneN k ((o.run 0 sh).1, if (o.run 0 sh).2.ok then runOps os cont else cont false) := rfl
    rw [e]
    cases hok : (o.run 0 sh).2.ok with
    | true =>
      simp only [if_true]
      rcases aloneN_runOps cont os (o.run 0 sh).1 k with ⟨i, hi⟩ | ⟨k', hk⟩
      · refine .inl ⟨i + 1, ?_⟩
        rw [hi, List.take_succ_cons, doOps, hok]
        simp
      · refine .inr ⟨k', ?_⟩
        rw [hk, doOps, hok]
        simp
    | false =>
      simp only [Bool.false_eq_true, if_false]
      refine .inr ⟨k, ?_⟩
      rw [doOps, hok]
      simp

/-- The temporary objects the statement creates have names in `T`. -/
def TempIn (T : Name → Bool) (x : Engine.Stmt) : Prop :=
  (∀ s, x.table = some s → s.isTemp = true → T s.key = true) ∧ (∀ s, x.fn = some s → s.isTemp = true → T s.key = true)

abbrev All : Nat → Prop := fun _ => True

theorem cleanupOps_in {T : Name → Bool} (x : Engine.Stmt) (h : TempIn T x) : ∀ o ∈ cleanupOps x, OpIn T All o := by
  intro o ho
  cases x with
  | createTable s _ _ =>
    simp only [cleanupOps] at ho
    split at ho
    · rename_i ht
      have hT := h.1 s rfl ht
      simp only [List.mem_cons, List.not_mem_nil, or_false] at ho
      rcases ho with rfl | rfl <;> exact hT
    · cases ho
  | createView s _ =>
    simp only [cleanupOps] at ho
    split at ho
    · rename_i ht
      have hT := h.1 s rfl ht
      simp only [List.mem_cons, List.not_mem_nil, or_false] at ho
      rcases ho with rfl | rfl <;> exact hT
    · cases ho
  | createFunction s =>
    simp only [cleanupOps] at ho
    split at ho
    · rename_i ht
      have hT := h.2 s rfl ht
      simp only [List.mem_singleton] at ho
      subst ho; exact hT
    · cases ho
  | _ => cases ho

theorem crash_cleanup {T N : Name → Bool} (hd : ∀ n, N n = true → T n = false) {sh0 : Shared} : ∀ (xs : List Engine.Stmt) (res : Result) (sh : Shared) (k : Nat),
    Good All sh → Agree N sh sh0 → (∀ x ∈ xs, TempIn T x) →
    Good All (aloneN k (sh, cleanupProg xs res)).1 ∧ Agree N (aloneN k (sh, cleanupProg xs res)).1 sh0
  | [], res, sh, k, h, ha, _ => by
    have : ∀ k, aloneN k (sh, cleanupProg [] res) = (sh, cleanupProg [] res) := by
      intro k
      induction k with
      | zero => rfl
      | succ k ih => exact ih
    rw [this]; exact ⟨h, ha⟩
  | x :: xs, res, sh, k, h, ha, hT => by
    have hin := cleanupOps_in x (hT x (by simp))
    rw [cleanupProg]
    rcases aloneN_runOps (fun ok => cleanupProg xs { res with errs := res.errs ++ if ok then [] else [1] }) (cleanupOps x) sh k with ⟨i, hi⟩ | ⟨k', hk⟩
    · rw [hi]
      exact doOps_agree hd _ sh h ha (fun o ho => hin o (List.mem_of_mem_take ho)) (cleanOps_take i _ _ (cleanOps_cleanup x sh))
    · rw [hk]
      obtain ⟨g, a⟩ := doOps_agree hd _ sh h ha hin (cleanOps_cleanup x sh)
      exact crash_cleanup hd xs _ _ k' g a fun y hy => hT y (by simp [hy])

/-- The name a statement is about. -/
def nameOf : Engine.Stmt → Option Name
  | .createTable s _ _ => some s.key
  | .createView s _ => some s.key
  | .createFunction s => some s.key
  | .dropTable n _ => some n
  | .dropView n _ => some n
  | .dropFunction n => some n
  | _ => none

theorem stmtIn_nameOf (x : Engine.Stmt) : StmtIn (fun n => decide (nameOf x = some n)) All (.ddl x) := by
  cases x <;> simp [StmtIn, nameOf, All]

theorem good_einv {st : St} {d : Dict} (h : EInv st d) (last : Nat) : Good All (toShared st last) :=
  good_of_inv (d := d) ⟨h.mem, h.kt, h.kf, h.disj, h.rows⟩ (fun _ _ => trivial) (fun _ _ => trivial)

/-- A consistent state is whole under every name that is not temporary. -/
theorem whole_of_einv {st : St} {d : Dict} (h : EInv st d) (last : Nat) {sh : Shared} {N : Name → Bool} (hg : Good All sh) (ha : Agree N sh (toShared st last))
    (hT : ∀ s ∈ d.tables, s.isTemp = true → N s.key = false) (hF : ∀ s ∈ d.functions, s.isTemp = true → N s.key = false) {n : Name} (hn : N n = true) :
    Whole d sh n := by
  have hs := seen_agree hg (good_einv h last) ha hn
  have h1 : sh.phys n = (toShared st last).phys n := congrArg Seen.phys hs
  have h2 : stored sh n = stored (toShared st last) n := congrArg Seen.stored hs
  refine ⟨by rw [h1]; exact h.phys n, ?_⟩
  rw [h2, stored_eq (d := d) ⟨h.mem, h.kt, h.kf, h.disj, h.rows⟩]
  have nt : ∀ l : List Catalog.Spec, (∀ s ∈ l, s.isTemp = true → N s.key = false) → (lookup l n).filter (fun s => !s.isTemp) = lookup l n := by
    intro l hl
    cases hlk : lookup l n with
    | none => rfl
    | some s =>
      obtain ⟨hk, hm⟩ := lookup_key hlk
      cases ht : s.isTemp with
      | false => simp [Option.filter, ht]
      | true => have := hl s hm ht; rw [hk, hn] at this; cases this
  rw [nt _ hT, nt _ hF]

theorem outcome_mem {d d' : Dict} (x : Engine.Stmt) (h : outcome d x = some d') :
    (∀ s ∈ d'.tables, s ∈ d.tables ∨ x.table = some s) ∧ (∀ s ∈ d'.functions, s ∈ d.functions ∨ x.fn = some s) := by
  have hcreate : ∀ (s : Catalog.Spec) (mode : Mode), createOut d s mode = some d' →
      (∀ t ∈ d'.tables, t ∈ d.tables ∨ t = s) ∧ d'.functions = d.functions := by
    intro s mode he
    unfold createOut at he
    split at he
    · cases he
      exact ⟨fun t ht => by rcases List.mem_append.1 ht with ht | ht; exact .inl ht; simp only [List.mem_singleton] at ht; exact .inr ht, rfl⟩
    · split at he
      · cases he
      · cases he; exact ⟨fun t ht => .inl ht, rfl⟩
      · split at he
        · cases he
          refine ⟨fun t ht => ?_, rfl⟩
          rcases List.mem_append.1 ht with ht | ht
          · exact .inl (List.mem_filter.1 ht).1
          · simp only [List.mem_singleton] at ht; exact .inr ht
        · cases he
  have hdrop : ∀ (n : Name) (v ie : Bool), dropOut d n v ie = some d' → (∀ t ∈ d'.tables, t ∈ d.tables) ∧ d'.functions = d.functions := by
    intro n v ie he
    unfold dropOut at he
    split at he
    · split at he
      · cases he; exact ⟨fun t ht => ht, rfl⟩
      · cases he
    · split at he
      · cases he; exact ⟨fun t ht => (List.mem_filter.1 ht).1, rfl⟩
      · cases he
  cases x with
  | createTable s mode a =>
    obtain ⟨h1, h2⟩ := hcreate s mode h
    exact ⟨fun t ht => (h1 t ht).imp id fun e => by rw [e]; rfl, fun t ht => .inl (h2 ▸ ht)⟩
  | createView s mode =>
    obtain ⟨h1, h2⟩ := hcreate s mode h
    exact ⟨fun t ht => (h1 t ht).imp id fun e => by rw [e]; rfl, fun t ht => .inl (h2 ▸ ht)⟩
  | createFunction s =>
    simp only [outcome] at h
    split at h
    · cases h
    · cases h
      refine ⟨fun t ht => .inl ht, fun t ht => ?_⟩
      rcases List.mem_append.1 ht with ht | ht
      · exact .inl ht
      · simp only [List.mem_singleton] at ht; exact .inr (by rw [ht]; rfl)
  | dropTable n ie => obtain ⟨h1, h2⟩ := hdrop n false ie h; exact ⟨fun t ht => .inl (h1 t ht), fun t ht => .inl (h2 ▸ ht)⟩
  | dropView n ie => obtain ⟨h1, h2⟩ := hdrop n true ie h; exact ⟨fun t ht => .inl (h1 t ht), fun t ht => .inl (h2 ▸ ht)⟩
  | dropFunction n =>
    simp only [outcome] at h
    split at h
    · cases h; exact ⟨fun t ht => .inl ht, fun t ht => .inl (List.mem_filter.1 ht).1⟩
    · cases h
  | other ok =>
    simp only [outcome] at h
    split at h
    · cases h; exact ⟨fun t ht => .inl ht, fun t ht => .inl ht⟩
    · cases h
  | rejected => cases h

theorem crash_body (last : Nat) {T : Name → Bool} : ∀ (xs : List Engine.Stmt) (d : Dict) (st : St) (started : List Engine.Stmt) (k : Nat), EInv st d → TameScript d xs →
    (∀ s ∈ d.tables, s.isTemp = true → T s.key = true) → (∀ s ∈ d.functions, s.isTemp = true → T s.key = true) →
    (∀ x ∈ started, TempIn T x) → (∀ x ∈ xs, TempIn T x) →
    ∃ j, ∀ n, T n = false → (∀ x, xs[j]? = some x → nameOf x ≠ some n) →
      Whole (runSpec d (xs.take j)).1 (aloneN k (toShared st last, bodyProg (xs.map .ddl) started [])).1 n := by
  have clean : ∀ (xs : List Engine.Stmt) (d : Dict) (st : St) (res : Result) (k : Nat), EInv st d → (∀ x ∈ xs, TempIn T x) →
      (∀ s ∈ d.tables, s.isTemp = true → T s.key = true) → (∀ s ∈ d.functions, s.isTemp = true → T s.key = true) → ∀ n, T n = false →
      Whole d (aloneN k (toShared st last, cleanupProg xs res)).1 n := by
    intro xs d st res k h hx h1 h2 n hn
    obtain ⟨g, a⟩ := crash_cleanup (T := T) (N := fun n => !T n) (by intro n hn; simpa using hn) (sh0 := toShared st last) xs res (toShared st last) k (good_einv h last) (Agree.refl _ _) hx
    exact whole_of_einv h last g a (fun s hs ht => by simp [h1 s hs ht]) (fun s hs ht => by simp [h2 s hs ht]) (by simp [hn])
  intro xs
  induction xs with
  | nil =>
    intro d st started k h _ h1 h2 hst _
    exact ⟨0, fun n hn _ => clean started d st _ k h hst h1 h2 n hn⟩
  | cons x xs ih =>
    intro d st started k h ht h1 h2 hst hxs
    have hst' : ∀ y ∈ started ++ [x], TempIn T y := by
      intro y hy
      rcases List.mem_append.1 hy with hy | hy
      · exact hst y hy
      · simp only [List.mem_singleton] at hy; rw [hy]; exact hxs x (by simp)
    by_cases e1 : x = .rejected
    · subst e1; exact ⟨0, fun n hn _ => clean started d st _ k h hst h1 h2 n hn⟩
    by_cases e2 : x = .other false
    · subst e2; exact ⟨0, fun n hn _ => clean _ d st _ k h hst' h1 h2 n hn⟩
    rw [List.map_cons, bodyProg_ddl x e1 e2]
    rcases aloneN_runOps (fun ok => if ok then bodyProg (xs.map .ddl) (started ++ [x]) [] else cleanupProg (started ++ [x]) ⟨[1], []⟩) (ops x)
      (toShared st last) k with ⟨i, hi⟩ | ⟨k', hk⟩
    · refine ⟨0, fun n hn hne => ?_⟩
      rw [hi]
      have hne' := hne x rfl
      obtain ⟨g, a⟩ := doOps_agree (M := fun n => decide (nameOf x = some n)) (N := fun n => !T n && !decide (nameOf x = some n)) (L := All)
        (by intro n hn; simp only [Bool.and_eq_true, Bool.not_eq_true'] at hn; exact hn.2) (sh0 := toShared st last)
        ((ops x).take i) (toShared st last) (good_einv h last) (Agree.refl _ _)
        (fun o ho => (ops_in x (stmtIn_nameOf x)).1 o (List.mem_of_mem_take ho)) (cleanOps_take i _ _ (cleanOps_tame h x ht.1 last))
      exact whole_of_einv h last g a (fun s hs hts => by simp [h1 s hs hts]) (fun s hs hts => by simp [h2 s hs hts]) (by simp [hn, hne'])
    · rw [hk]
      cases ha : x.action with
      | none => exact absurd (by revert ha; cases x <;> simp [Stmt.action]) e1
      | some a =>
        rw [doOps_exec x a ha e2]
        have hs := stmt_step h x ht.1
        rw [ha] at hs
        have ht2 := ht.2
        cases ho : outcome d x with
        | none =>
          rw [ho] at hs
          obtain ⟨e, he⟩ := Option.ne_none_iff_exists'.1 hs.1
          simp only [shOf, he, Option.isNone_some, Bool.false_eq_true, if_false]
          exact ⟨0, fun n hn _ => clean _ d _ _ k' hs.2 hst' h1 h2 n hn⟩
        | some d' =>
          rw [ho] at hs ht2
          simp only [shOf, hs.1, Option.isNone_none, if_true]
          have hm := outcome_mem x ho
          have hx := hxs x (by simp)
          obtain ⟨j, hj⟩ := ih d' (a.exec st).1 (started ++ [x]) k' hs.2 ht2
            (fun s hs' hts => (hm.1 s hs').elim (fun hd => h1 s hd hts) fun hd => hx.1 s hd hts)
            (fun s hs' hts => (hm.2 s hs').elim (fun hd => h2 s hd hts) fun hd => hx.2 s hd hts)
            hst' (fun y hy => hxs y (by simp [hy]))
          refine ⟨j + 1, fun n hn hne => ?_⟩
          have : (runSpec d ((x :: xs).take (j + 1))).1 = (runSpec d' (xs.take j)).1 := by
            rw [List.take_succ_cons, runSpec, ho]
          rw [this]
          exact hj n hn fun y hy => hne y (by simpa using hy)

/-- The part of C223 that holds.  Whenever the process dies during a call of a tame script, there is a `j` such that under every name
that the statement `j` is not about and that no temporary object of the script has, the file holds exactly what the first `j`
statements leave, with the SQLite object and the catalog row in agreement.  So at most one name besides the temporary ones is broken. -/
theorem C223_partial (xs : List Engine.Stmt) (d : Dict) (st : St) (last k : Nat) (h : EInv st d) (hp : ∀ s ∈ d.tables, s.isTemp = false)
    (hq : ∀ s ∈ d.functions, s.isTemp = false) (ht : TameScript d xs) :
    ∃ j, ∀ n, (∀ x ∈ xs, ∀ s, x.table = some s ∨ x.fn = some s → s.isTemp = true → s.key ≠ n) →
      (∀ x, xs[j]? = some x → nameOf x ≠ some n) → Whole (runSpec d (xs.take j)).1 (crash k (xs.map .ddl) (toShared st last)) n := by
  classical
  let T : Name → Bool := fun n => decide (∃ x ∈ xs, ∃ s, (x.table = some s ∨ x.fn = some s) ∧ s.isTemp = true ∧ s.key = n)
  cases k with
  | zero =>
    refine ⟨0, fun n _ _ => ?_⟩
    exact whole_of_einv h last (N := fun _ => true) (good_einv h last) (Agree.refl _ _) (fun s hs hts => by rw [hp s hs] at hts; cases hts)
      (fun s hs hts => by rw [hq s hs] at hts; cases hts) rfl
  | succ k =>
    have hs := sync_known (sh := toShared st last) (d := d) ⟨h.mem, h.kt, h.kf, h.disj, h.rows⟩ 0
    have hc : crash (k + 1) (xs.map .ddl) (toShared st last) = (aloneN k (toShared st st.now, bodyProg (xs.map .ddl) [] [])).1 := by
      simp only [crash, callProg, aloneN, stepAlone, hs, if_true]
      rfl
    rw [hc]
    have hT : ∀ x ∈ xs, TempIn T x := fun x hx =>
      ⟨fun s hs hts => decide_eq_true ⟨x, hx, s, .inl hs, hts, rfl⟩, fun s hs hts => decide_eq_true ⟨x, hx, s, .inr hs, hts, rfl⟩⟩
    obtain ⟨j, hj⟩ := crash_body st.now (T := T) xs d st [] k h ht (fun s hs hts => by rw [hp s hs] at hts; cases hts)
      (fun s hs hts => by rw [hq s hs] at hts; cases hts) (by simp) hT
    refine ⟨j, fun n hn hne => hj n ?_ hne⟩
    refine decide_eq_false ?_
    rintro ⟨x, hx, s, hs, hts, hk⟩
    exact hn x hx s hs hts hk

/-- A script with a temporary and a permanent table; the crash while the second is being created leaves `v` as it was. -/
example : TameScript Dict.empty [.createTable (tSpec true 1) .default false, .createTable uSpec .default false] := by
  simp [TameScript, Tame, outcome, createOut, FreshOp, Dict.empty, tSpec, uSpec, Catalog.Spec.key, NamePath.formatPath, lookup]

end Verif.Concurrent
