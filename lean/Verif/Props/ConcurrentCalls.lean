import Verif.Props.Concurrent

/-!
# Non-interference of calls, temporary objects, crashes (C221–C223)
-/

namespace Verif.Concurrent
open Verif.Catalog Verif.Catalog.Spec Verif.Driver Verif.Engine NamePath

/-- The definition stored in the database file under a name, and whether it is a function. -/
def stored (sh : Shared) (n : Name) : Option (Catalog.Spec × Bool) := (sh.world.rows.find? fun r => decide (r.name = n)).map fun r => (r.spec, r.isFn)

/-- What a user can see of the object named `n`. -/
structure Seen where
  phys : Option Bool
  table : Option Catalog.Spec
  function : Option Catalog.Spec
  stored : Option (Catalog.Spec × Bool)
  deriving DecidableEq

def seenAt (sh : Shared) (n : Name) : Seen :=
  ⟨sh.phys n, sh.world.proc.mem.tableMap n, sh.world.proc.mem.funcMap n, stored sh n⟩

/-- Nobody has called anything yet. -/
def start (sh : Shared) (scripts : Nat → List Stmt) : Conf Result := ⟨sh, fun i => callProg (scripts i)⟩

/-- The name sets of different calls have nothing in common. -/
def Apart (N : Nat → Name → Bool) : Prop := ∀ i j, i ≠ j → ∀ n, N i n = true → N j n = false

/-- C221 at full strength: calls on different names do not influence each other.  From a consistent catalog, whatever the schedule,
a call that returns returns what it returns when it runs alone. -/
def C221_full : Prop := ∀ (N : Nat → Name → Bool) (L : Nat → Prop) (sh : Shared) (d : Dict) (scripts : Nat → List Stmt) (es : List Event),
  (∀ i, CaseClosed (N i)) → Apart N → Inv sh.world d → (∀ s ∈ d.tables, L s.path.length) → (∀ s ∈ d.functions, L s.path.length) →
  (∀ n, sh.phys n = (lookup d.tables n).map Catalog.Spec.isView) →
  (∀ i, ∀ x ∈ scripts i, StmtIn (N i) L x) → (∀ i, Clean (callProg (scripts i)) sh) →
  ∀ i res, ((start sh scripts).run es).thr i = .ret res → res = (runAlone (callProg (scripts i)) sh).2

/-! ## C221 -/

theorem runAlone_stepAlone {α : Type} (c : Shared × Prog α) : runAlone (stepAlone c).2 (stepAlone c).1 = runAlone c.2 c.1 := by
  obtain ⟨sh, p⟩ := c
  cases p with
  | ret a => rfl
  | op o k => rfl

theorem runAlone_aloneN {α : Type} : ∀ (n : Nat) (c : Shared × Prog α), runAlone (aloneN n c).2 (aloneN n c).1 = runAlone c.2 c.1
  | 0, _ => rfl
  | n + 1, c => by rw [aloneN, runAlone_aloneN n, runAlone_stepAlone]

theorem aloneN_ret {α : Type} {n : Nat} {sh : Shared} {p : Prog α} {a : α} (h : (aloneN n (sh, p)).2 = .ret a) :
    runAlone p sh = ((aloneN n (sh, p)).1, a) := by
  have := runAlone_aloneN n (sh, p)
  rw [h] at this
  exact this.symm

/-- The stored definition of a name, from the objects of the catalog. -/
theorem stored_eq {sh : Shared} {d : Dict} (h : Inv sh.world d) (n : Name) :
    stored sh n = (((lookup d.tables n).filter fun s => !s.isTemp).map fun s => (s, false)).or
      (((lookup d.functions n).filter fun s => !s.isTemp).map fun s => (s, true)) := by
  have row : ∀ r ∈ sh.world.rows, r.name = n → (r.isFn = false → lookup d.tables n = some r.spec ∧ r.spec.isTemp = false) ∧
      (r.isFn = true → lookup d.functions n = some r.spec ∧ r.spec.isTemp = false) := by
    intro r hr hn
    have hk : r.spec.key = n := by rw [← hn, good_name (h.rows.good r hr)]
    refine ⟨fun hf => ?_, fun hf => ?_⟩
    · have := h.rows.mem_table hr hf
      exact ⟨hk ▸ lookup_mem h.kt this.1, this.2⟩
    · have := h.rows.mem_fn hr hf
      exact ⟨hk ▸ lookup_mem h.kf this.1, this.2⟩
  have back : ∀ (b : Bool) (s : Catalog.Spec), lookup (if b then d.functions else d.tables) n = some s → s.isTemp = false →
      ∃ r ∈ sh.world.rows, r.name = n := by
    intro b s hl ht
    obtain ⟨hk, hm⟩ := lookup_key hl
    cases b with
    | false =>
      have hs : s ∈ d.tables.filter (fun s => !s.isTemp) := List.mem_filter.2 ⟨by simpa using hm, by simp [ht]⟩
      rw [← h.rows.tables] at hs
      obtain ⟨r, hr, rfl⟩ := List.mem_map.1 hs
      have hr' := (List.mem_filter.1 hr).1
      exact ⟨r, hr', by rw [good_name (h.rows.good r hr'), hk]⟩
    | true =>
      have hs : s ∈ d.functions.filter (fun s => !s.isTemp) := List.mem_filter.2 ⟨by simpa using hm, by simp [ht]⟩
      rw [← h.rows.functions] at hs
      obtain ⟨r, hr, rfl⟩ := List.mem_map.1 hs
      have hr' := (List.mem_filter.1 hr).1
      exact ⟨r, hr', by rw [good_name (h.rows.good r hr'), hk]⟩
  unfold stored
  cases hfind : sh.world.rows.find? (fun r => decide (r.name = n)) with
  | none =>
    have hno : ∀ r ∈ sh.world.rows, r.name ≠ n := by
      intro r hr e
      have := List.find?_eq_none.1 hfind r hr
      simp [e] at this
    have e1 : (lookup d.tables n).filter (fun s => !s.isTemp) = none := by
      cases hl : lookup d.tables n with
      | none => rfl
      | some s =>
        cases ht : s.isTemp with
        | true => simp [ht]
        | false => obtain ⟨r, hr, e⟩ := back false s (by simpa using hl) ht; exact absurd e (hno r hr)
    have e2 : (lookup d.functions n).filter (fun s => !s.isTemp) = none := by
      cases hl : lookup d.functions n with
      | none => rfl
      | some s =>
        cases ht : s.isTemp with
        | true => simp [ht]
        | false => obtain ⟨r, hr, e⟩ := back true s (by simpa using hl) ht; exact absurd e (hno r hr)
    simp [e1, e2]
  | some r =>
    have hr := List.mem_of_find?_eq_some hfind
    have hn : r.name = n := by simpa using List.find?_some hfind
    have hk : r.spec.key = n := by rw [← hn, good_name (h.rows.good r hr)]
    cases hf : r.isFn with
    | false =>
      obtain ⟨h1, h2⟩ := (row r hr hn).1 hf
      simp [Option.filter, h1, h2, hf]
    | true =>
      obtain ⟨h1, h2⟩ := (row r hr hn).2 hf
      have hnone : lookup d.tables n = none := by
        rw [lookup_none]
        intro t ht e
        exact h.disj t ht r.spec (lookup_key h1).2 (by rw [e, hk])
      simp [Option.filter, h1, h2, hf, hnone]

theorem seen_agree {N : Name → Bool} {L : Nat → Prop} {sh sh' : Shared} (h : Good L sh) (h' : Good L sh') (ha : Agree N sh sh') {n : Name}
    (hn : N n = true) : seenAt sh n = seenAt sh' n := by
  have e1 := lookup_filter ha.tables hn
  have e2 := lookup_filter ha.fns hn
  have t : ∀ {s : Shared}, Good L s → s.world.proc.mem.tableMap n = lookup (tabs s) n := fun {s} hs => by rw [hs.mem]; rfl
  have f : ∀ {s : Shared}, Good L s → s.world.proc.mem.funcMap n = lookup (fns s) n := fun {s} hs => by rw [hs.mem]; rfl
  simp only [seenAt, ha.phys n hn, t h, t h', f h, f h', e1, e2, stored_eq h.inv, stored_eq h'.inv]

/-- C221 for calls that, alone, never register a name that exists, and schedules in which no lookup runs inside a deletion.  Any
number of connections: every call is, after every schedule, where it is after as many of its own operations alone; the result of
a call is the one of running alone; the objects it names are as after running alone; objects no call names are untouched. -/
theorem C221_partial (N : Nat → Name → Bool) (L : Nat → Prop) (sh : Shared) (d : Dict) (scripts : Nat → List Stmt) (es : List Event)
    (hN : ∀ i, CaseClosed (N i)) (hd : Apart N) (h : Inv sh.world d) (ht : ∀ s ∈ d.tables, L s.path.length)
    (hf : ∀ s ∈ d.functions, L s.path.length) (hin : ∀ i, ∀ x ∈ scripts i, StmtIn (N i) L x)
    (hc : ∀ i, Clean (callProg (scripts i)) sh) (hp : NoPeek es) :
    let c := (start sh scripts).run es
    (∀ i, c.thr i = (aloneN (turns i es) (sh, callProg (scripts i))).2) ∧
    (∀ i res, c.thr i = .ret res → res = (runAlone (callProg (scripts i)) sh).2 ∧
      ∀ n, N i n = true → seenAt c.sh n = seenAt (runAlone (callProg (scripts i)) sh).1 n) ∧
    (∀ n, (∀ i, N i n = false) → seenAt c.sh n = seenAt sh n) := by
  have g : Good L sh := good_of_inv h ht hf
  have s0 : Sched N L sh (fun i => callProg (scripts i)) (fun _ => 0) (start sh scripts) :=
    ⟨g, fun _ => rfl, fun _ => g, fun _ => Agree.refl _ _, fun i => within_call _ (hin i), hc, fun _ _ => Agree.refl _ _⟩
  have s1 := Sched.run hN hd es _ _ hp s0
  simp only [Nat.zero_add] at s1
  refine ⟨s1.thr, ?_, ?_⟩
  · intro i res hr
    have hr' := hr
    rw [s1.thr i] at hr'
    have ha := aloneN_ret hr'
    rw [ha]
    exact ⟨rfl, fun n hn => seen_agree s1.good (s1.goodA i) (s1.agree i) hn⟩
  · intro n hn
    exact seen_agree s1.good g (s1.rest (fun m => decide (m = n)) (fun i m hm => by
      simp only [decide_eq_true_eq] at hm; rw [hm]; exact hn i)) (by simp)

/-! ### Scripts of catalog statements never register an existing name if they are tame -/

def cleanOps : List Op → Shared → Prop
  | [], _ => True
  | o :: os, sh => FreshAt sh o ∧ ((o.run 0 sh).2.ok = true → cleanOps os (o.run 0 sh).1)

theorem clean_runOps {α : Type} {k : Bool → Prog α} : ∀ (os : List Op) (sh : Shared), cleanOps os sh →
    Clean (k (doOps os sh).2) (doOps os sh).1 → Clean (runOps os k) sh
  | [], _, _, h => h
  | o :: os, sh, hc, h => by
    refine ⟨hc.1, ?_⟩
    simp only [doOps] at h
    dsimp only
    cases hok : (o.run 0 sh).2.ok with
    | true => rw [hok] at h; simp only [if_true] at h ⊢; exact clean_runOps os _ (hc.2 hok) h
    | false => rw [hok] at h; simpa using h

theorem cleanOps_cleanup (x : Engine.Stmt) (sh : Shared) : cleanOps (cleanupOps x) sh := by
  cases x <;> simp only [cleanupOps] <;> (try split) <;> simp [cleanOps, FreshAt]

theorem clean_cleanup : ∀ (xs : List Engine.Stmt) (res : Result) (sh : Shared), Clean (cleanupProg xs res) sh
  | [], _, _ => trivial
  | x :: xs, _, sh => clean_runOps _ _ (cleanOps_cleanup x sh) (clean_cleanup xs _ _)

theorem cleanOps_create {st : St} {d : Dict} (h : EInv st d) (s : Catalog.Spec) (view : Bool) (mode : Mode) (ine : Bool) (last : Nat)
    (hine : mode = .default → ine = false)
    (ht : FreshOp d (.createTable s) ∨ (mode = .default ∧ s.isTemp = false ∧ (lookup d.tables s.key).isSome = true)) :
    cleanOps ((if mode = .orReplace then [.drop s.key view true] else []) ++ [.create s.key view ine, .cat (.createTable s)])
      (toShared st last) := by
  have fresh : ∀ phys : Name → Option Bool, FreshOp d (.createTable s) →
      FreshAt { toShared st last with phys := phys } (.cat (.createTable s)) := by
    intro phys hf
    refine ⟨hf.1, ?_, ?_⟩
    · show st.mem.tableMap s.key = none
      rw [h.mem]; exact lookup_none.2 hf.2.1
    · show st.mem.funcMap s.key = none
      rw [h.mem]; exact lookup_none.2 hf.2.2
  rcases ht with hf | ⟨rfl, _, hs⟩
  · split
    · refine ⟨trivial, fun _ => ⟨trivial, fun _ => ⟨fresh _ hf, fun _ => trivial⟩⟩⟩
    · exact ⟨trivial, fun _ => ⟨fresh _ hf, fun _ => trivial⟩⟩
  · rw [hine rfl]
    refine ⟨trivial, fun hok => ?_⟩
    obtain ⟨t, hl⟩ := Option.isSome_iff_exists.1 hs
    have hp : st.phys s.key = some t.isView := by rw [h.phys, hl]; rfl
    simp [Op.run, toShared, sqlCreate, hp] at hok

theorem cleanOps_tame {st : St} {d : Dict} (h : EInv st d) (x : Engine.Stmt) (ht : Tame d x) (last : Nat) :
    cleanOps (ops x) (toShared st last) := by
  cases x with
  | createTable s mode a => exact cleanOps_create h s false mode _ last (by rintro rfl; rfl) ht.2
  | createView s mode => exact cleanOps_create h s true mode _ last (by rintro rfl; rfl) ht.2
  | createFunction s =>
    have hf : FreshOp d (.createFunction s) := ht
    refine ⟨⟨hf.1, ?_, ?_⟩, fun _ => trivial⟩
    · show st.mem.tableMap s.key = none
      rw [h.mem]; exact lookup_none.2 hf.2.1
    · show st.mem.funcMap s.key = none
      rw [h.mem]; exact lookup_none.2 hf.2.2
  | dropTable n ie => exact ⟨trivial, fun _ => ⟨trivial, fun _ => trivial⟩⟩
  | dropView n ie => exact ⟨trivial, fun _ => ⟨trivial, fun _ => trivial⟩⟩
  | dropFunction n => exact ⟨trivial, fun _ => trivial⟩
  | other ok => trivial
  | rejected => trivial

theorem clean_body (last : Nat) : ∀ (xs : List Engine.Stmt) (d : Dict) (st : St) (started : List Engine.Stmt), EInv st d → TameScript d xs →
    Clean (bodyProg (xs.map .ddl) started []) (toShared st last)
  | [], _, _, started, _, _ => clean_cleanup started _ _
  | x :: xs, d, st, started, h, ht => by
    by_cases e1 : x = .rejected
    · subst e1; exact clean_cleanup started _ _
    by_cases e2 : x = .other false
    · subst e2; exact clean_cleanup _ _ _
    rw [List.map_cons, bodyProg_ddl x e1 e2]
    refine clean_runOps _ _ (cleanOps_tame h x ht.1 last) ?_
    cases ha : x.action with
    | none => exact absurd (by revert ha; cases x <;> simp [Stmt.action]) e1
    | some a =>
      rw [doOps_exec x a ha e2]
      have hs := stmt_step h x ht.1
      rw [ha] at hs
      have ht2 := ht.2
      cases ho : outcome d x with
      | none =>
        rw [ho] at hs
        obtain ⟨e, he⟩ := Option.ne_none_iff_exists'.1 hs.1
        simp only [shOf, he, Option.isNone_some, Bool.false_eq_true, if_false]
        exact clean_cleanup _ _ _
      | some d' =>
        rw [ho] at hs ht2
        simp only [shOf, hs.1, Option.isNone_none, if_true]
        exact clean_body last xs d' _ _ hs.2 ht2

theorem clean_call (xs : List Engine.Stmt) (d : Dict) (st : St) (last : Nat) (h : EInv st d) (ht : TameScript d xs) :
    Clean (callProg (xs.map .ddl)) (toShared st last) := by
  have hs := sync_known (sh := toShared st last) (d := d) ⟨h.mem, h.kt, h.kf, h.disj, h.rows⟩ 0
  refine ⟨trivial, ?_⟩
  rw [hs]
  simp only [if_true]
  have := clean_body st.now xs d st [] h ht
  simpa [toShared] using this

/-- C221 for scripts of catalog statements: from a consistent database, in every schedule, each of any number of calls of tame scripts
on different names returns the errors `Engine.exec` says, an error exactly if one of its statements fails. -/
theorem C221_scripts_partial (N : Nat → Name → Bool) (st : St) (d : Dict) (last : Nat) (xs : Nat → List Engine.Stmt) (es : List Event)
    (hN : ∀ i, CaseClosed (N i)) (hd : Apart N) (h : EInv st d) (hp : ∀ s ∈ d.tables, s.isTemp = false) (hq : ∀ s ∈ d.functions, s.isTemp = false)
    (hin : ∀ i, ∀ x ∈ xs i, StmtIn (N i) (fun _ => True) (.ddl x)) (ht : ∀ i, TameScript d (xs i)) (he : NoPeek es) (i : Nat) (res : Result)
    (hr : ((start (toShared st last) fun i => (xs i).map .ddl).run es).thr i = .ret res) :
    res.errs = (exec (xs i) st).2 ∧ (res.errs = [] ↔ (runSpec d (xs i)).2 = true) ∧
    ∀ n, N i n = true → seenAt ((start (toShared st last) fun i => (xs i).map .ddl).run es).sh n = seenAt (toShared (exec (xs i) st).1 st.now) n := by
  have := (C221_partial N (fun _ => True) (toShared st last) d (fun i => (xs i).map .ddl) es hN hd ⟨h.mem, h.kt, h.kf, h.disj, h.rows⟩
    (fun _ _ => trivial) (fun _ _ => trivial)
    (by intro i x hx; obtain ⟨y, hy, rfl⟩ := List.mem_map.1 hx; exact hin i y hy)
    (fun i => clean_call (xs i) d st last h (ht i)) he).2.1 i res hr
  rw [alone_exec (xs i) st d last h] at this
  obtain ⟨h1, h2⟩ := this
  subst h1
  exact ⟨rfl, (C81_script_partial (xs i) d st h hp hq (ht i)).2, h2⟩

/-! ### Calls on different names that do interfere -/

def uSpec : Catalog.Spec := { path := [['u']], isTemp := false, isView := false, body := 2 }

/-- A database with the tables `t` and `u`. -/
def twoTables : Shared :=
  { world := World.init.run [(0, .createTable (tSpec false 1)), (0, .createTable uSpec)]
    phys := fun n => if n = ['t'] then some false else if n = ['u'] then some false else none }

def twoDict : Dict := ⟨[tSpec false 1, uSpec], []⟩

theorem twoTables_inv : Inv twoTables.world twoDict := by
  have := Inv.run Inv.init [(0, .createTable (tSpec false 1)), (0, .createTable uSpec)] (by
    simp [FreshNames, Dict.empty, Dict.step, tSpec, uSpec, define, Spec.key, formatPath])
  exact this

theorem twoTables_phys (n : Name) : twoTables.phys n = (lookup twoDict.tables n).map Catalog.Spec.isView := by
  by_cases h1 : n = ['t']
  · subst h1; rfl
  by_cases h2 : n = ['u']
  · subst h2; rfl
  have h1' : ¬ ['t'] = n := fun e => h1 e.symm
  have h2' : ¬ ['u'] = n := fun e => h2 e.symm
  simp [twoTables, lookup, twoDict, h1, h2, h1', h2', tSpec, uSpec, Spec.key, formatPath]

/-- Names equal to `t` up to case for call 0, to `u` for call 1. -/
def tuNames (i : Nat) (n : Name) : Bool := match i with
  | 0 => decide (lower n = ['t'])
  | 1 => decide (lower n = ['u'])
  | _ => false

theorem tu_closed (i : Nat) : CaseClosed (tuNames i) := by
  intro n m h
  unfold tuNames
  split <;> simp [h]

theorem tu_apart : Apart tuNames := by
  intro i j hij n hn
  unfold tuNames at hn ⊢
  split at hn <;> split <;> simp_all

/-- Call 0 drops `t`, call 1 reads `u`. -/
def dropAndRead (i : Nat) : List Stmt := match i with
  | 0 => [.ddl (.dropTable ['t'] false)]
  | 1 => [.query false [['u']]]
  | _ => []

theorem dropAndRead_in (i : Nat) : ∀ x ∈ dropAndRead i, StmtIn (tuNames i) (· = 1) x := by
  intro x hx
  unfold dropAndRead at hx
  split at hx
  · simp only [List.mem_singleton] at hx; subst hx; rfl
  · simp only [List.mem_singleton] at hx; subst hx; exact ⟨rfl, by simp, by simp⟩
  · cases hx

theorem dropAndRead_clean (i : Nat) : Clean (callProg (dropAndRead i)) twoTables := by
  unfold dropAndRead
  split
  · exact ⟨trivial, trivial, trivial, trivial⟩
  · exact ⟨trivial, trivial, trivial, trivial⟩
  · exact ⟨trivial, trivial⟩

/-- While `t` is being dropped on one connection, a query of `u` on another fails with "table not found". -/
theorem C221_lookup_inside_drop :
    ((start twoTables dropAndRead).run [.run 0 0, .run 0 0, .run 1 0, .peek 1 0 0]).thr 1 = .ret ⟨[1], []⟩ ∧
    (runAlone (callProg (dropAndRead 1)) twoTables).2 = ⟨[], [uSpec]⟩ := ⟨rfl, rfl⟩

/-- The code violates C221. -/
theorem C221_full_false : ¬ C221_full := by
  intro h
  have := h tuNames (· = 1) twoTables twoDict dropAndRead [.run 0 0, .run 0 0, .run 1 0, .peek 1 0 0] tu_closed tu_apart twoTables_inv
    (by intro s hs; simp [twoDict, tSpec, uSpec] at hs; rcases hs with rfl | rfl <;> rfl) (by intro s hs; cases hs) twoTables_phys
    dropAndRead_in dropAndRead_clean 1 ⟨[1], []⟩ C221_lookup_inside_drop.1
  rw [C221_lookup_inside_drop.2] at this
  cases this

/-- The hypotheses of C221_partial are met by these calls, and the schedule that interleaves them without the peek lets both succeed. -/
example : ((start twoTables dropAndRead).run [.run 0 0, .run 1 3, .run 0 0, .run 1 0, .run 0 0, .run 1 1]).thr 1 = .ret ⟨[], [uSpec]⟩ := rfl
example := C221_partial tuNames (· = 1) twoTables twoDict dropAndRead [.run 0 0, .run 1 3, .run 0 0, .run 1 0, .run 0 0, .run 1 1] tu_closed tu_apart
  twoTables_inv (by intro s hs; simp [twoDict, tSpec, uSpec] at hs; rcases hs with rfl | rfl <;> rfl) (by intro s hs; cases hs)
  dropAndRead_in dropAndRead_clean (by simp [NoPeek])

/-- Call 0 replaces `t`, call 1 drops `u`. -/
def replaceAndDrop (i : Nat) : List Stmt := match i with
  | 0 => [.ddl (.createTable (tSpec false 5) .orReplace false)]
  | 1 => [.ddl (.dropTable ['u'] false)]
  | _ => []

/-- Without the condition on existing names: dropping `u` on another connection brings back the definition of `t` from before
CREATE OR REPLACE TABLE t. -/
theorem C221_replace_reverted :
    let c := (start twoTables replaceAndDrop).run [.run 0 0, .run 0 0, .run 0 0, .run 0 0, .run 1 0, .run 1 0, .run 1 0]
    c.thr 0 = .ret ⟨[], []⟩ ∧ c.thr 1 = .ret ⟨[], []⟩ ∧
    (seenAt c.sh ['t']).table = some (tSpec false 1) ∧
    (seenAt (runAlone (callProg (replaceAndDrop 0)) twoTables).1 ['t']).table = some (tSpec false 5) := ⟨rfl, rfl, rfl, rfl⟩

/-! ## C222: temporary objects are private -/

/-- The statement creates nothing but temporary objects and drops nothing. -/
def TempOnly : Stmt → Prop
  | .ddl (.createTable s _ _) => s.isTemp = true
  | .ddl (.createView s _) => s.isTemp = true
  | .ddl (.createFunction s) => s.isTemp = true
  | .ddl (.other _) => True
  | .ddl .rejected => True
  | .query _ _ => True
  | _ => False

/-- C222 at full strength: the temporary objects of a call exist only for this call, so a call does not notice calls of other
connections that create nothing but temporary objects. -/
def C222_full : Prop := ∀ (L : Nat → Prop) (sh : Shared) (d : Dict) (scripts : Nat → List Stmt) (es : List Event),
  Inv sh.world d → (∀ s ∈ d.tables, L s.path.length) → (∀ s ∈ d.functions, L s.path.length) →
  (∀ n, sh.phys n = (lookup d.tables n).map Catalog.Spec.isView) →
  (∀ i, ∀ x ∈ scripts i, StmtIn (fun _ => true) L x ∧ TempOnly x) → NoPeek es →
  ∀ i res, ((start sh scripts).run es).thr i = .ret res → res = (runAlone (callProg (scripts i)) sh).2

/-- An empty database. -/
def noTables : Shared := { world := World.init, phys := fun _ => none }

/-- Call 0 creates a temporary table and reads it; call 1 creates one of the same name. -/
def twoTemps (i : Nat) : List Stmt := match i with
  | 0 => [.ddl (.createTable (tSpec true 1) .default false), .query false [['t']]]
  | 1 => [.ddl (.createTable (tSpec true 2) .default false)]
  | _ => []

/-- The second CREATE TEMP TABLE fails and its cleanup destroys the temporary table of the first call, whose query fails. -/
theorem C222_temps_collide :
    let c := (start noTables twoTemps).run [.run 0 0, .run 0 0, .run 0 0, .run 1 0, .run 1 0, .run 1 0, .run 1 0, .run 0 0, .run 0 0, .run 0 0]
    c.thr 0 = .ret ⟨[1, 1], []⟩ ∧ c.thr 1 = .ret ⟨[1], []⟩ ∧
    (runAlone (callProg (twoTemps 0)) noTables).2 = ⟨[], [tSpec true 1]⟩ ∧ (runAlone (callProg (twoTemps 1)) noTables).2 = ⟨[], []⟩ :=
  ⟨rfl, rfl, rfl, rfl⟩

/-- Call 1 reads the name of a temporary table of call 0. -/
def tempAndRead (i : Nat) : List Stmt := match i with
  | 0 => [.ddl (.createTable (tSpec true 1) .default false)]
  | 1 => [.query false [['t']]]
  | _ => []

/-- A query on another connection reads the temporary table. -/
theorem C222_temp_visible :
    let c := (start noTables tempAndRead).run [.run 0 0, .run 0 0, .run 0 0, .run 1 0, .run 1 0, .run 1 0]
    c.thr 1 = .ret ⟨[], [tSpec true 1]⟩ ∧ (runAlone (callProg (tempAndRead 1)) noTables).2 = ⟨[1], []⟩ := ⟨rfl, rfl⟩

/-- The code violates C222. -/
theorem C222_full_false : ¬ C222_full := by
  intro h
  have := h (· = 1) noTables Dict.empty twoTemps [.run 0 0, .run 0 0, .run 0 0, .run 1 0, .run 1 0, .run 1 0, .run 1 0, .run 0 0, .run 0 0, .run 0 0]
    Inv.init (by intro s hs; cases hs) (by intro s hs; cases hs) (fun _ => rfl)
    (by
      intro i x hx
      unfold twoTemps at hx
      split at hx
      · simp only [List.mem_cons, List.not_mem_nil, or_false] at hx
        rcases hx with rfl | rfl
        · exact ⟨⟨rfl, rfl⟩, rfl⟩
        · exact ⟨⟨rfl, by simp, by simp⟩, trivial⟩
      · simp only [List.mem_singleton] at hx; subst hx; exact ⟨⟨rfl, rfl⟩, rfl⟩
      · cases hx)
    (by simp [NoPeek]) 0 ⟨[1, 1], []⟩ C222_temps_collide.1
  rw [C222_temps_collide.2.2.1] at this
  cases this

/-- The part of C222 that holds: if the calls use different names (the temporary ones included), then in every schedule, when a
call of a tame script has returned, exactly the permanent objects its statements leave exist under its names, on every connection
and in the file; none of its temporary objects does. -/
theorem C222_partial (N : Nat → Name → Bool) (st : St) (d : Dict) (last : Nat) (xs : Nat → List Engine.Stmt) (es : List Event)
    (hN : ∀ i, CaseClosed (N i)) (hd : Apart N) (h : EInv st d) (hp : ∀ s ∈ d.tables, s.isTemp = false) (hq : ∀ s ∈ d.functions, s.isTemp = false)
    (hin : ∀ i, ∀ x ∈ xs i, StmtIn (N i) (fun _ => True) (.ddl x)) (ht : ∀ i, TameScript d (xs i)) (he : NoPeek es) (i : Nat) (res : Result)
    (hr : ((start (toShared st last) fun i => (xs i).map .ddl).run es).thr i = .ret res) (n : Name) (hn : N i n = true) :
    let D := permanent (runSpec d (xs i)).1
    seenAt ((start (toShared st last) fun i => (xs i).map .ddl).run es).sh n =
      ⟨(lookup D.tables n).map Catalog.Spec.isView, lookup D.tables n, lookup D.functions n,
        ((lookup D.tables n).map fun s => (s, false)).or ((lookup D.functions n).map fun s => (s, true))⟩ := by
  intro D
  have h1 := (C221_scripts_partial N st d last xs es hN hd h hp hq hin ht he i res hr).2.2 n hn
  have h2 : EInv (exec (xs i) st).1 D := (C81_script_partial (xs i) d st h hp hq (ht i)).1
  rw [h1]
  have hst := stored_eq (sh := toShared (exec (xs i) st).1 st.now) (d := D) ⟨h2.mem, h2.kt, h2.kf, h2.disj, h2.rows⟩ n
  have nt : ∀ l : List Catalog.Spec, (lookup (l.filter fun s => !s.isTemp) n).filter (fun s => !s.isTemp) = lookup (l.filter fun s => !s.isTemp) n := by
    intro l
    cases hl : lookup (l.filter fun s => !s.isTemp) n with
    | none => rfl
    | some s =>
      have := (List.mem_filter.1 (lookup_key hl).2).2
      simp [Option.filter, this]
  have e1 : (lookup D.tables n).filter (fun s => !s.isTemp) = lookup D.tables n := nt _
  have e2 : (lookup D.functions n).filter (fun s => !s.isTemp) = lookup D.functions n := nt _
  rw [e1, e2] at hst
  simp only [seenAt, hst]
  have hm : (toShared (exec (xs i) st).1 st.now).world.proc.mem = canon D.tables D.functions := h2.mem
  have hph : (toShared (exec (xs i) st).1 st.now).phys n = _ := h2.phys n
  rw [hm, hph]
  rfl

/-- Two connections: one creates a temporary and a permanent table, the other fails. -/
example : TameScript Dict.empty [.createTable (tSpec true 1) .default false, .other true] ∧
    TameScript Dict.empty [.createTable uSpec .ifNotExists false, .dropTable ['u'] true, .rejected] := by
  simp [TameScript, Tame, outcome, createOut, dropOut, FreshOp, Dict.empty, tSpec, uSpec, Catalog.Spec.key, NamePath.formatPath, lookup, remove]

end Verif.Concurrent
