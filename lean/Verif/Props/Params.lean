import Verif.Lemmas.Params

/-!
# Query parameters (C17, C18)

`runStmt values e` is, for each parameter of the SQLite text, the value it receives (`none`: NULL because nothing was
bound).  `e.format 0` lists the same parameters with the place and name in the user's text they come from.
-/

namespace Verif.Params
open Verif.Go

/-- The value the user passed under the name `n`. -/
def passed {V} (values : List (Arg V)) (n : Name) : Option V :=
  (values.find? fun a => decide (lower a.name = n)).map Arg.value

/-- The query uses named parameters only (the analyzer reports their names in lower case). -/
def NamedOnly (e : Expr) : Prop := ∀ n ∈ e.walk, n ≠ []

/-- The names of the passed values differ, ignoring case. -/
def DistinctNames {V} (values : List (Arg V)) : Prop := (values.map fun a => lower a.name).Nodup

/-- C17 at full strength: each parameter receives the value passed under its name; if a parameter has no value the call fails. -/
def C17_full : Prop := ∀ (values : List (Arg Nat)) (e : Expr), NamedOnly e → DistinctNames values →
  ((∀ n ∈ e.walk, (passed values n).isSome) → runStmt values e = .ok ((e.format 0).map fun o => passed values o.2)) ∧
  ((∃ n ∈ e.walk, passed values n = none) → runStmt values e = .err)

/-- The code violates C17: `SELECT @a, @b` with values for `a` and `c` runs, with `@b` NULL. -/
theorem C17_full_false : ¬ C17_full := by
  intro h
  have := (h [⟨['a'], 1⟩, ⟨['c'], 2⟩] (.app (.param ['a']) (.param ['b'])) (by simp [NamedOnly, Expr.walk]) (by simp [DistinctNames, lower])).2 (by decide)
  revert this; decide

theorem passed_mem {V} (values : List (Arg V)) (hd : DistinctNames values) {n : Name} (h : (passed values n).isSome) :
    ∃ a ∈ values, lower a.name = n ∧ passed values n = some a.value := by
  simp only [passed, Option.isSome_map, List.find?_isSome] at h
  cases hf : values.find? fun a => decide (lower a.name = n) with
  | none => rw [List.find?_eq_none] at hf; obtain ⟨x, hx, hx2⟩ := h; exact absurd hx2 (hf x hx)
  | some a =>
    have h1 := List.find?_some hf
    exact ⟨a, List.mem_of_find?_eq_some hf, by simpa using h1, by simp [passed, hf]⟩

/-- C17, the part that holds: if every parameter has a value under its name, every occurrence — in whatever construct, however often —
receives that value. -/
theorem C17_named_by_name_partial {V} (values : List (Arg V)) (e : Expr) (hn : NamedOnly e) (hd : DistinctNames values)
    (hc : ∀ n ∈ e.walk, (passed values n).isSome) :
    runStmt values e = .ok ((e.format 0).map fun o => passed values o.2) := by
  by_cases hw : e.walk = []
  · simp [runStmt, hw, getParams, getArgs, pickAll, format_of_empty e 0 hw, sqlite, table, numbers]
  obtain ⟨n0, hn0⟩ := List.exists_mem_of_ne_nil _ hw
  have hinh : Nonempty V := by
    obtain ⟨a, _⟩ := passed_mem values hd (hc n0 hn0)
    exact ⟨a.value⟩
  have f : Name → V := fun n => (passed values n).getD (Classical.choice hinh)
  let g : Name → V := fun n => (passed values n).getD (Classical.choice hinh)
  obtain ⟨d1, d2⟩ := getParams_named e.walk hn []
  have d2' : ∀ n, n ∈ getParams [] e.walk ↔ n ∈ e.walk := fun n => by rw [d2]; simp
  have hlast : ∀ n ∈ getParams [] e.walk, ∃ a, lastNamed values n = some a ∧ lower a.name = n ∧ a.value = g n := by
    intro n hmem
    obtain ⟨a, h1, h2, h3⟩ := passed_mem values hd (hc n ((d2' n).1 hmem))
    refine ⟨a, ?_, h2, by simp [g, h3]⟩
    have := filter_unique values hd a h1
    rw [h2] at this
    simp [lastNamed, this]
  have hargs : getArgs values (getParams [] e.walk) = .ok ((getParams [] e.walk).map fun n => ⟨n, g n⟩) := by
    have hlen : (getParams [] e.walk).length ≤ values.length := by
      have := length_le_of_nodup_subset (m := values.map fun a => lower a.name) d1 (fun n hmem => by
        obtain ⟨a, h1, h2, _⟩ := passed_mem values hd (hc n ((d2' n).1 hmem))
        exact List.mem_map.2 ⟨a, h1, h2⟩)
      simpa using this
    rw [getArgs, if_neg (by omega), pickAll_of values g _ 0 hlast (fun n h => hn n ((d2' n).1 h))]
  have hocc : ∀ n ∈ (e.format 0).map Prod.snd, n ≠ [] := fun n h => hn n ((format_names e 0 n).1 h)
  obtain ⟨t1, t2, _⟩ := table_named _ hocc [] List.nodup_nil
  have t2' : ∀ n, n ∈ table [] ((e.format 0).map Prod.snd) ↔ n ∈ e.walk := fun n => by rw [t2, format_names]; simp
  have hlen2 : (table [] ((e.format 0).map Prod.snd)).length ≤ (getParams [] e.walk).length :=
    length_le_of_nodup_subset t1 (fun n h => (d2' n).2 ((t2' n).1 h))
  simp only [runStmt, hargs, Res.bind_ok, sqlite, List.length_map]
  rw [if_neg (by omega), numbers_named _ hocc [] List.nodup_nil]
  simp only [List.map_map, Res.ok.injEq]
  apply List.map_congr_left
  intro o ho
  have hmem : o.2 ∈ e.walk := (format_names e 0 o.2).1 (List.mem_map_of_mem ho)
  have hb := (bindAll_named (table [] ((e.format 0).map Prod.snd)) ((getParams [] e.walk).map fun n => (⟨n, g n⟩ : Arg V))
    (fun a ha => by
      obtain ⟨n, h1, rfl⟩ := List.mem_map.1 ha
      exact hn n ((d2' n).1 h1))
    (fun a ha => by
      obtain ⟨n, h1, rfl⟩ := List.mem_map.1 ha
      exact (t2' n).2 ((d2' n).1 h1))
    (by simpa [List.map_map, Function.comp_def] using d1) (fun _ => none) 0).1 ⟨o.2, g o.2⟩
    (List.mem_map.2 ⟨o.2, (d2' _).2 hmem, rfl⟩)
  simp only [Function.comp_apply] at hb ⊢
  rw [hb]
  have := hc _ hmem
  cases hp : passed values o.2 with
  | none => simp [hp] at this
  | some v => simp [g, hp]

/-- `SELECT IFNULL(@x, @y), @x` with values for `Y` and `x`. -/
example : NamedOnly (.app (.ifnull (.param ['x']) (.param ['y'])) (.param ['x'])) ∧
    DistinctNames [(⟨['Y'], 1⟩ : Arg Nat), ⟨['x'], 2⟩] ∧
    (∀ n ∈ (Expr.app (.ifnull (.param ['x']) (.param ['y'])) (.param ['x'])).walk, (passed [(⟨['Y'], 1⟩ : Arg Nat), ⟨['x'], 2⟩] n).isSome) ∧
    runStmt [(⟨['Y'], 1⟩ : Arg Nat), ⟨['x'], 2⟩] (.app (.ifnull (.param ['x']) (.param ['y'])) (.param ['x']))
      = .ok [some 2, some 1, some 2, some 2] := by
  refine ⟨by simp [NamedOnly, Expr.walk], ?_, by decide, by decide⟩
  simp [DistinctNames, lower]

theorem passed_perm {V} {v w : List (Arg V)} (h : v.Perm w) (hd : DistinctNames v) (n : Name) : passed v n = passed w n := by
  have hdw : DistinctNames w := (h.map _).nodup_iff.1 hd
  have key : ∀ {a b : List (Arg V)}, a.Perm b → DistinctNames a → DistinctNames b → ∀ x, passed a n = some x → passed b n = some x := by
    intro a b hab ha hb x hx
    obtain ⟨p, h1, h2, h3⟩ := passed_mem a ha (n := n) (by simp [hx])
    obtain ⟨q, h4, h5, h6⟩ := passed_mem b hb (n := n) (by
      simp only [passed, Option.isSome_map, List.find?_isSome]
      exact ⟨p, hab.mem_iff.1 h1, by simp [h2]⟩)
    have : p = q := by
      have e1 := filter_unique b hb p (hab.mem_iff.1 h1)
      have e2 := filter_unique b hb q h4
      rw [h2] at e1; rw [h5] at e2
      rw [e1] at e2; simpa using e2
    rw [h6, ← this, ← h3, hx]
  cases hv : passed v n with
  | some x => exact (key h hd hdw x hv).symm
  | none =>
    cases hw : passed w n with
    | none => rfl
    | some x => rw [key h.symm hdw hd x hw] at hv; cases hv

/-- C17: the order in which named values are passed does not matter. -/
theorem C17_order_irrelevant {V} (v w : List (Arg V)) (h : v.Perm w) (e : Expr) (hn : NamedOnly e) (hd : DistinctNames v)
    (hc : ∀ n ∈ e.walk, (passed v n).isSome) : runStmt v e = runStmt w e := by
  have hdw : DistinctNames w := (h.map _).nodup_iff.1 hd
  rw [C17_named_by_name_partial v e hn hd hc, C17_named_by_name_partial w e hn hdw (fun n hm => passed_perm h hd n ▸ hc n hm)]
  simp only [passed_perm h hd]

/-- C17: fewer values than different parameters is an error. -/
theorem C17_too_few {V} (values : List (Arg V)) (e : Expr) (hn : NamedOnly e) (names : List Name) (hnd : names.Nodup)
    (hs : ∀ n ∈ names, n ∈ e.walk) (hlt : values.length < names.length) : runStmt values e = .err := by
  obtain ⟨_, d2⟩ := getParams_named e.walk hn []
  have : names.length ≤ (getParams [] e.walk).length := length_le_of_nodup_subset hnd (fun n h => by rw [d2]; simp [hs n h])
  simp only [runStmt, getArgs]
  rw [if_pos (by omega)]; rfl

example : NamedOnly (.app (.param ['a']) (.param ['b'])) ∧ [['a'], ['b']].Nodup := by
  simp [NamedOnly, Expr.walk]

/-! ## C18 -/

/-- The query uses `?` only. -/
def PositionalOnly (e : Expr) : Prop := ∀ n ∈ e.walk, n = []

/-- What the statements of a script should receive: the `?`s are numbered through the whole script. -/
def expected {V} (values : List (Arg V)) : Nat → List Stmt → List (List (Option V))
  | _, [] => []
  | k, s :: ss => ((s.expr.format k).map fun o => values[o.1]?.map Arg.value) :: expected values (k + s.expr.walk.length) ss

/-- The number of `?` in a script. -/
def count (ss : List Stmt) : Nat := (ss.map fun s => s.expr.walk.length).sum

/-- C18 at full strength. -/
def C18_full : Prop := ∀ (values : List (Arg Nat)) (ss : List Stmt), (∀ a ∈ values, a.name = []) → (∀ s ∈ ss, PositionalOnly s.expr) →
  count ss ≤ values.length → runScript values ss = .ok (expected values 0 ss)

/-- The code violates C18: in `SELECT ?; SELECT ?` both receive the first value. -/
theorem C18_full_false : ¬ C18_full := by
  intro h
  have := h [⟨[], 1⟩, ⟨[], 2⟩] [⟨.param [], false⟩, ⟨.param [], false⟩] (by decide) (by simp [PositionalOnly, Expr.walk]) (by decide)
  revert this; decide

theorem C18_both_get_first : runScript [(⟨[], 1⟩ : Arg Nat), ⟨[], 2⟩] [⟨.param [], false⟩, ⟨.param [], false⟩] = .ok [[some 1], [some 1]] := by
  decide

/-- The code also violates C18 in one statement: `SELECT IFNULL(?, ?)` is an error, although two values are passed
(in general `C18_repeat`). -/
theorem C18_ifnull : runStmt [(⟨[], 1⟩ : Arg Nat), ⟨[], 2⟩] (.ifnull (.param []) (.param [])) = .err := by decide

theorem runStmt_pos {V} (values : List (Arg V)) (e : Expr) (hu : ∀ a ∈ values, a.name = []) (hp : PositionalOnly e) (hr : NoRepeat e)
    (hl : e.walk.length ≤ values.length) : runStmt values e = .ok ((e.format 0).map fun o => values[o.1]?.map Arg.value) := by
  obtain ⟨f1, f2⟩ := format_noRepeat e 0 hr
  have hw := walk_pos e hp
  have hg : getParams [] e.walk = List.replicate e.walk.length [] := by rw [hw]; simpa using getParams_pos _ _
  have ha : getArgs values (getParams [] e.walk) = .ok (values.take e.walk.length) := by
    rw [hg, getArgs, pickAll_pos values hu _ 0 (by omega)]
    simp; omega
  simp only [runStmt, ha, Res.bind_ok, f2, sqlite]
  have ht : table [] e.walk = List.replicate e.walk.length [] := by rw [hw, table_pos]; simp
  have hn : numbers [] e.walk = List.range' 0 e.walk.length := by rw [hw, numbers_pos]; simp
  rw [ht, hn, if_neg (by simp; omega), ← f1]
  simp only [List.map_map, Res.ok.injEq]
  apply List.map_congr_left
  intro o ho
  have hlt : o.1 < e.walk.length := by
    have : o.1 ∈ (e.format 0).map Prod.fst := List.mem_map_of_mem ho
    rw [f1] at this
    simp [List.mem_range'] at this
    omega
  simp only [Function.comp_apply]
  rw [bindAll_pos _ _ (fun a h => hu a (List.mem_of_mem_take h))]
  rw [if_pos (by simp; omega)]
  simp [List.getElem?_take, hlt]

/-- C18, the part that holds: the `?`s of a script receive the values in order if every statement before the last one
that contains a `?` is a CREATE TABLE, and no `?` stands in the first argument of IFNULL.  In particular it holds for
a single statement. -/
theorem C18_positional_partial {V} (values : List (Arg V)) (ss : List Stmt) (hu : ∀ a ∈ values, a.name = [])
    (hp : ∀ s ∈ ss, PositionalOnly s.expr ∧ NoRepeat s.expr) (hl : count ss ≤ values.length)
    (hct : ∀ pre s post, ss = pre ++ s :: post → s.isCreateTable = true ∨ s.expr.walk = [] ∨ count post = 0) :
    runScript values ss = .ok (expected values 0 ss) := by
  suffices h : ∀ k : Nat, k + count ss ≤ values.length → runScript (values.drop k) ss = .ok (expected values k ss) by
    simpa using h 0 (by omega)
  have hzero : ∀ (post : List Stmt), (∀ s ∈ post, PositionalOnly s.expr ∧ NoRepeat s.expr) → count post = 0 → ∀ (w : List (Arg V)) k,
      runScript w post = .ok (expected values k post) := by
    intro post
    induction post with
    | nil => intros; rfl
    | cons s ss ih =>
      intro hp hc w k
      have hc' : s.expr.walk.length + count ss = 0 := by simpa [count] using hc
      have hw : s.expr.walk = [] := List.length_eq_zero_iff.1 (by omega)
      have hr : runStmt w s.expr = .ok [] := by
        simp [runStmt, hw, getParams, getArgs, pickAll, format_of_empty _ 0 hw, sqlite, table, numbers]
      have hi := ih (fun s hs => hp s (by simp [hs])) (by omega) w k
      simp only [runScript, positional, hw, List.any_nil, Bool.and_false, Bool.false_eq_true, if_false, Res.bind_ok, hr, hi,
        expected, format_of_empty _ _ hw, List.length_nil, Nat.add_zero, List.map_nil]
      rfl
  clear hl
  induction ss with
  | nil => intros; rfl
  | cons s ss ih =>
    intro k hk
    have hks : k + (s.expr.walk.length + count ss) ≤ values.length := by simpa [count] using hk
    obtain ⟨hpos, hnr⟩ := hp s (by simp)
    have hr : runStmt (values.drop k) s.expr = .ok ((s.expr.format k).map fun o => values[o.1]?.map Arg.value) := by
      rw [runStmt_pos (values.drop k) s.expr (fun a h => hu a (List.mem_of_mem_drop h)) hpos hnr (by simp; omega)]
      obtain ⟨a1, _⟩ := format_noRepeat s.expr 0 hnr
      obtain ⟨b1, _⟩ := format_noRepeat s.expr k hnr
      have e1 : (s.expr.format 0).map (fun o => (values.drop k)[o.1]?.map Arg.value)
          = (List.range' 0 s.expr.walk.length).map fun i => (values.drop k)[i]?.map Arg.value := by rw [← a1]; simp
      have e2 : (s.expr.format k).map (fun o => values[o.1]?.map Arg.value)
          = (List.range' k s.expr.walk.length).map fun i => values[i]?.map Arg.value := by rw [← b1]; simp
      rw [e1, e2]
      simp [List.range'_eq_map_range, Function.comp_def]
    have hsp : positional s.expr = .ok (s.expr.walk.any (· = [])) := by
      have : s.expr.walk.any (· ≠ []) = false := by
        simp only [List.any_eq_false, decide_eq_true_eq]
        intro n hn h; exact h (hpos n hn)
      simp only [positional, this, Bool.and_false, Bool.false_eq_true, if_false]
    have hpss : ∀ s ∈ ss, PositionalOnly s.expr ∧ NoRepeat s.expr := fun x hx => hp x (by simp [hx])
    have htail : runScript (if (s.expr.walk.any (· = [])) then (values.drop k).drop
          (if s.isCreateTable then (getParams [] s.expr.walk).length else 0) else values.drop k) ss
        = .ok (expected values (k + s.expr.walk.length) ss) := by
      rcases hct [] s ss rfl with h | h | h
      · have hg : getParams [] s.expr.walk = List.replicate s.expr.walk.length [] := by
          rw [walk_pos s.expr hpos]; simpa using getParams_pos _ _
        have := ih hpss (fun pre s' post e => hct (s :: pre) s' post (by rw [e]; rfl)) (k + s.expr.walk.length) (by omega)
        cases hw : s.expr.walk with
        | nil => simpa [hw] using this
        | cons n ns =>
          have hn : n = [] := hpos n (by simp [hw])
          rw [hw, hn] at this hg
          simp only [h, if_true, hn, hg, List.any_cons, decide_true, Bool.true_or, List.length_replicate, List.drop_drop]
          exact this
      · have := ih hpss (fun pre s' post e => hct (s :: pre) s' post (by rw [e]; rfl)) k (by simp [h] at hks; omega)
        simpa [h] using this
      · exact hzero ss hpss h _ _
    simp only [runScript, hsp, Res.bind_ok, hr, htail, expected]
    rfl

/-- `CREATE TABLE a AS SELECT ?, ?; SELECT 1; SELECT IFNULL(1, ?)` with three values. -/
example : let ss : List Stmt := [⟨.app (.param []) (.param []), true⟩, ⟨.lit, false⟩, ⟨.ifnull .lit (.param []), false⟩]
    (∀ s ∈ ss, PositionalOnly s.expr ∧ NoRepeat s.expr) ∧ count ss = 3 ∧
    runScript [(⟨[], 1⟩ : Arg Nat), ⟨[], 2⟩, ⟨[], 3⟩] ss = .ok [[some 1, some 2], [], [some 3]] := by
  refine ⟨?_, by decide, by decide⟩
  simp [PositionalOnly, NoRepeat, Expr.walk]

/-! ## C18 exactly -/

theorem format_length (e : Expr) (k : Nat) : e.walk.length ≤ (e.format k).length ∧ ((e.format k).length = e.walk.length → NoRepeat e) := by
  induction e generalizing k with
  | lit => exact ⟨by simp [Expr.walk], fun _ => trivial⟩
  | param n => exact ⟨by simp [Expr.walk, Expr.format], fun _ => trivial⟩
  | app a b iha ihb =>
    have ha := iha k
    have hb := ihb (k + a.walk.length)
    simp only [Expr.format, Expr.walk, List.length_append]
    exact ⟨by omega, fun h => ⟨ha.2 (by omega), hb.2 (by omega)⟩⟩
  | ifnull a b iha ihb =>
    have ha := iha k
    have hb := ihb (k + a.walk.length)
    simp only [Expr.format, Expr.walk, List.length_append]
    exact ⟨by omega, fun h => ⟨List.length_eq_zero_iff.1 (by omega), ha.2 (by omega), hb.2 (by omega)⟩⟩

theorem noRepeat_of_empty (e : Expr) (h : e.walk = []) : NoRepeat e :=
  (format_length e 0).2 (by rw [format_of_empty e 0 h, h]; rfl)

/-- Every parameter of the SQLite text stands for the parameter of the query at the place it is said to come from. -/
theorem C18_source (e : Expr) (k : Nat) : ∀ o ∈ e.format k, k ≤ o.1 ∧ e.walk[o.1 - k]? = some o.2 := by
  induction e generalizing k with
  | lit => simp [Expr.format]
  | param n => simp [Expr.format, Expr.walk]
  | app a b iha ihb =>
    intro o ho
    rw [Expr.format, List.mem_append] at ho
    rw [Expr.walk]
    rcases ho with ho | ho
    · obtain ⟨h1, h2⟩ := iha k o ho
      exact ⟨h1, by rw [List.getElem?_append_left (List.getElem?_eq_some_iff.1 h2).1, h2]⟩
    · obtain ⟨h1, h2⟩ := ihb _ o ho
      refine ⟨by omega, ?_⟩
      rw [List.getElem?_append_right (by omega), ← h2]; congr 1; omega
  | ifnull a b iha ihb =>
    intro o ho
    rw [Expr.format, List.mem_append, List.mem_append] at ho
    rw [Expr.walk]
    rcases ho with (ho | ho) | ho
    · obtain ⟨h1, h2⟩ := iha k o ho
      exact ⟨h1, by rw [List.getElem?_append_left (List.getElem?_eq_some_iff.1 h2).1, h2]⟩
    · obtain ⟨h1, h2⟩ := ihb _ o ho
      refine ⟨by omega, ?_⟩
      rw [List.getElem?_append_right (by omega), ← h2]; congr 1; omega
    · obtain ⟨h1, h2⟩ := iha k o ho
      exact ⟨h1, by rw [List.getElem?_append_left (List.getElem?_eq_some_iff.1 h2).1, h2]⟩

/-- **C18** A statement with a `?` in the first argument of IFNULL fails, however many values there are. -/
theorem C18_repeat {V} (values : List (Arg V)) (e : Expr) (hu : ∀ a ∈ values, a.name = []) (hp : PositionalOnly e) (hr : ¬ NoRepeat e) :
    runStmt values e = .err := by
  have hw := walk_pos e hp
  have hg : getParams [] e.walk = List.replicate e.walk.length [] := by rw [hw]; simpa using getParams_pos _ _
  by_cases hl : values.length < e.walk.length
  · rw [runStmt, hg, getArgs, if_pos (by simpa using hl)]; rfl
  have ha : getArgs values (getParams [] e.walk) = .ok (values.take e.walk.length) := by
    rw [hg, getArgs, pickAll_pos values hu _ 0 (by omega)]
    simp; omega
  have hf : (e.format 0).map Prod.snd = List.replicate (e.format 0).length [] :=
    List.eq_replicate_iff.2 ⟨by simp, fun n h => hp n ((format_names e 0 n).1 h)⟩
  have hlt : e.walk.length < (e.format 0).length := by
    have h := format_length e 0
    false_or_by_contra
    exact hr (h.2 (by omega))
  simp only [runStmt, ha, Res.bind_ok, hf, sqlite, table_pos]
  rw [if_pos (by simp; omega)]

/-- What a statement of a script gets, and what the following ones do. -/
theorem runScript_cons {V} (values : List (Arg V)) (s : Stmt) (ss : List Stmt) (hp : PositionalOnly s.expr) (r : List (List (Option V))) :
    runScript values (s :: ss) = .ok r ↔ ∃ x xs, r = x :: xs ∧ runStmt values s.expr = .ok x ∧
      runScript (values.drop (if s.isCreateTable then s.expr.walk.length else 0)) ss = .ok xs := by
  have hg : getParams [] s.expr.walk = List.replicate s.expr.walk.length [] := by
    rw [walk_pos s.expr hp]; simpa using getParams_pos _ _
  have hsp : positional s.expr = .ok (s.expr.walk.any (· = [])) := by
    have : s.expr.walk.any (· ≠ []) = false := by
      simp only [List.any_eq_false, decide_eq_true_eq]
      intro n hn h; exact h (hp n hn)
    simp only [positional, this, Bool.and_false, Bool.false_eq_true, if_false]
  have hd : (if s.expr.walk.any (· = []) then values.drop (if s.isCreateTable then (getParams [] s.expr.walk).length else 0) else values)
      = values.drop (if s.isCreateTable then s.expr.walk.length else 0) := by
    cases hw : s.expr.walk with
    | nil => simp
    | cons n ns =>
      have hn : n = [] := hp n (by simp [hw])
      rw [hw] at hg
      rw [hg, if_pos (by simp [hn])]; simp
  simp only [runScript, hsp, Res.bind_ok, hd]
  cases runStmt values s.expr with
  | err => exact ⟨fun h => (by cases h), fun ⟨_, _, _, h, _⟩ => (by cases h)⟩
  | panic => exact ⟨fun h => (by cases h), fun ⟨_, _, _, h, _⟩ => (by cases h)⟩
  | ok x =>
    simp only [Res.bind_ok]
    cases runScript (values.drop (if s.isCreateTable then s.expr.walk.length else 0)) ss with
    | err => exact ⟨fun h => (by cases h), fun ⟨_, _, _, _, h⟩ => (by cases h)⟩
    | panic => exact ⟨fun h => (by cases h), fun ⟨_, _, _, _, h⟩ => (by cases h)⟩
    | ok xs =>
      simp only [Res.bind_ok]
      constructor
      · intro h; cases h; exact ⟨x, xs, rfl, rfl, rfl⟩
      · rintro ⟨_, _, rfl, h1, h2⟩
        cases h1; cases h2; rfl

theorem stmt_values {V} (values : List (Arg V)) (e : Expr) (j : Nat) (hu : ∀ a ∈ values, a.name = []) (hp : PositionalOnly e) (hr : NoRepeat e)
    (hl : j + e.walk.length ≤ values.length) :
    runStmt (values.drop j) e = .ok ((List.range' j e.walk.length).map fun i => values[i]?.map Arg.value) := by
  rw [runStmt_pos (values.drop j) e (fun a h => hu a (List.mem_of_mem_drop h)) hp hr (by simp; omega)]
  obtain ⟨a1, _⟩ := format_noRepeat e 0 hr
  have e1 : (e.format 0).map (fun o => (values.drop j)[o.1]?.map Arg.value)
      = (List.range' 0 e.walk.length).map fun i => (values.drop j)[i]?.map Arg.value := by rw [← a1]; simp
  rw [e1]
  simp [List.range'_eq_map_range, Function.comp_def]

theorem expected_values {V} (values : List (Arg V)) (e : Expr) (k : Nat) (hr : NoRepeat e) :
    (e.format k).map (fun o => values[o.1]?.map Arg.value) = (List.range' k e.walk.length).map fun i => values[i]?.map Arg.value := by
  obtain ⟨b1, _⟩ := format_noRepeat e k hr
  rw [← b1]; simp

theorem script_behind {V} (values : List (Arg V)) (hu : ∀ a ∈ values, a.name = []) (hv : (values.map Arg.value).Nodup) :
    ∀ (ss : List Stmt) (j k : Nat), (∀ s ∈ ss, PositionalOnly s.expr) → j < k → k + count ss ≤ values.length → 0 < count ss →
      runScript (values.drop j) ss ≠ .ok (expected values k ss)
  | [], _, _, _, _, _, h => by simp [count] at h
  | s :: ss, j, k, hp, hj, hl, hc => by
    have hcount : count (s :: ss) = s.expr.walk.length + count ss := by simp [count]
    intro h
    obtain ⟨x, xs, he, h1, h2⟩ := (runScript_cons _ s ss (hp s (by simp)) _).1 h
    rw [expected, List.cons.injEq] at he
    obtain ⟨he1, he2⟩ := he
    by_cases hw : s.expr.walk = []
    · have hz : (if s.isCreateTable then s.expr.walk.length else 0) = 0 := by rw [hw]; split <;> rfl
      rw [hz, List.drop_zero] at h2
      rw [hw, List.length_nil, Nat.add_zero] at he2
      exact script_behind values hu hv ss j k (fun a ha => hp a (by simp [ha])) hj (by rw [hcount, hw] at hl; simpa using hl)
        (by rw [hcount, hw] at hc; simpa using hc) (he2 ▸ h2)
    · have hpos : 0 < s.expr.walk.length := List.length_pos_iff.2 hw
      by_cases hr : NoRepeat s.expr
      · rw [stmt_values values s.expr j hu (hp s (by simp)) hr (by omega)] at h1
        rw [expected_values values s.expr k hr] at he1
        rw [← he1] at h1
        injection h1 with h1
        have h0 := congrArg (fun l => l[0]?) h1
        simp only [List.getElem?_map, List.getElem?_range', hpos, if_true, Option.map_some, Option.some.injEq] at h0
        have hj' : j < values.length := by omega
        have hk' : k < values.length := by omega
        simp only [Nat.mul_zero, Nat.add_zero, List.getElem?_eq_getElem hj', List.getElem?_eq_getElem hk', Option.map_some, Option.some.injEq] at h0
        have := (List.getElem?_inj (i := j) (j := k) (by simpa using hj') hv).1 (by simp [List.getElem?_eq_getElem hj', List.getElem?_eq_getElem hk', h0])
        omega
      · rw [C18_repeat _ s.expr (fun a ha => hu a (List.mem_of_mem_drop ha)) (hp s (by simp)) hr] at h1
        cases h1

/-- **C18** exactly: if the values differ, the `?`s of a script get them in order if and only if no `?` stands in the first argument of
IFNULL, and every statement with a `?` before the last such one is a CREATE TABLE. -/
theorem C18_iff {V} (values : List (Arg V)) (ss : List Stmt) (hu : ∀ a ∈ values, a.name = []) (hv : (values.map Arg.value).Nodup)
    (hp : ∀ s ∈ ss, PositionalOnly s.expr) (hl : count ss ≤ values.length) :
    runScript values ss = .ok (expected values 0 ss) ↔
      (∀ s ∈ ss, NoRepeat s.expr) ∧ ∀ pre s post, ss = pre ++ s :: post → s.isCreateTable = true ∨ s.expr.walk = [] ∨ count post = 0 := by
  refine ⟨?_, fun ⟨h1, h2⟩ => C18_positional_partial values ss hu (fun s hs => ⟨hp s hs, h1 s hs⟩) hl h2⟩
  suffices h : ∀ (ss : List Stmt) (k : Nat), (∀ s ∈ ss, PositionalOnly s.expr) → k + count ss ≤ values.length →
      runScript (values.drop k) ss = .ok (expected values k ss) →
      (∀ s ∈ ss, NoRepeat s.expr) ∧ ∀ pre s post, ss = pre ++ s :: post → s.isCreateTable = true ∨ s.expr.walk = [] ∨ count post = 0 from
    h ss 0 hp (by omega)
  clear hl hp ss
  intro ss
  induction ss with
  | nil => intros; exact ⟨by simp, by simp⟩
  | cons s ss ih =>
    intro k hp hl h
    have hcount : count (s :: ss) = s.expr.walk.length + count ss := by simp [count]
    obtain ⟨x, xs, he, h1, h2⟩ := (runScript_cons _ s ss (hp s (by simp)) _).1 h
    rw [expected, List.cons.injEq] at he
    obtain ⟨he1, he2⟩ := he
    have hps : ∀ a ∈ ss, PositionalOnly a.expr := fun a ha => hp a (by simp [ha])
    have hr : NoRepeat s.expr := by
      false_or_by_contra
      rename_i hr
      rw [C18_repeat _ s.expr (fun a ha => hu a (List.mem_of_mem_drop ha)) (hp s (by simp)) hr] at h1
      cases h1
    have done : (s.isCreateTable = true ∨ s.expr.walk = []) → (∀ s ∈ ss, NoRepeat s.expr) ∧
        ∀ pre s post, ss = pre ++ s :: post → s.isCreateTable = true ∨ s.expr.walk = [] ∨ count post = 0 := by
      intro hs
      have hz : (if s.isCreateTable then s.expr.walk.length else 0) = s.expr.walk.length := by
        rcases hs with hs | hs
        · rw [if_pos hs]
        · rw [hs]; split <;> rfl
      rw [hz, List.drop_drop] at h2
      exact ih (k + s.expr.walk.length) hps (by omega) (he2 ▸ h2)
    by_cases hs : s.isCreateTable = true ∨ s.expr.walk = []
    · obtain ⟨d1, d2⟩ := done hs
      refine ⟨fun a ha => ?_, fun pre a post e => ?_⟩
      · rcases List.mem_cons.1 ha with rfl | ha
        · exact hr
        · exact d1 a ha
      · cases pre with
        | nil => cases e; rcases hs with hs | hs <;> simp [hs]
        | cons p pre => cases e; exact d2 pre a post rfl
    · have hw : s.expr.walk ≠ [] := fun h => hs (Or.inr h)
      have hct : s.isCreateTable = false := by simpa using fun h => hs (Or.inl h)
      have hpos : 0 < s.expr.walk.length := List.length_pos_iff.2 hw
      rw [hct] at h2
      simp only [Bool.false_eq_true, if_false, List.drop_zero] at h2
      have h0 : count ss = 0 := by
        false_or_by_contra
        exact script_behind values hu hv ss k (k + s.expr.walk.length) hps (by omega) (by omega) (by omega) (he2 ▸ h2)
      have hall : ∀ a ∈ ss, a.expr.walk = [] := by
        intro a ha
        have := List.sum_eq_zero_iff_forall_eq_nat.1 h0 a.expr.walk.length (List.mem_map_of_mem (f := fun s => s.expr.walk.length) ha)
        exact List.length_eq_zero_iff.1 this
      refine ⟨fun a ha => ?_, fun pre a post e => ?_⟩
      · rcases List.mem_cons.1 ha with rfl | ha
        · exact hr
        · exact noRepeat_of_empty _ (hall a ha)
      · cases pre with
        | nil => cases e; exact Or.inr (Or.inr h0)
        | cons p pre => cases e; exact Or.inr (Or.inl (hall a (by simp)))

/-- `SELECT ?; SELECT ?` with two values. -/
example : runScript [(⟨[], 1⟩ : Arg Nat), ⟨[], 2⟩] [⟨.param [], false⟩, ⟨.param [], false⟩] ≠ .ok (expected [⟨[], 1⟩, ⟨[], 2⟩] 0 [⟨.param [], false⟩, ⟨.param [], false⟩]) :=
  fun h => absurd (((C18_iff _ _ (by decide) (by decide) (by simp [PositionalOnly, Expr.walk]) (by decide)).1 h).2 [] _ _ rfl) (by decide)

/-! ## Mixed and repeated parameters -/

/-- **C18** a script with a statement that uses positional and named parameters together fails. -/
theorem C18_mixed_rejected {V} (values : List (Arg V)) (s : Stmt) (ss : List Stmt) (n : Name) (hn : n ≠ []) (h1 : [] ∈ s.expr.walk) (h2 : n ∈ s.expr.walk) :
    runScript values (s :: ss) = .err := by
  have hp : s.expr.walk.any (fun x => decide (x = [])) = true := List.any_eq_true.2 ⟨_, h1, by simp⟩
  have hq : s.expr.walk.any (fun x => decide (x ≠ [])) = true := List.any_eq_true.2 ⟨n, h2, by simp [hn]⟩
  simp only [runScript, positional, hp, hq]
  rfl

/-- **C17** of several values passed under one name the last one counts. -/
theorem C17_last_wins {V} (before after : List (Arg V)) (a : Arg V) (n : Name) (hn : n ≠ []) (ha : lower a.name = n)
    (hafter : ∀ b ∈ after, lower b.name ≠ n) (hl : lower n = n) :
    runStmt (before ++ a :: after) (.param n) = .ok [some a.value] := by
  have hlast : lastNamed (before ++ a :: after) n = some a := by
    unfold lastNamed
    rw [List.filter_append, List.filter_cons, if_pos (by simpa using ha)]
    have : after.filter (fun b => decide (lower b.name = n)) = [] := by
      rw [List.filter_eq_nil_iff]; intro b hb; simpa using hafter b hb
    rw [this]; simp
  simp [runStmt, Expr.walk, Expr.format, getParams, hn, getArgs, pickAll, pick, hlast, sqlite, table, numbers, bindAll, bindOne, ha]

example : lower "p".toList = "p".toList ∧ runStmt [(⟨"P".toList, 1⟩ : Arg Nat), ⟨"p".toList, 2⟩] (.param "p".toList) = .ok [some 2] := by decide

end Verif.Params
