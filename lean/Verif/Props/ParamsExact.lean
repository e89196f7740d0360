import Verif.Props.Params

/-! # C17: exactly what a statement with named parameters receives -/

namespace Verif.Params
open Verif.Go

/-- The values are all passed by name. -/
def AllNamed {V} (values : List (Arg V)) : Prop := ∀ a ∈ values, a.name ≠ []

theorem passed_of_mem {V} {values : List (Arg V)} (hd : DistinctNames values) {a : Arg V} (ha : a ∈ values) :
    passed values (lower a.name) = some a.value := by
  obtain ⟨b, hb, hn, hp⟩ := passed_mem values hd (n := lower a.name) (by
    simp only [passed, Option.isSome_map, List.find?_isSome]
    exact ⟨a, ha, by simp⟩)
  have e1 := filter_unique values hd a ha
  have e2 := filter_unique values hd b hb
  rw [hn, e1] at e2
  rw [hp]
  simp at e2
  rw [e2]

theorem lower_ne {n : Name} (h : n ≠ []) : lower n ≠ [] := by
  simpa [lower] using h

theorem pick_named {V} {values : List (Arg V)} (hd : DistinctNames values) {k : Nat} (hk : k < values.length) {n : Name}
    (hn : n ≠ []) : ∃ a, pick values k n = some a ∧ a ∈ values ∧ ((passed values n).isSome → lower a.name = n) := by
  rw [pick, if_pos hn]
  cases h : lastNamed values n with
  | some a =>
    have := List.mem_of_getLast? h
    simp only [List.mem_filter, decide_eq_true_eq] at this
    exact ⟨a, rfl, this.1, fun _ => this.2⟩
  | none =>
    refine ⟨values[k], List.getElem?_eq_getElem hk, List.getElem_mem hk, fun hp => ?_⟩
    obtain ⟨b, hb, hbn, _⟩ := passed_mem values hd hp
    rw [lastNamed, List.getLast?_eq_none_iff, List.filter_eq_nil_iff] at h
    exact absurd (by simpa using hbn) (h b hb)

theorem pickAll_named {V} {values : List (Arg V)} (hd : DistinctNames values) (ha : AllNamed values) (ns : List Name) (k : Nat)
    (hl : k + ns.length ≤ values.length) (hn : ∀ n ∈ ns, n ≠ []) :
    ∃ args, pickAll values k ns = some args ∧ args.length = ns.length ∧
      (∀ a ∈ args, a.name ≠ [] ∧ passed values a.name = some a.value) ∧
      (∀ n ∈ ns, (passed values n).isSome → n ∈ args.map Arg.name) := by
  induction ns generalizing k with
  | nil => exact ⟨[], rfl, rfl, by simp, by simp⟩
  | cons n ns ih =>
    rw [List.length_cons] at hl
    obtain ⟨args, h1, h2, h3, h4⟩ := ih (k + 1) (by omega) fun m hm => hn m (by simp [hm])
    obtain ⟨a, p1, p2, p3⟩ := pick_named hd (k := k) (by omega) (hn n (by simp))
    refine ⟨⟨lower a.name, a.value⟩ :: args, by simp [pickAll, p1, h1], by simp [h2], ?_, ?_⟩
    · intro b hb
      rcases List.mem_cons.1 hb with rfl | hb
      · exact ⟨lower_ne (ha a p2), passed_of_mem hd p2⟩
      · exact h3 b hb
    · intro m hm hp
      rcases List.mem_cons.1 hm with rfl | hm
      · simp [p3 hp]
      · simpa using .inr (by simpa using h4 m hm hp)

theorem bindAll_fun {V} (tbl : List Name) (g : Name → Option V) (args : List (Arg V)) (hg : ∀ a ∈ args, a.name ≠ [] ∧ g a.name = some a.value)
    (slots : Nat → Option V) (i : Nat) (n : Name) (hn : n ∈ tbl) :
    bindAll tbl slots i args (tbl.idxOf n) = if n ∈ args.map Arg.name then g n else slots (tbl.idxOf n) := by
  induction args generalizing slots i with
  | nil => simp [bindAll]
  | cons a as ih =>
    obtain ⟨h1, h2⟩ := hg a (by simp)
    rw [bindAll, ih (fun b hb => hg b (by simp [hb]))]
    by_cases hm : n ∈ as.map Arg.name
    · rw [if_pos hm, if_pos (by simp only [List.map_cons, List.mem_cons]; exact .inr hm)]
    · rw [if_neg hm, bindOne, if_pos h1]
      by_cases hna : n = a.name
      · subst hna
        have hr : a.name ∈ (a :: as).map Arg.name := by simp
        simp only [if_pos hr, if_pos hn, if_true]
        exact h2.symm
      · have hr : n ∉ (a :: as).map Arg.name := by
          rw [List.map_cons, List.mem_cons, not_or]
          exact ⟨hna, hm⟩
        by_cases hat : a.name ∈ tbl
        · simp only [if_neg hr, if_pos hat]
          exact if_neg fun h => hna (idxOf_inj hn hat h)
        · simp only [if_neg hr, if_neg hat]

/-- C17, exact: with all values passed by name, under different names, the call fails exactly if there are fewer values than
different parameters; otherwise every parameter receives the value passed under its name, NULL if there is none. -/
theorem C17_exact {V} (values : List (Arg V)) (e : Expr) (hn : NamedOnly e) (hd : DistinctNames values) (ha : AllNamed values)
    (names : List Name) (hnd : names.Nodup) (hs : ∀ n, n ∈ names ↔ n ∈ e.walk) :
    runStmt values e = if values.length < names.length then .err else .ok ((e.format 0).map fun o => passed values o.2) := by
  obtain ⟨d1, d2⟩ := getParams_named e.walk hn []
  have d2' : ∀ n, n ∈ getParams [] e.walk ↔ n ∈ e.walk := fun n => by rw [d2]; simp
  have hlen : (getParams [] e.walk).length = names.length :=
    ((List.perm_ext_iff_of_nodup d1 hnd).2 fun n => by rw [d2', hs]).length_eq
  by_cases hl : values.length < names.length
  · rw [if_pos hl]
    exact C17_too_few values e hn names hnd (fun n h => (hs n).1 h) hl
  rw [if_neg hl]
  obtain ⟨args, h1, h2, h3, h4⟩ := pickAll_named hd ha (getParams [] e.walk) 0 (by omega) fun n h => hn n ((d2' n).1 h)
  have hargs : getArgs values (getParams [] e.walk) = .ok args := by rw [getArgs, if_neg (by omega), h1]
  have hocc : ∀ n ∈ (e.format 0).map Prod.snd, n ≠ [] := fun n h => hn n ((format_names e 0 n).1 h)
  obtain ⟨t1, t2, _⟩ := table_named _ hocc [] List.nodup_nil
  have t2' : ∀ n, n ∈ table [] ((e.format 0).map Prod.snd) ↔ n ∈ e.walk := fun n => by rw [t2, format_names]; simp
  have hlen2 : (table [] ((e.format 0).map Prod.snd)).length ≤ (getParams [] e.walk).length :=
    length_le_of_nodup_subset t1 (fun n h => (d2' n).2 ((t2' n).1 h))
  simp only [runStmt, hargs, Res.bind_ok, sqlite]
  rw [if_neg (by omega), numbers_named _ hocc [] List.nodup_nil]
  simp only [List.map_map, Res.ok.injEq]
  apply List.map_congr_left
  intro o ho
  have hmem : o.2 ∈ e.walk := (format_names e 0 o.2).1 (List.mem_map_of_mem ho)
  simp only [Function.comp_apply]
  rw [bindAll_fun _ (passed values) args h3 _ 0 o.2 ((t2' _).2 hmem)]
  by_cases hm : o.2 ∈ args.map Arg.name
  · rw [if_pos hm]
  · rw [if_neg hm]
    cases hp : passed values o.2 with
    | none => rfl
    | some v => exact absurd (h4 o.2 ((d2' _).2 hmem) (by simp [hp])) hm

/-- C17, exact: the code does what it should exactly if every parameter has a value, or there are fewer values than different
parameters. -/
theorem C17_iff {V} (values : List (Arg V)) (e : Expr) (hn : NamedOnly e) (hd : DistinctNames values) (ha : AllNamed values)
    (names : List Name) (hnd : names.Nodup) (hs : ∀ n, n ∈ names ↔ n ∈ e.walk) :
    (((∀ n ∈ e.walk, (passed values n).isSome) → runStmt values e = .ok ((e.format 0).map fun o => passed values o.2)) ∧
      ((∃ n ∈ e.walk, passed values n = none) → runStmt values e = .err)) ↔
    ((∀ n ∈ e.walk, (passed values n).isSome) ∨ values.length < names.length) := by
  rw [C17_exact values e hn hd ha names hnd hs]
  constructor
  · rintro ⟨_, h⟩
    by_cases hc : ∀ n ∈ e.walk, (passed values n).isSome
    · exact .inl hc
    · refine .inr (Classical.byContradiction fun hl => ?_)
      rw [if_neg hl] at h
      have : ∃ n ∈ e.walk, passed values n = none := by
        refine Classical.byContradiction fun h2 => hc fun n hm => ?_
        cases hp : passed values n with
        | none => exact absurd ⟨n, hm, hp⟩ h2
        | some v => rfl
      cases h this
  · rintro (h | h)
    · refine ⟨fun _ => if_neg ?_, fun ⟨n, hm, h0⟩ => ?_⟩
      · have := length_le_of_nodup_subset (m := values.map fun a => lower a.name) hnd (fun n hmem => by
          obtain ⟨a, h1, h2, _⟩ := passed_mem values hd (h n ((hs n).1 hmem))
          exact List.mem_map.2 ⟨a, h1, h2⟩)
        simp at this
        omega
      · have := h n hm
        rw [h0] at this
        cases this
    · refine ⟨fun hc => ?_, fun _ => if_pos h⟩
      have := length_le_of_nodup_subset (m := values.map fun a => lower a.name) hnd (fun n hmem => by
        obtain ⟨a, h1, h2, _⟩ := passed_mem values hd (hc n ((hs n).1 hmem))
        exact List.mem_map.2 ⟨a, h1, h2⟩)
      simp at this
      omega

/-- `SELECT @a, @b` with values for `a` and `c`. -/
example : runStmt [(⟨['a'], 1⟩ : Arg Nat), ⟨['c'], 2⟩] (.app (.param ['a']) (.param ['b'])) = .ok [some 1, none] := by
  rw [C17_exact _ _ (by simp [NamedOnly, Expr.walk]) (by simp [DistinctNames, lower]) (by simp [AllNamed]) [['a'], ['b']] (by simp) (by simp [Expr.walk])]
  decide

end Verif.Params
