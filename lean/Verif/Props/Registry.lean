import Verif.Model.Registry

/-! # C31: the SAFE. prefix and the function registry -/

namespace Verif.Registry

open Go

/-! ## The wrappers -/

/-- **C31** (wrapper): the SAFE closure of a function returns what the plain one
returns when the function succeeds. -/
theorem C31_same_on_success {V W : Type} (dec : V → Res W) (enc : W → Res V) (null : V) (bind : Name → List W → Res W)
    (b : Name) (args : List V) (v : V) (h : call dec enc null bind (.plain b) args = .ok v) :
    call dec enc null bind (.safe b) args = .ok v := by
  unfold call at h ⊢
  cases hd : args.mapM dec <;> rw [hd] at h <;> simp only [Res.bind'_ok, Res.bind'_err, Res.bind'_panic] at h ⊢
  · rename_i ws
    cases hb : bind b ws <;> rw [hb] at h <;> simp_all
  · cases h
  · cases h

/-- **C31** (wrapper): it is NULL exactly when the function itself reports an error. -/
theorem C31_null_on_error {V W : Type} (dec : V → Res W) (enc : W → Res V) (null : V) (bind : Name → List W → Res W)
    (b : Name) (args : List V) (ws : List W) (hd : args.mapM dec = .ok ws) (h : bind b ws = .err) :
    call dec enc null bind (.plain b) args = .err ∧ call dec enc null bind (.safe b) args = .ok null := by
  unfold call; rw [hd]; simp [h]

/-- **C31** (wrapper): a failure it does not suppress is not a success either. -/
theorem C31_nothing_else {V W : Type} (dec : V → Res W) (enc : W → Res V) (null : V) (bind : Name → List W → Res W)
    (b : Name) (args : List V) (v : V) (h : call dec enc null bind (.safe b) args = .ok v) :
    call dec enc null bind (.plain b) args = .ok v ∨
    (v = null ∧ ∃ ws, args.mapM dec = .ok ws ∧ bind b ws = .err) := by
  unfold call at h ⊢
  cases hd : args.mapM dec <;> rw [hd] at h <;> simp only [Res.bind'_ok, Res.bind'_err, Res.bind'_panic] at h ⊢
  · rename_i ws
    cases hb : bind b ws <;> rw [hb] at h <;> simp_all
  · cases h
  · cases h

/-- The theorems apply to a function that fails on some inputs. -/
example : ∃ (bind : Name → List Int → Res Int), call (V := Int) .ok .ok 0 bind (.plain []) [0] = .err ∧
    call (V := Int) .ok .ok 0 bind (.safe []) [0] = .ok 0 ∧ call (V := Int) .ok .ok 0 bind (.safe []) [7] = .ok 7 :=
  ⟨fun _ ws => match ws with | [x] => if x = 0 then .err else .ok x | _ => .err, rfl, rfl, rfl⟩

/-! ## Which closure a call reaches -/

/-- Full C31 on the registry: whatever the iteration order of Go's map, calling
`f` reaches `f`, and `SAFE.f` reaches the SAFE wrapper of `f`. -/
def C31_full : Prop :=
  ∀ order, IsOrder normalFuncs order → ∀ e ∈ normalFuncs,
    resolve (registrations normalFuncs order) (calledName false e.1) = some (.plain e.2) ∧
    resolve (registrations normalFuncs order) (calledName true e.1) = some (.safe e.2)

theorem resolve_append (xs ys : List (Name × Impl)) (n : Name) :
    resolve (xs ++ ys) n = match resolve ys n with | some i => some i | none => resolve xs n := by
  unfold resolve
  rw [List.reverse_append, List.find?_append]
  cases ys.reverse.find? fun r => decide (r.1 = n) <;> simp

theorem resolve_none (xs : List (Name × Impl)) (n : Name) (h : ∀ r ∈ xs, r.1 ≠ n) : resolve xs n = none := by
  unfold resolve
  rw [List.find?_eq_none.mpr]
  intro r hr; simpa using h r (List.mem_reverse.mp hr)

/-- If every registration of a name is the same closure, that one is resolved. -/
theorem resolve_unique (xs : List (Name × Impl)) (n : Name) (i : Impl) (h1 : (n, i) ∈ xs) (h2 : ∀ j, (n, j) ∈ xs → j = i) :
    resolve xs n = some i := by
  unfold resolve
  cases hf : xs.reverse.find? fun r => decide (r.1 = n) with
  | none =>
    rw [List.find?_eq_none] at hf
    exact absurd (decide_eq_true rfl) (hf (n, i) (List.mem_reverse.mpr h1))
  | some r =>
    have hm := List.mem_reverse.mp (List.mem_of_find?_eq_some hf)
    have hr := List.find?_some hf
    simp at hr
    obtain ⟨m, j⟩ := r
    subst hr
    simp [h2 j hm]

theorem pfx_inj {a b : Name} (h : pfx ++ a = pfx ++ b) : a = b := List.append_cancel_left h

theorem mem_registrations (table : List (Name × Name)) (order : List Name) (ho : IsOrder table order) (r : Name × Impl) :
    r ∈ registrations table order ↔ ∃ e ∈ table, r ∈ entryImpls e.1 e.2 := by
  unfold registrations mapEntry
  simp only [List.mem_flatMap, List.mem_filter]
  constructor
  · rintro ⟨n, _, e, ⟨he, _⟩, hr⟩; exact ⟨e, he, hr⟩
  · rintro ⟨e, he, hr⟩
    exact ⟨e.1, (ho.2 e.1).mpr (List.mem_map_of_mem he), e, ⟨he, by simp⟩, hr⟩

/-- For any table and any iteration order: a name that is not "safe_" followed by
another name, and has one bind function, reaches that function. -/
theorem resolve_plain (table : List (Name × Name)) (order : List Name) (ho : IsOrder table order) (n b : Name)
    (hm : (n, b) ∈ table) (hu : ∀ c, (n, c) ∈ table → c = b) (hs : ∀ e ∈ table, safePfx ++ e.1 ≠ n) :
    resolve (registrations table order) (calledName false n) = some (.plain b) := by
  apply resolve_unique
  · rw [mem_registrations table order ho]; exact ⟨_, hm, by simp [entryImpls, calledName]⟩
  · intro j hj
    rw [mem_registrations table order ho] at hj
    obtain ⟨⟨m, c⟩, he, hj⟩ := hj
    simp only [entryImpls, calledName, Bool.false_eq_true, if_false, List.mem_cons, Prod.mk.injEq, List.not_mem_nil, or_false] at hj
    rcases hj with ⟨h1, rfl⟩ | ⟨h1, _⟩
    · have := pfx_inj h1; subst this; rw [hu c he]
    · exact absurd (pfx_inj h1).symm (hs _ he)

/-- Likewise `SAFE.n`, if "safe_n" is not itself a function name. -/
theorem resolve_safe (table : List (Name × Name)) (order : List Name) (ho : IsOrder table order) (n b : Name)
    (hm : (n, b) ∈ table) (hu : ∀ c, (n, c) ∈ table → c = b) (hs : ∀ e ∈ table, e.1 ≠ safePfx ++ n) :
    resolve (registrations table order) (calledName true n) = some (.safe b) := by
  apply resolve_unique
  · rw [mem_registrations table order ho]; exact ⟨_, hm, by simp [entryImpls, calledName]⟩
  · intro j hj
    rw [mem_registrations table order ho] at hj
    obtain ⟨⟨m, c⟩, he, hj⟩ := hj
    simp only [entryImpls, calledName, if_true, List.mem_cons, Prod.mk.injEq, List.not_mem_nil, or_false] at hj
    rcases hj with ⟨h1, _⟩ | ⟨h1, rfl⟩
    · exact absurd (pfx_inj h1).symm (hs _ he)
    · have := List.append_cancel_left (pfx_inj h1); subst this; rw [hu c he]

/-- The functions whose SAFE wrapper shares its SQLite name with another function. -/
def clashing : List Name := [
  ['a','d','d'], ['s','u','b','t','r','a','c','t'], ['m','u','l','t','i','p','l','y'], ['d','i','v','i','d','e'],
  ['a','r','r','a','y','_','a','t','_','o','f','f','s','e','t'], ['a','r','r','a','y','_','a','t','_','o','r','d','i','n','a','l']]

/-- The table has one bind function per name. -/
theorem table_functional : ∀ e ∈ normalFuncs, ∀ f ∈ normalFuncs, e.1 = f.1 → f.2 = e.2 := by decide +kernel

theorem table_safe_names : ∀ f ∈ normalFuncs, safePfx.isPrefixOf f.1 = true → ∀ e ∈ normalFuncs, f.1 = safePfx ++ e.1 → e.1 ∈ clashing := by
  decide +kernel

theorem table_clashes : ∀ e ∈ normalFuncs, ∀ f ∈ normalFuncs, f.1 = safePfx ++ e.1 → e.1 ∈ clashing := by
  intro e he f hf h
  exact table_safe_names f hf (by rw [h, List.isPrefixOf_iff_prefix]; exact List.prefix_append _ _) e he h

/-- **C31** on the real table (every one of its functions, every iteration order):
a call of `f` reaches `f` unless `f` is SAFE_x of a clashing x, and `SAFE.f`
reaches the SAFE wrapper of `f` unless `f` is clashing. -/
theorem C31_registry_partial (order : List Name) (ho : IsOrder normalFuncs order) (e : Name × Name) (he : e ∈ normalFuncs) :
    ((∀ c ∈ clashing, e.1 ≠ safePfx ++ c) → resolve (registrations normalFuncs order) (calledName false e.1) = some (.plain e.2)) ∧
    (e.1 ∉ clashing → resolve (registrations normalFuncs order) (calledName true e.1) = some (.safe e.2)) := by
  constructor
  · intro h
    refine resolve_plain _ _ ho e.1 e.2 he (fun c hc => table_functional e he _ hc rfl) ?_
    intro f hf heq
    exact h f.1 (table_clashes f hf e he heq.symm) heq.symm
  · intro h
    refine resolve_safe _ _ ho e.1 e.2 he (fun c hc => table_functional e he _ hc rfl) ?_
    intro f hf heq
    exact h (table_clashes e he f hf heq)

/-- Every finite list of names has a duplicate-free enumeration. -/
theorem exists_nodup (xs : List Name) : ∃ l : List Name, l.Nodup ∧ ∀ n, n ∈ l ↔ n ∈ xs := by
  induction xs with
  | nil => exact ⟨[], by simp, by simp⟩
  | cons x xs ih =>
    obtain ⟨l, h1, h2⟩ := ih
    by_cases hx : x ∈ l
    · refine ⟨l, h1, fun n => ?_⟩
      rw [h2, List.mem_cons]
      exact ⟨Or.inr, fun h => h.elim (fun e => e ▸ (h2 x).mp hx) id⟩
    · exact ⟨x :: l, List.nodup_cons.mpr ⟨hx, h1⟩, fun n => by simp [h2]⟩

/-- Any name may come last in the iteration order. -/
theorem order_last (table : List (Name × Name)) (n : Name) (hn : n ∈ table.map Prod.fst) :
    ∃ order, IsOrder table (order ++ [n]) := by
  obtain ⟨l, h1, h2⟩ := exists_nodup (table.map Prod.fst)
  refine ⟨l.erase n, ?_, ?_⟩
  · rw [List.nodup_append]
    refine ⟨h1.erase _, by simp, ?_⟩
    intro a ha b hb
    simp at hb; subst hb
    rintro rfl
    exact h1.not_mem_erase ha
  · intro m
    simp only [List.mem_append, List.mem_singleton]
    by_cases h : m = n
    · subst h; simp only [or_true, true_iff]; exact hn
    · rw [List.mem_erase_of_ne h, h2]; simp [h]

/-- SAFE_ADD is sometimes the INT64 addition and sometimes the FLOAT64 one,
depending on the iteration order of a Go map. -/
theorem C31_safe_add_ambiguous :
    ∃ o1 o2, IsOrder normalFuncs o1 ∧ IsOrder normalFuncs o2 ∧
    resolve (registrations normalFuncs o1) (calledName false ['s','a','f','e','_','a','d','d']) = some (.safe ['b','i','n','d','A','d','d']) ∧
    resolve (registrations normalFuncs o2) (calledName false ['s','a','f','e','_','a','d','d']) = some (.plain ['b','i','n','d','S','a','f','e','A','d','d']) := by
  obtain ⟨o1, h1⟩ := order_last normalFuncs ['a','d','d'] (by decide +kernel)
  obtain ⟨o2, h2⟩ := order_last normalFuncs ['s','a','f','e','_','a','d','d'] (by decide +kernel)
  refine ⟨_, _, h1, h2, ?_, ?_⟩
  · rw [registrations, List.flatMap_append, resolve_append]
    have : resolve (List.flatMap (mapEntry normalFuncs) [['a','d','d']]) (calledName false ['s','a','f','e','_','a','d','d']) = some (.safe ['b','i','n','d','A','d','d']) := by decide +kernel
    rw [this]
  · rw [registrations, List.flatMap_append, resolve_append]
    have : resolve (List.flatMap (mapEntry normalFuncs) [['s','a','f','e','_','a','d','d']]) (calledName false ['s','a','f','e','_','a','d','d']) = some (.plain ['b','i','n','d','S','a','f','e','A','d','d']) := by decide +kernel
    rw [this]

theorem C31_full_false : ¬ C31_full := by
  intro h
  obtain ⟨o1, _, h1, _, h2, _⟩ := C31_safe_add_ambiguous
  have := (h o1 h1 (['s','a','f','e','_','a','d','d'], ['b','i','n','d','S','a','f','e','A','d','d']) (by decide +kernel)).1
  rw [h2] at this; cases this

/-- The theorem speaks about real functions. -/
example : (['d','i','v'], ['b','i','n','d','D','i','v']) ∈ normalFuncs ∧ ['d','i','v'] ∉ clashing := by decide +kernel

end Verif.Registry
