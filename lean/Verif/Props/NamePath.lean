import Verif.Lemmas.NamePath

/-!
# C01–C05: name resolution

`mergePath p written` is the path the name `written` resolves to on a connection
whose configuration is `p`; `formatPath` is the name of the SQLite object.
`Spec.Expands` says what expanding dots inside components means.
-/

namespace Verif.NamePath
open Spec

/-- The number of components a name may have under configuration `p`: the configured
maximum, one more when the name goes through INFORMATION_SCHEMA.  (0 = unlimited.) -/
def limit (p : NamePath) (qs : Path) (n : Nat) : Prop :=
  (viaInformationSchema qs ∧ n = p.maxNum + 1) ∨ (¬ viaInformationSchema qs ∧ n = p.maxNum)

theorem foldChar_iff (c a : Char) (ha : 'a' ≤ a ∧ a ≤ 'z' ∨ a = '_') : foldChar c = a ↔ c ∈ variants a := by
  have n1 : ∀ x y : Char, x = y ↔ x.toNat = y.toNat := fun x y => ⟨fun h => h ▸ rfl, fun h => Char.ext (UInt32.toNat_inj.1 h)⟩
  have le : ∀ x y : Char, x ≤ y ↔ x.toNat ≤ y.toNat := fun x y => by rw [Char.le_def, UInt32.le_iff_toNat_le]; rfl
  have o : ∀ n : Nat, n < 128 → (Char.ofNat n).toNat = n := fun n hn => by
    have : Nat.isValidChar n := Or.inl (by omega)
    rw [Char.ofNat, dif_pos this]; rfl
  have ha' : 97 ≤ a.toNat ∧ a.toNat ≤ 122 ∨ a.toNat = 95 := by
    rw [le, le, n1] at ha; exact ha
  have hs : (Char.ofNat 0x17F).toNat = 383 := rfl
  have hk : (Char.ofNat 0x212A).toNat = 8490 := rfl
  have e1 : ('A' ≤ c ∧ c ≤ 'Z') ↔ 65 ≤ c.toNat ∧ c.toNat ≤ 90 := by rw [le, le]; rfl
  have e2 : ('a' ≤ a ∧ a ≤ 'z') ↔ 97 ≤ a.toNat ∧ a.toNat ≤ 122 := by rw [le, le]; rfl
  have e3 : ('s' : Char).toNat = 115 := rfl
  have e4 : ('k' : Char).toNat = 107 := rfl
  have e5 : ('\u017F' : Char).toNat = 383 := rfl
  have e6 : ('\u212A' : Char).toNat = 8490 := rfl
  have hl : foldChar c = a ↔ (c.toNat = 383 ∧ a.toNat = 115) ∨ (c.toNat = 8490 ∧ a.toNat = 107) ∨ (65 ≤ c.toNat ∧ c.toNat ≤ 90 ∧ a.toNat = c.toNat + 32) ∨
      (c.toNat ≠ 383 ∧ c.toNat ≠ 8490 ∧ ¬ (65 ≤ c.toNat ∧ c.toNat ≤ 90) ∧ c.toNat = a.toNat) := by
    unfold foldChar
    split
    · rename_i h; rw [n1, hs] at h; rw [n1, e3]; omega
    · rename_i h0; rw [n1, hs] at h0
      split
      · rename_i h; rw [n1, hk] at h; rw [n1, e4]; omega
      · rename_i h2; rw [n1, hk] at h2
        split
        · rename_i h; rw [e1] at h; rw [n1, o _ (by omega)]; omega
        · rename_i h; rw [e1] at h; rw [n1]; omega
  rw [hl]
  unfold variants
  simp only [e2, n1 a 's', n1 a 'k', e3, e4]
  split
  · rename_i h
    split
    · simp only [List.mem_cons, n1 c, List.not_mem_nil, or_false, e5, o (a.toNat - 32) (by omega)]; omega
    · split
      · simp only [List.mem_cons, n1 c, List.not_mem_nil, or_false, e6, o (a.toNat - 32) (by omega)]; omega
      · simp only [List.mem_cons, n1 c, List.not_mem_nil, or_false, o (a.toNat - 32) (by omega)]; omega
  · simp only [List.mem_cons, n1 c, List.not_mem_nil, or_false]; omega

theorem spelled_iff : ∀ (c w : List Char), (∀ a ∈ w, 'a' ≤ a ∧ a ≤ 'z' ∨ a = '_') → (c.map foldChar = w ↔ Spelled c w)
  | [], [], _ => by simp [Spelled]
  | [], _ :: _, _ => by simp [Spelled]
  | _ :: _, [], _ => by simp [Spelled]
  | x :: c, a :: w, h => by
    rw [List.map_cons, List.cons.injEq, Spelled, foldChar_iff x a (h a (by simp)), spelled_iff c w fun b hb => h b (by simp [hb])]

theorem isInformationSchema_iff (qs : Path) : isInformationSchema qs = true ↔ viaInformationSchema qs := by
  have hw : ∀ c, isInfoSchemaName c = true ↔ Spelled c "information_schema".toList := fun c => by
    rw [isInfoSchemaName, beq_iff_eq]
    exact spelled_iff c _ (by decide)
  simp only [isInformationSchema, viaInformationSchema, List.any_eq_true, hw]

theorem getMaxNum_limit {p : NamePath} {qs : Path} {n : Nat} (hp : 0 < p.maxNum) (h : limit p qs n) :
    getMaxNum p qs = n := by
  unfold getMaxNum
  rw [if_neg (by omega)]
  rcases h with ⟨h, rfl⟩ | ⟨h, rfl⟩
  · rw [if_pos ((isInformationSchema_iff qs).2 h)]
  · rw [if_neg (fun h' => h ((isInformationSchema_iff qs).1 h'))]

theorem exists_limit (p : NamePath) (qs : Path) : ∃ n, limit p qs n := by
  by_cases h : viaInformationSchema qs
  · exact ⟨_, Or.inl ⟨h, rfl⟩⟩
  · exact ⟨_, Or.inr ⟨h, rfl⟩⟩

/-- **C01**.  A name written with exactly as many components as allowed resolves to
itself, whatever the base path is. -/
theorem C01_fully_qualified (p : NamePath) (written qs : Path) (n : Nat)
    (hmax : 0 < p.maxNum) (hexp : Expands written qs) (hlim : limit p qs n) (hlen : qs.length = n) :
    mergePath p written = qs := by
  have hq : normalizePath written = qs := expands_unique (normalizePath_expands written) hexp
  have : 0 < n := by rcases hlim with ⟨_, h⟩ | ⟨_, h⟩ <;> omega
  simp only [mergePath, hq, getMaxNum_limit hmax hlim]
  rw [if_pos ⟨this, hlen⟩]

/-- The hypotheses of C01 are met with a base path, a dotted component and a limit of 3. -/
example : ∃ p written qs n, 0 < p.maxNum ∧ p.path ≠ [] ∧ Expands written qs ∧ limit p qs n ∧ qs.length = n ∧
    written ≠ qs := by
  refine ⟨{ path := ["proj".toList, "ds".toList], maxNum := 3 }, ["p.d".toList, "t".toList],
    ["p".toList, "d".toList, "t".toList], 3, by decide, by decide, ?_, ?_, by decide, by decide⟩
  · unfold Expands; decide
  · refine Or.inr ⟨?_, rfl⟩
    rw [← isInformationSchema_iff]; decide

/-- **C02** (exact form).  The resolved path is the leading part of the base path up to
(not including) the first component equal to the first written component, cut
so that the limit is respected, followed by the written path. -/
theorem C02_resolution_shape (p : NamePath) (written qs : Path) (n : Nat)
    (hne : written ≠ []) (hexp : Expands written qs) (hlim : limit p qs n) :
    ∃ k, mergePath p written = p.path.take k ++ qs ∧
      (0 < p.maxNum → qs.length ≤ n → (mergePath p written).length ≤ n) ∧
      (∀ b ∈ p.path.take k, qs.head? ≠ some b) ∧
      -- nothing is left out without need
      (k < p.path.length → qs.head? ≠ p.path[k]? → 0 < p.maxNum ∧ n ≤ k + qs.length) := by
  have hq : normalizePath written = qs := expands_unique (normalizePath_expands written) hexp
  have hqne : qs ≠ [] := fun h => hne (hexp.2.2.2 h)
  have hql : qs.length ≠ 0 := fun h => hqne (List.eq_nil_of_length_eq_zero h)
  have key : ∀ l : Path, ∃ k, l.takeWhile (fun b => decide (qs.head? ≠ some b)) = l.take k ∧ k ≤ l.length ∧
      (k < l.length → qs.head? = l[k]?) := by
    intro l
    induction l with
    | nil => exact ⟨0, by simp⟩
    | cons x xs ih =>
      obtain ⟨k, h1, h2, h3⟩ := ih
      by_cases hx : qs.head? = some x
      · exact ⟨0, by simp [hx], by simp, by simp [hx]⟩
      · refine ⟨k + 1, ?_, by simp; omega, ?_⟩
        · rw [List.takeWhile_cons]; simp only [decide_not]
          simp only [decide_not] at h1
          simp [hx, h1]
        · intro h; simp only [List.length_cons] at h; simp; exact h3 (by omega)
  obtain ⟨k, hk, hkl, hk3⟩ := key p.path
  have hmem : ∀ j, ∀ b ∈ (p.path.take k).take j, qs.head? ≠ some b := by
    intro j b hb
    have := List.mem_of_mem_take hb
    rw [← hk] at this
    have hall := List.all_takeWhile (p := fun b => decide (qs.head? ≠ some b)) (l := p.path)
    have := List.all_eq_true.1 hall b this
    simpa using this
  by_cases hmax : p.maxNum = 0
  · refine ⟨k, ?_, by omega, by have := hmem k; rwa [List.take_take, Nat.min_self] at this, ?_⟩
    · have hg : getMaxNum p qs = 0 := by simp [getMaxNum, hmax]
      simp only [mergePath, hq, hg]
      rw [if_neg (by omega), if_neg hql, mergeLoop_eq qs 0 rfl, hk]; simp
    · intro h1 h2; exact absurd (hk3 h1) h2
  · have hpos : 0 < p.maxNum := by omega
    have hg := getMaxNum_limit hpos hlim
    have hn : 0 < n := by rcases hlim with ⟨_, h⟩ | ⟨_, h⟩ <;> omega
    by_cases hlen : qs.length = n
    · have hres : mergePath p written = qs := C01_fully_qualified p written qs n hpos hexp hlim hlen
      refine ⟨0, by simp [hres], by rw [hres]; intros; omega, by simp, ?_⟩
      intro _ _; exact ⟨hpos, by omega⟩
    · have hres : mergePath p written = (p.path.take k).take (n - qs.length) ++ qs := by
        simp only [mergePath, hq, hg]
        rw [if_neg (by omega), if_neg hql, mergeLoop_eq' qs n hn, hk]; simp
      refine ⟨min (n - qs.length) k, by rw [hres, List.take_take], ?_, ?_, ?_⟩
      · intro _ h; rw [hres]; simp; omega
      · rw [← List.take_take]; exact hmem _
      · intro h1 h2
        refine ⟨hpos, ?_⟩
        by_cases hc : k ≤ n - qs.length
        · rw [Nat.min_eq_right hc] at h1 h2
          exact absurd (hk3 h1) h2
        · rw [Nat.min_eq_left (by omega)]; omega

/-- Without components there is nothing to resolve: the base path itself. -/
theorem C02_empty_name (p : NamePath) : mergePath p [] = p.path := by
  simp only [mergePath, normalizePath, List.flatMap_nil, List.length_nil]
  split
  · rename_i h; omega
  · simp

example : mergePath { path := ["proj".toList, "ds".toList], maxNum := 3 } ["t".toList]
    = ["proj".toList, "ds".toList, "t".toList] := by decide
example : mergePath { path := ["proj".toList, "ds".toList], maxNum := 3 } ["ds.t".toList]
    = ["proj".toList, "ds".toList, "t".toList] := by decide
/-- Two written components against a limit of 2 plus INFORMATION_SCHEMA. -/
example : mergePath { path := ["ds".toList], maxNum := 2 } ["INFORMATION_SCHEMA".toList, "COLUMNS".toList]
    = ["ds".toList, "INFORMATION_SCHEMA".toList, "COLUMNS".toList] := by decide

/-- In every reachable configuration the base path has no dots in its components. -/
theorem run_noDot (ops : List Op) : ∀ c ∈ (run ops).path, '.' ∉ c := by
  have gen : ∀ (ops : List Op) (p : NamePath), (∀ c ∈ p.path, '.' ∉ c) →
      ∀ c ∈ (ops.foldl (fun p op => (step p op).1) p).path, '.' ∉ c := by
    intro ops
    induction ops with
    | nil => intro p h; simpa
    | cons op ops ih =>
      intro p h
      apply ih
      cases op with
      | setMax n => simp only [step, setMaxNum]; split <;> simpa using h
      | set path =>
        simp only [step, setPath]; split
        · simpa using h
        · simpa using (normalizePath_expands path).1
      | add path =>
        simp only [step, addPath]; split
        · simpa using h
        · intro c hc
          simp at hc
          rcases hc with hc | hc
          · exact h c hc
          · exact (normalizePath_expands [path]).1 c hc
  exact gen ops init (by simp [init])

/-- **C03**.  On any connection, resolving a resolved name changes nothing. -/
theorem C03_resolve_idempotent (ops : List Op) (written : Path) :
    mergePath (run ops) (mergePath (run ops) written) = mergePath (run ops) written := by
  have hbase := run_noDot ops
  generalize run ops = p at hbase
  by_cases hw : written = []
  · subst hw
    rw [C02_empty_name]
    cases hp : p.path with
    | nil => rw [C02_empty_name, hp]
    | cons b bs =>
      have hb : ∀ c ∈ b :: bs, '.' ∉ c := by rw [← hp]; exact hbase
      simp only [mergePath, normalizePath_of_noDot hb, hp]
      split
      · rfl
      · simp [mergeLoop]
  · have hexp := normalizePath_expands written
    generalize hq : normalizePath written = qs at hexp
    obtain ⟨n, hlim⟩ := exists_limit p qs
    obtain ⟨k, hres, hfit, -, hopt⟩ := C02_resolution_shape p written qs n hw hexp hlim
    have hnd : ∀ c ∈ mergePath p written, '.' ∉ c := by
      rw [hres]; intro c hc
      rcases List.mem_append.1 hc with h | h
      · exact hbase c (List.mem_of_mem_take h)
      · exact hexp.1 c h
    have hnorm := normalizePath_of_noDot hnd
    generalize hR : mergePath p written = R at *
    have hRne : R ≠ [] := by rw [hres]; simp; intro _ h; exact hw (hexp.2.2.2 h)
    have hstep : ∀ m, mergeLoop R m [] p.path = [] → (if 0 < m ∧ R.length = m then R else
        if R.length = 0 then p.path else mergeLoop R m [] p.path ++ R) = R := by
      intro m h
      split
      · rfl
      · rw [if_neg (by simpa using hRne), h]; rfl
    simp only [mergePath, hnorm]
    apply hstep
    cases hb : p.path with
    | nil => rfl
    | cons b bs =>
      rw [← hb]
      by_cases hk : p.path.take k = []
      · -- nothing was prepended
        have hRq : R = qs := by rw [hres, hk]; rfl
        have hk0 : k = 0 := by rw [hb] at hk; cases k with
          | zero => rfl
          | succ k => simp at hk
        subst hk0
        rw [hb]
        simp only [mergeLoop]
        by_cases hh : qs.head? = some b
        · rw [hRq, if_pos hh]
        · rw [hRq, if_neg hh]
          have := hopt (by rw [hb]; simp) (by rw [hb]; simpa using hh)
          rw [getMaxNum_limit this.1 hlim, if_pos]
          simp
          refine ⟨?_, by omega⟩
          rcases hlim with ⟨_, h⟩ | ⟨_, h⟩ <;> omega
      · have : R.head? = some b := by
          rw [hres, hb]
          cases k with
          | zero => simp at hk
          | succ k => simp
        rw [hb]; simp [mergeLoop, this]

example : run [.setMax 3, .set ["a.b".toList], .add "c".toList]
    = { path := ["a".toList, "b".toList, "c".toList], maxNum := 3 } := by decide

/-- **C04** (full).  After any history the base path respects the maximum (plus one
component for INFORMATION_SCHEMA). -/
def C04_full : Prop := ∀ ops : List Op, 0 < (run ops).maxNum → (run ops).path.length ≤ (run ops).maxNum + 1

/-- The bound fails: SetMaxNamePath does not look at the base path already set. -/
theorem C04_full_false : ¬ C04_full := by
  intro h
  have := h [.set ["a".toList, "b".toList, "c".toList], .setMax 1] (by decide)
  revert this; decide

/-- **C04, atomicity**.  A SetNamePath/AddNamePath call that fails changes nothing. -/
theorem C04_failed_call_changes_nothing (p : NamePath) (op : Op) (h : (step p op).2 = false) :
    (step p op).1 = p := by
  cases op with
  | setMax n => simp [step] at h
  | set path => simp only [step, setPath] at *; split at h <;> simp_all
  | add path => simp only [step, addPath] at *; split at h <;> simp_all

example : (step { path := ["a".toList], maxNum := 1 } (.add "b".toList)).2 = false := by decide

/-- **C04, effect**.  A successful SetNamePath replaces the base path by the expanded
argument, a successful AddNamePath appends it, and neither touches the maximum. -/
theorem C04_successful_call (p : NamePath) :
    (∀ path, (step p (.set path)).2 = true →
      Expands path (step p (.set path)).1.path ∧ (step p (.set path)).1.maxNum = p.maxNum) ∧
    (∀ c, (step p (.add c)).2 = true →
      ∃ qs, Expands [c] qs ∧ (step p (.add c)).1.path = p.path ++ qs ∧ (step p (.add c)).1.maxNum = p.maxNum) := by
  constructor
  · intro path h
    simp only [step, setPath] at *
    split at h
    · simp at h
    · rename_i hc; rw [if_neg hc]; exact ⟨normalizePath_expands path, rfl⟩
  · intro c h
    simp only [step, addPath] at *
    split at h
    · simp at h
    · rename_i hc; rw [if_neg hc]; exact ⟨_, normalizePath_expands [c], rfl, rfl⟩

example : (step { path := ["a".toList], maxNum := 2 } (.add "b".toList)).2 = true := by decide

/-- A configuration call other than SetMaxNamePath. -/
def Op.isPathOp : Op → Bool
  | .setMax _ => false
  | _ => true

/-- **C04, bound (partial)**.  The bound holds for every history in which the maximum is
fixed before the base path is.  Missing: histories that change the maximum after
setting a base path, where the bound is false (`C04_full_false`). -/
theorem C04_bounded_partial (num : Int) (ops : List Op) (hops : ∀ op ∈ ops, op.isPathOp = true)
    (hpos : 0 < num) :
    ((run (.setMax num :: ops)).path.length : Int) ≤ num + 1 := by
  have gen : ∀ (ops : List Op) (p : NamePath), (∀ op ∈ ops, op.isPathOp = true) → p.maxNum = num.toNat →
      p.path.length ≤ num.toNat + 1 →
      (ops.foldl (fun p op => (step p op).1) p).path.length ≤ num.toNat + 1 := by
    intro ops
    induction ops with
    | nil => intro p _ _ h; simpa
    | cons op ops ih =>
      intro p hops hm h
      have hg : ∀ q, getMaxNum p q ≤ num.toNat + 1 ∧ 0 < getMaxNum p q := by
        intro q; unfold getMaxNum
        rw [if_neg (by omega)]
        split <;> omega
      simp only [List.foldl_cons]
      cases op with
      | setMax n => have := hops (.setMax n) (by simp); simp [Op.isPathOp] at this
      | set path =>
        apply ih _ (fun o ho => hops o (by simp [ho]))
        · simp only [step, setPath]; split <;> simpa using hm
        · simp only [step, setPath]; have := hg path; split
          · simpa using h
          · simp only; omega
      | add path =>
        apply ih _ (fun o ho => hops o (by simp [ho]))
        · simp only [step, addPath]; split <;> simpa using hm
        · simp only [step, addPath]; have := hg (normalizePath [path]); split
          · simpa using h
          · simp only [List.length_append]; omega
  have := gen ops (setMaxNum init num) hops (by simp [setMaxNum, hpos]) (by simp [setMaxNum, hpos, init])
  have hrun : run (.setMax num :: ops) = ops.foldl (fun p op => (step p op).1) (setMaxNum init num) := rfl
  rw [hrun]
  omega

example : (∀ op ∈ [Op.set ["a".toList], .add "b".toList], op.isPathOp = true) ∧ (0 : Int) < 2 := by
  decide

/-- **C04, setting the maximum**: only positive values have an effect, so a limit once set is
never switched off. -/
theorem C04_max_never_unset (ops : List Op) (num : Int) :
    (run (ops ++ [.setMax num])).maxNum = if 0 < num then num.toNat else (run ops).maxNum := by
  simp only [run, List.foldl_append, List.foldl_cons, List.foldl_nil, step, setMaxNum]
  split <;> rfl

/-- **C05** (full).  Different resolved (non-empty) paths have different stored names. -/
def C05_full : Prop := ∀ a b : Path, a ≠ [] → b ≠ [] → formatPath a = formatPath b → a = b

/-- Stored names collide: `a_b.c` and `a.b_c` are both stored as `a_b_c`. -/
theorem C05_full_false : ¬ C05_full := by
  intro h
  have := h ["a_b".toList, "c".toList] ["a".toList, "b_c".toList] (by decide) (by decide) (by decide)
  revert this; decide

theorem formatPath_cons (c : Comp) {cs : Path} (h : cs ≠ []) : formatPath (c :: cs) = c ++ '_' :: formatPath cs := by
  cases cs with
  | nil => exact absurd rfl h
  | cons => rfl

/-- **C05 (partial)**.  Names do not collide as long as no component contains an underscore.
Missing: components with underscores, where the claim is false (`C05_full_false`). -/
theorem C05_distinct_partial (a b : Path) (ha : a ≠ []) (hb : b ≠ [])
    (hau : ∀ c ∈ a, '_' ∉ c) (hbu : ∀ c ∈ b, '_' ∉ c) (h : formatPath a = formatPath b) : a = b := by
  induction a generalizing b with
  | nil => exact absurd rfl ha
  | cons x xs ih =>
    cases b with
    | nil => exact absurd rfl hb
    | cons y ys =>
      have hx := hau x (List.mem_cons_self ..)
      have hy := hbu y (List.mem_cons_self ..)
      by_cases hxs : xs = [] <;> by_cases hys : ys = []
      · subst hxs hys; simpa [formatPath] using h
      · subst hxs; rw [formatPath_cons y hys] at h; exact absurd h (sep_absent hx)
      · subst hys; rw [formatPath_cons x hxs] at h; exact absurd h.symm (sep_absent hy)
      · rw [formatPath_cons x hxs, formatPath_cons y hys] at h
        obtain ⟨rfl, h'⟩ := sep_split_unique hx hy h
        rw [ih ys hxs hys (fun c hc => hau c (List.mem_cons_of_mem _ hc))
          (fun c hc => hbu c (List.mem_cons_of_mem _ hc)) h']

example : ∀ c ∈ (["proj".toList, "ds".toList] : Path), '_' ∉ c := by decide

/-- With the same number of components, a collision needs an underscore *inside* a component
at the first place the paths differ. -/
theorem C05_collision_needs_underscore (a b : Path) (hlen : a.length = b.length) (hne : a ≠ b)
    (h : formatPath a = formatPath b) : ∃ c ∈ a ++ b, '_' ∈ c := by
  by_cases hex : ∃ c ∈ a ++ b, '_' ∈ c
  · exact hex
  · exfalso
    have h' : ∀ c ∈ a ++ b, '_' ∉ c := fun c hc hu => hex ⟨c, hc, hu⟩
    by_cases ha : a = []
    · subst ha; simp at hlen; exact hne (List.eq_nil_of_length_eq_zero hlen.symm).symm
    · have hb : b ≠ [] := by intro hb; subst hb; simp at hlen; exact ha hlen
      exact hne (C05_distinct_partial a b ha hb (fun c hc => h' c (by simp [hc])) (fun c hc => h' c (by simp [hc])) h)

/-- **C04, acceptance**.  Without a maximum AddNamePath always succeeds; with one exactly when the base path together with
the added components stays within it. -/
theorem C04_add_accepts (p : NamePath) (c : Comp) (qs : Path) (n : Nat) (hexp : Expands [c] qs) (hlim : limit p qs n) :
    (step p (.add c)).2 = true ↔ p.maxNum = 0 ∨ p.path.length + qs.length ≤ n := by
  have he := expands_unique hexp (normalizePath_expands [c])
  subst he
  simp only [step, addPath]
  by_cases h0 : p.maxNum = 0
  · simp [getMaxNum, h0]
  · rw [getMaxNum_limit (by omega) hlim]
    have hn : 0 < n := by rcases hlim with ⟨_, rfl⟩ | ⟨_, rfl⟩ <;> omega
    split <;> simp [h0] <;> omega

/-- **C04, acceptance** of SetNamePath for a path without dots inside its components. -/
theorem C04_set_accepts (p : NamePath) (path : Path) (n : Nat) (hexp : Expands path path) (hlim : limit p path n) :
    (step p (.set path)).2 = true ↔ p.maxNum = 0 ∨ path.length ≤ n := by
  have he := expands_unique hexp (normalizePath_expands path)
  simp only [step, setPath]
  rw [← he]
  by_cases h0 : p.maxNum = 0
  · simp [getMaxNum, h0]
  · rw [getMaxNum_limit (by omega) hlim]
    have hn : 0 < n := by rcases hlim with ⟨_, rfl⟩ | ⟨_, rfl⟩ <;> omega
    split <;> simp [h0] <;> omega

end Verif.NamePath
