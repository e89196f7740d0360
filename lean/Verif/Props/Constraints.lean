import Verif.Model.Constraints

/-! # C276: NOT NULL and PRIMARY KEY -/

namespace Verif.Constraints

section
variable {V : Type} [DecidableEq V]

/-- No NULL in the column. -/
def NotNull (i : Nat) (rows : List (Row V)) : Prop := ∀ r ∈ rows, ∃ v, r[i]? = some (some v)

/-- No two rows agree in all columns of the key. -/
def Distinct (key : List Nat) (rows : List (Row V)) : Prop :=
  ∀ (m n : Nat) (a b : Row V), m ≠ n → rows[m]? = some a → rows[n]? = some b → ∃ i ∈ key, (a[i]?).getD none ≠ (b[i]?).getD none

/-- C276: whatever statements are executed, columns declared NOT NULL have no NULL and no two rows have the same primary key. -/
def C276_full : Prop := ∀ (t : Table Nat) (stmts : List (List (Row Nat) → Option (List (Row Nat)))),
  (∀ i ∈ t.declared.notNull, NotNull i (history t stmts)) ∧ (t.declared.key ≠ [] → Distinct t.declared.key (history t stmts))

omit [DecidableEq V] in
theorem pick_ne {key : List Nat} {a b : Row V} (h : pick key a ≠ pick key b) : ∃ i ∈ key, (a[i]?).getD none ≠ (b[i]?).getD none := by
  apply Classical.byContradiction
  intro hn
  apply h
  apply List.map_congr_left
  intro i hi
  apply Classical.byContradiction
  intro hne
  exact hn ⟨i, hi, hne⟩

theorem uniqueKeys_distinct (key : List Nat) (hk : key ≠ []) : ∀ rows : List (Row V), (∀ r ∈ rows, (pick key r).all Option.isSome = true) →
    uniqueKeys key rows = true → Distinct key rows
  | [], _, _ => by intro m n a b _ h; simp at h
  | r :: rs, hs, hu => by
    simp only [uniqueKeys, Bool.and_eq_true, Bool.or_eq_true, List.isEmpty_iff, hk, false_or] at hu
    obtain ⟨h1, h2⟩ := hu
    have hr := hs r (by simp)
    simp only [hr, Bool.not_true, Bool.false_eq_true, false_or, List.all_eq_true, decide_eq_true_eq] at h1
    have ih := uniqueKeys_distinct key hk rs (fun x hx => hs x (by simp [hx])) h2
    intro m n a b hmn hm hn
    cases m with
    | zero =>
      cases n with
      | zero => exact absurd rfl hmn
      | succ n =>
        simp only [List.getElem?_cons_zero, Option.some.injEq] at hm
        simp only [List.getElem?_cons_succ] at hn
        subst hm
        exact pick_ne (Ne.symm (h1 b (List.mem_of_getElem? hn)))
    | succ m =>
      cases n with
      | zero =>
        simp only [List.getElem?_cons_zero, Option.some.injEq] at hn
        simp only [List.getElem?_cons_succ] at hm
        subst hn
        exact pick_ne (h1 a (List.mem_of_getElem? hm))
      | succ n =>
        simp only [List.getElem?_cons_succ] at hm hn
        exact ih m n a b (by omega) hm hn

omit [DecidableEq V] in
theorem pick_all {cols : List Nat} {r : Row V} : (pick cols r).all Option.isSome = true ↔ ∀ i ∈ cols, ∃ v, r[i]? = some (some v) := by
  simp only [pick, List.all_map, List.all_eq_true, Function.comp_apply]
  constructor
  · intro h i hi
    have := h i hi
    cases hr : r[i]? with
    | none => rw [hr] at this; simp at this
    | some x =>
      cases x with
      | none => rw [hr] at this; simp at this
      | some v => exact ⟨v, rfl⟩
  · intro h i hi
    obtain ⟨v, hv⟩ := h i hi
    simp [hv]

theorem accepts_exec (c : Constraint) (rows : List (Row V)) (stmt) (h : accepts c rows = true) : accepts c (exec c rows stmt) = true := by
  unfold exec
  split
  · exact h
  · split
    · assumption
    · exact h

theorem accepts_history (c : Constraint) (stmts : List (List (Row V) → Option (List (Row V)))) : ∀ rows, accepts c rows = true →
    accepts c (stmts.foldl (exec c) rows) = true := by
  induction stmts with
  | nil => intro rows h; exact h
  | cons s ss ih => intro rows h; exact ih _ (accepts_exec c rows s h)

/-- **C276**, partial: of a table created with a list of columns NOT NULL holds after every history of statements, and the primary key
if its columns are declared NOT NULL as well.  Missing: keys with NULLs (`C276_null`) and CREATE TABLE … AS (`C276_as`). -/
theorem C276_partial (t : Table V) (hq : t.query = none) (stmts : List (List (Row V) → Option (List (Row V)))) :
    (∀ i ∈ t.declared.notNull, NotNull i (history t stmts)) ∧
    (t.declared.key ≠ [] → (∀ i ∈ t.declared.key, i ∈ t.declared.notNull) → Distinct t.declared.key (history t stmts)) := by
  have hc : written t = t.declared := by simp [written, hq]
  have ha : accepts t.declared (history t stmts) = true := by
    unfold history
    rw [hc]
    apply accepts_history
    simp [create, hq, accepts, uniqueKeys]
  simp only [accepts, Bool.and_eq_true, List.all_eq_true (p := fun r => (pick _ r).all Option.isSome)] at ha
  have h1 : ∀ r ∈ history t stmts, ∀ i ∈ t.declared.notNull, ∃ v, r[i]? = some (some v) := fun r hr => pick_all.mp (ha.1 r hr)
  exact ⟨fun i hi r hr => h1 r hr i hi,
    fun hk hs => uniqueKeys_distinct _ hk _ (fun r hr => pick_all.mpr fun i hi => h1 r hr i (hs i hi)) ha.2⟩

/-- **C276** A key with a NULL: the rows may be stored any number of times. -/
theorem C276_null (t : Table V) (hq : t.query = none) (r : Row V) (n : Nat) (hn : (pick t.declared.notNull r).all Option.isSome = true)
    (hk : (pick t.declared.key r).all Option.isSome = false) :
    history t (List.replicate n fun rows => some (r :: rows)) = List.replicate n r := by
  have hc : written t = t.declared := by simp [written, hq]
  have hacc : ∀ k, accepts t.declared (List.replicate k r) = true := by
    intro k
    simp only [accepts, Bool.and_eq_true, List.all_eq_true (p := fun r => (pick _ r).all Option.isSome)]
    refine ⟨fun x hx => by rw [List.eq_of_mem_replicate hx]; exact hn, ?_⟩
    induction k with
    | zero => rfl
    | succ k ih => simp only [List.replicate_succ, uniqueKeys, hk, ih]; simp
  have step : ∀ k m, (List.replicate k fun rows => some (r :: rows)).foldl (exec t.declared) (List.replicate m r) = List.replicate (k + m) r := by
    intro k
    induction k with
    | zero => intro m; simp
    | succ k ih =>
      intro m
      have e : exec t.declared (List.replicate m r) (fun rows => some (r :: rows)) = List.replicate (m + 1) r := by
        have h := hacc (m + 1)
        rw [List.replicate_succ] at h ⊢
        simp only [exec, h, if_true]
      rw [List.replicate_succ, List.foldl_cons, e, ih]
      congr 1; omega
  unfold history
  rw [hc]
  simpa [create, hq] using step n 0

/-- **C276** CREATE TABLE … AS: neither constraint is looked at, neither for the rows of the query nor later.  Every statement has the
effect it would have without constraints. -/
theorem C276_as (t : Table V) (rows : List (Row V)) (hq : t.query = some rows) (stmts : List (List (Row V) → Option (List (Row V)))) :
    history t stmts = stmts.foldl (fun rows s => (s rows).getD rows) rows := by
  have hc : written t = ⟨[], []⟩ := by simp [written, hq]
  have hu : ∀ rows : List (Row V), uniqueKeys [] rows = true := by
    intro rows
    induction rows with
    | nil => rfl
    | cons r rs ih => simp [uniqueKeys, ih]
  have ha : ∀ rows : List (Row V), accepts ⟨[], []⟩ rows = true := by
    intro rows; simp [accepts, hu, pick]
  have he : ∀ (rows : List (Row V)) s, exec ⟨[], []⟩ rows s = (s rows).getD rows := by
    intro rows s
    unfold exec
    cases s rows with
    | none => rfl
    | some r => simp only [ha, if_true, Option.getD_some]
  unfold history
  rw [hc]
  simp only [create, hq, Option.getD_some]
  congr 1
  funext rows s
  exact he rows s

end

/-- CREATE TABLE t (a INT64 NOT NULL) AS SELECT CAST(NULL AS INT64) makes a table with a NULL. -/
theorem C276_full_false : ¬ C276_full := by
  intro h
  have := (h ⟨⟨[0], []⟩, some [[none]]⟩ []).1 0 (by simp) [none] (by simp [history, create])
  obtain ⟨v, hv⟩ := this
  simp at hv

/-- C276_partial for two INSERTs of one key into t (a INT64 NOT NULL, b INT64, PRIMARY KEY (a)): the second has no effect. -/
example : history (⟨⟨[0], [0]⟩, none⟩ : Table Nat) [fun rs => some (rs ++ [[some 1, some 2]]), fun rs => some (rs ++ [[some 1, none]]),
    fun rs => some (rs ++ [[some 2, none]])] = [[some 1, some 2], [some 2, none]] := by rfl

end Verif.Constraints
