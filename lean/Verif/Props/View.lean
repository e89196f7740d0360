import Verif.Model.View
import Verif.Props.Dml

/-!
# Views show the rows of their query

C230: a view reads as its query would read now, whatever happened since the view was created.
-/

namespace Verif.Query

set_option linter.unusedSectionVars false

/-! ### What statements should leave -/

/-- What a name stands for: a table with its contents, or a view. -/
inductive Obj (V : Type) where
  | table (x : List (List Char) × List (List V))
  | view (v : View)

/-- The object under one name after a statement on this name, and whether the statement succeeds. -/
def Obj.after {V : Type} : Option (Obj V) → VStmt V → Option (Obj V) × Bool
  | none, .createView _ _ v => (some (.view v), true)
  | some (.view _), .createView .orReplace _ v => (some (.view v), true)
  | some o, .createView .ifNotExists _ _ => (some o, true)
  | some o, .createView _ _ _ => (some o, false)
  | none, .dropView _ ifExists => (none, ifExists)
  | some (.view _), .dropView _ _ => (none, true)
  | some (.table x), .dropView _ _ => (some (.table x), false)
  | some (.view v), .table _ _ => (some (.view v), false)
  | _, .table _ x => (x.map .table, true)

/-- The name a statement is about. -/
def VStmt.name {V : Type} : VStmt V → TName
  | .createView _ t _ => t
  | .dropView t _ => t
  | .table t _ => t

/-- The objects after a history. -/
def objects {V : Type} (ss : List (VStmt V)) (t : TName) : Option (Obj V) :=
  ss.foldl (fun o s => if s.name = t then (Obj.after o s).1 else o) none

/-- The rows of a query in a database, with the names of its columns. -/
def View.rows {V : Type} [DecidableEq V] (S : Sem V) (db : Db V) (v : View) : Option (List (List Char) × List (List V)) :=
  match evalS S db (fun _ => none) (fun _ => none) v.scan with
  | none => none
  | some rows => (mapO (fun a => pick v.scan.cols a (v.out.map (·.1))) rows).map fun R => (v.out.map (·.2), R)

/-- What a reader should find under a name: a table has its contents, a view the rows of its query, for which the tables and views the
query reads have what a reader should find there. -/
inductive Shows {V : Type} [DecidableEq V] (S : Sem V) (o : TName → Option (Obj V)) : TName → List (List Char) × List (List V) → Prop where
  | table {t x} : o t = some (.table x) → Shows S o t x
  | view {t v x} (f : TName → List (List Char) × List (List V)) : o t = some (.view v) → (∀ u ∈ tabS v.scan, Shows S o u (f u)) →
      v.rows S (fun u => some (f u)) = some x → Shows S o t x

/-- The result a query should have. -/
def Answers {V : Type} [DecidableEq V] (S : Sem V) (o : TName → Option (Obj V)) (q : View) (x : List (List Char) × List (List V)) : Prop :=
  ∃ f : TName → List (List Char) × List (List V), (∀ u ∈ tabS q.scan, Shows S o u (f u)) ∧ q.rows S (fun u => some (f u)) = some x

/-- The empty database. -/
def World.empty {V : Type} : World V := ⟨fun _ => none, fun _ => none⟩

/-- The query of SQLite has this result, if views may be nested deeply enough. -/
def Gets {V : Type} [DecidableEq V] (S : Sem V) (w : World V) (q : View) (x : List (List Char) × List (List V)) : Prop :=
  ∃ t, fmtQuery q.out q.scan = some t ∧ ∃ K, ∀ k, K ≤ k → Yields S (w.read S k) t (x.1.map .raw, x.2)

/-- The queries that statements give views. -/
def defined {V : Type} (ss : List (VStmt V)) : List View := ss.filterMap fun s => match s with
  | .createView _ _ v => some v
  | _ => none

/-- A resolved query with output columns. -/
structure View.Resolved (v : View) : Prop where
  res : Query.Resolved v.scan
  out : v.out ≠ []

/-- C230: after any history of statements on tables and views, every query has the result it should have. -/
def C230_full : Prop := ∀ (V : Type) (_ : DecidableEq V) (S : Sem V) (ss : List (VStmt V)) (q : View) (x : List (List Char) × List (List V)),
  (∀ v ∈ q :: defined ss, v.Resolved) → Answers S (objects ss) q x → Gets S (World.empty.run ss) q x

section
variable {V : Type} [DecidableEq V]

theorem yields_unique {S : Sem V} {db : Db V} {t : List Tok} {r r' : Rel V} (h : Yields S db t r) (h' : Yields S db t r') : r = r' := by
  obtain ⟨N, hN⟩ := h
  obtain ⟨M, hM⟩ := h'
  have h1 := hN (N + M) (by omega)
  rw [hM (N + M) (by omega)] at h1
  exact (Option.some.inj h1).symm

theorem valueQ_of {S : Sem V} {db : Db V} {t : List Tok} {r : Rel V} (h : Yields S db t r) : valueQ S db t = some r := by
  unfold valueQ
  have hex : ∃ r, Yields S db t r := ⟨r, h⟩
  rw [dif_pos hex]
  exact congrArg some (yields_unique hex.choose_spec h)

/-! ### Statements -/

/-- SQLite has the tables and the translated views. -/
structure Holds (w : World V) (o : TName → Option (Obj V)) : Prop where
  tabs : ∀ t, w.tabs t = match o t with
    | some (.table x) => some x
    | _ => none
  views : ∀ t, w.views t = match o t with
    | some (.view v) => fmtQuery v.out v.scan
    | _ => none
  text : ∀ t v, o t = some (.view v) → fmtQuery v.out v.scan ≠ none

theorem has_text {v : View} (h : v.Resolved) : ∃ q, fmtQuery v.out v.scan = some q := by
  obtain ⟨t, ht⟩ := hasS uid (fun _ => none) v.scan h.res.inScope
  exact ⟨_, by simp only [fmtQuery, ht]; rfl⟩

theorem Holds.at {w : World V} {o : TName → Option (Obj V)} (h : Holds w o) (t : TName) :
    (o t = none ∧ w.tabs t = none ∧ w.views t = none) ∨ (∃ x, o t = some (.table x) ∧ w.tabs t = some x ∧ w.views t = none) ∨
    ∃ v q, o t = some (.view v) ∧ w.tabs t = none ∧ w.views t = some q ∧ fmtQuery v.out v.scan = some q := by
  have h1 := h.tabs t
  have h2 := h.views t
  cases ho : o t with
  | none => rw [ho] at h1 h2; exact .inl ⟨rfl, h1, h2⟩
  | some ob =>
    cases ob with
    | table x => rw [ho] at h1 h2; exact .inr (.inl ⟨x, rfl, h1, h2⟩)
    | view v =>
      rw [ho] at h1 h2
      cases hq : fmtQuery v.out v.scan with
      | none => exact absurd hq (h.text t v ho)
      | some q => exact .inr (.inr ⟨v, q, rfl, h1, by rw [h2]; exact hq, hq⟩)

/-- One name changes. -/
theorem Holds.set {w w' : World V} {o : TName → Option (Obj V)} (h : Holds w o) (t : TName) (b : Option (Obj V))
    (h1 : ∀ u, u ≠ t → w'.tabs u = w.tabs u ∧ w'.views u = w.views u)
    (h2 : w'.tabs t = match (generalizing := false) b with
      | some (.table x) => some x
      | _ => none)
    (h3 : w'.views t = match (generalizing := false) b with
      | some (.view v) => fmtQuery v.out v.scan
      | _ => none)
    (h4 : ∀ v, b = some (.view v) → fmtQuery v.out v.scan ≠ none) : Holds w' (fun u => if t = u then b else o u) := by
  refine ⟨fun u => ?_, fun u => ?_, fun u v hv => ?_⟩
  · by_cases e : t = u
    · subst e; rw [if_pos rfl]; exact h2
    · rw [if_neg e, (h1 u (Ne.symm e)).1]; exact h.tabs u
  · by_cases e : t = u
    · subst e; rw [if_pos rfl]; exact h3
    · rw [if_neg e, (h1 u (Ne.symm e)).2]; exact h.views u
  · by_cases e : t = u
    · subst e
      rw [if_pos rfl] at hv
      exact h4 v hv
    · rw [if_neg e] at hv
      exact h.text u v hv

/-- Nothing changes. -/
theorem Holds.same {w : World V} {o : TName → Option (Obj V)} (h : Holds w o) (t : TName) (b : Option (Obj V)) (hb : o t = b) :
    Holds w (fun u => if t = u then b else o u) := by
  have : (fun u => if t = u then b else o u) = o := by
    funext u
    split
    · rename_i e; rw [← e, hb]
    · rfl
  rw [this]
  exact h

theorem fun_at {α : Type} (t : TName) (f g : TName → α) : (fun u => if t = u then f u else g u) = fun u => if t = u then f t else g u := by
  funext u
  split
  · rename_i e; rw [e]
  · rfl

/-- Every statement does to its name what it should, and nothing to the others. -/
theorem exec_holds {w : World V} {o : TName → Option (Obj V)} (h : Holds w o) (s : VStmt V)
    (hs : ∀ m t v, s = .createView m t v → v.Resolved) :
    (w.exec s).2 = (Obj.after (o s.name) s).2 ∧
    Holds (w.exec s).1 (fun t => if s.name = t then (Obj.after (o t) s).1 else o t) := by
  rw [fun_at s.name (fun t => (Obj.after (o t) s).1) o]
  cases s with
  | createView mode t v =>
    obtain ⟨q, hq⟩ := has_text (hs mode t v rfl)
    simp only [VStmt.name, World.exec, hq]
    rcases h.at t with ⟨h1, h2, h3⟩ | ⟨x, h1, h2, h3⟩ | ⟨v', q', h1, h2, h3, h4⟩
    · have hnew : Holds (w.createView t q (mode = .ifNotExists)).1 (fun u => if t = u then some (.view v) else o u) := by
        simp only [World.createView, h2, h3, ne_eq, not_true_eq_false, or_self, if_false]
        refine h.set t (some (.view v)) (fun u hu => ⟨rfl, by simp [upd, hu]⟩) h2 (by simp [upd, hq]) (fun v' e => ?_)
        cases e
        simp [hq]
      have hok : (w.createView t q (mode = .ifNotExists)).2 = true := by
        simp only [World.createView, h2, h3, ne_eq, not_true_eq_false, or_self, if_false]
      have hd : (if mode = .orReplace then w.dropView t true else (w, true)) = (w, true) := by
        split
        · simp only [World.dropView, h2, h3, ne_eq, not_true_eq_false, if_false, if_true]
        · rfl
      rw [hd, h1]
      cases mode <;> exact ⟨hok, hnew⟩
    · rw [h1]
      cases mode
      · simp only [reduceCtorEq, if_false, Bool.true_eq_false, World.createView, h2, ne_eq, not_false_eq_true, true_or, if_true, Obj.after, decide_false]
        exact ⟨trivial, h.same t _ h1⟩
      · simp only [if_true, World.dropView, h2, ne_eq, reduceCtorEq, not_false_eq_true, Obj.after]
        exact ⟨trivial, h.same t _ h1⟩
      · simp only [reduceCtorEq, if_false, Bool.true_eq_false, World.createView, h2, ne_eq, not_false_eq_true, true_or, if_true, Obj.after, decide_true]
        exact ⟨trivial, h.same t _ h1⟩
    · rw [h1]
      cases mode
      · simp only [reduceCtorEq, if_false, Bool.true_eq_false, World.createView, h3, ne_eq, not_false_eq_true, or_true, if_true, Obj.after, decide_false]
        exact ⟨trivial, h.same t _ h1⟩
      · simp only [if_true, World.dropView, h2, h3, ne_eq, reduceCtorEq, not_true_eq_false, if_false, Bool.true_eq_false, World.createView,
          or_self, Obj.after]
        refine ⟨trivial, h.set t _ (fun u hu => ⟨rfl, by simp [upd, hu]⟩) h2 (by simp [upd, hq]) (fun v' e => ?_)⟩
        cases e
        simp [hq]
      · simp only [reduceCtorEq, if_false, Bool.true_eq_false, World.createView, h3, ne_eq, not_false_eq_true, or_true, if_true, Obj.after, decide_true]
        exact ⟨trivial, h.same t _ h1⟩
  | dropView t ie =>
    simp only [VStmt.name, World.exec, World.dropView]
    rcases h.at t with ⟨h1, h2, h3⟩ | ⟨x, h1, h2, h3⟩ | ⟨v', q', h1, h2, h3, h4⟩
    · simp only [h1, h2, h3, ne_eq, not_true_eq_false, if_false, if_true, Obj.after]
      exact ⟨trivial, h.same t _ h1⟩
    · simp only [h1, h2, ne_eq, reduceCtorEq, not_false_eq_true, if_true, Obj.after]
      exact ⟨trivial, h.same t _ h1⟩
    · simp only [h1, h2, h3, ne_eq, reduceCtorEq, not_true_eq_false, if_false, Obj.after]
      exact ⟨trivial, h.set t _ (fun u hu => ⟨rfl, by simp [hu]⟩) h2 (by simp) (fun v' e => by simp at e)⟩
  | table t x =>
    simp only [VStmt.name, World.exec]
    rcases h.at t with ⟨h1, h2, h3⟩ | ⟨y, h1, h2, h3⟩ | ⟨v', q', h1, h2, h3, h4⟩
    · simp only [h1, h3, ne_eq, not_true_eq_false, if_false, Obj.after]
      refine ⟨trivial, h.set t _ (fun u hu => ⟨by simp [hu], rfl⟩) ?_ ?_ (fun v' e => by simp at e)⟩ <;> cases x <;> simp [h3]
    · simp only [h1, h3, ne_eq, not_true_eq_false, if_false, Obj.after]
      refine ⟨trivial, h.set t _ (fun u hu => ⟨by simp [hu], rfl⟩) ?_ ?_ (fun v' e => by simp at e)⟩ <;> cases x <;> simp [h3]
    · simp only [h1, h3, ne_eq, reduceCtorEq, not_false_eq_true, if_true, Obj.after]
      exact ⟨trivial, h.same t _ h1⟩

theorem objects_snoc (ss : List (VStmt V)) (s : VStmt V) :
    objects (ss ++ [s]) = fun t => if s.name = t then (Obj.after (objects ss t) s).1 else objects ss t := by
  funext t
  simp only [objects, List.foldl_append, List.foldl_cons, List.foldl_nil]

theorem foldl_holds (ss : List (VStmt V)) : ∀ (w : World V) (o : TName → Option (Obj V)), Holds w o → (∀ v ∈ defined ss, v.Resolved) →
    Holds (w.run ss) (fun t => ss.foldl (fun o s => if s.name = t then (Obj.after o s).1 else o) (o t)) := by
  induction ss with
  | nil => intro w o h _; exact h
  | cons s ss ih =>
    intro w o h hr
    have h1 := (exec_holds h s fun m t v e => hr v (by subst e; simp [defined])).2
    exact ih _ _ h1 fun v hv => hr v (by
      simp only [defined, List.filterMap_cons] at hv ⊢
      split
      · exact hv
      · exact List.mem_cons_of_mem _ hv)

/-- After any history SQLite holds exactly the objects it should. -/
theorem history_holds (ss : List (VStmt V)) (hr : ∀ v ∈ defined ss, v.Resolved) : Holds (World.empty.run ss) (objects ss) :=
  foldl_holds ss World.empty (fun _ => none) ⟨fun _ => rfl, fun _ => rfl, fun _ _ h => by simp at h⟩ hr

/-! ### Reading -/

theorem max_exists {l : List TName} {P : TName → Nat → Prop} (h : ∀ u ∈ l, ∃ K, ∀ k, K ≤ k → P u k) : ∃ K, ∀ k, K ≤ k → ∀ u ∈ l, P u k := by
  induction l with
  | nil => exact ⟨0, fun _ _ u hu => by simp at hu⟩
  | cons a l ih =>
    obtain ⟨K1, h1⟩ := h a (by simp)
    obtain ⟨K2, h2⟩ := ih fun u hu => h u (List.mem_cons_of_mem _ hu)
    refine ⟨K1 + K2, fun k hk u hu => ?_⟩
    rcases List.mem_cons.1 hu with rfl | hu
    · exact h1 k (by omega)
    · exact h2 k (by omega) u hu

/-- A query whose parts are right yields its rows in every database that has the contents of the tables it reads. -/
theorem yields_of {S : Sem V} {q : View} (hr : q.Resolved) (hok : okS uid (fun _ => none) q.scan) {db : Db V}
    {f : TName → List (List Char) × List (List V)} (hf : ∀ u ∈ tabS q.scan, db u = some (f u)) {x : List (List Char) × List (List V)}
    (hx : q.rows S (fun u => some (f u)) = some x) : ∃ t, fmtQuery q.out q.scan = some t ∧ Yields S db t (x.1.map .raw, x.2) := by
  unfold View.rows at hx
  split at hx
  · simp at hx
  rename_i rows he
  simp only [Option.map_eq_some_iff] at hx
  obtain ⟨R, hR, rfl⟩ := hx
  rw [congrS (db' := db) (fun _ => none) q.scan (env' := fun _ => none) ⟨fun u hu => (hf u hu).symm, fun _ _ => rfl⟩] at he
  obtain ⟨t, ht, hy⟩ := query_sound hr.res hok hr.out he hR
  refine ⟨t, ht, ?_⟩
  rw [List.map_map]
  exact hy

theorem targets_raw : ∀ names : List (List Char), mapO Nm.target (names.map Nm.raw) = some names
  | [] => rfl
  | _ :: names => mapO_cons' rfl (targets_raw names)

/-- SQLite finds under every name what a reader should find there. -/
theorem read_shows {S : Sem V} {w : World V} {o : TName → Option (Obj V)} (h : Holds w o)
    (hv : ∀ t v, o t = some (.view v) → v.Resolved ∧ okS uid (fun _ => none) v.scan) {t : TName} {x : List (List Char) × List (List V)}
    (hs : Shows S o t x) : ∃ K, ∀ k, K ≤ k → w.read S k t = some x := by
  induction hs with
  | @table t x ho =>
    refine ⟨0, fun k _ => ?_⟩
    have ht : w.tabs t = some x := by rw [h.tabs t, ho]
    cases k with
    | zero => exact ht
    | succ k => simp only [World.read, ht]
  | @view t v x f ho _ hx ih =>
    obtain ⟨K, hK⟩ := max_exists ih
    refine ⟨K + 1, fun k hk => ?_⟩
    obtain ⟨m, rfl⟩ : ∃ m, k = m + 1 := ⟨k - 1, by omega⟩
    have ht : w.tabs t = none := by rw [h.tabs t, ho]
    have hw : w.views t = fmtQuery v.out v.scan := by rw [h.views t, ho]
    obtain ⟨q, hq, hy⟩ := yields_of (hv t v ho).1 (hv t v ho).2 (hK m (by omega)) hx
    simp only [World.read, ht, hw, hq, valueQ_of hy, targets_raw, Option.map_some]

theorem objects_defined (ss : List (VStmt V)) (t : TName) (v : View) (h : objects ss t = some (.view v)) : v ∈ defined ss := by
  have key : ∀ (ss : List (VStmt V)) (o : Option (Obj V)), ss.foldl (fun o s => if s.name = t then (Obj.after o s).1 else o) o = some (.view v) →
      o = some (.view v) ∨ v ∈ defined ss := by
    intro ss
    induction ss with
    | nil => intro o h; exact .inl h
    | cons s ss ih =>
      intro o h
      have hmono : v ∈ defined ss → v ∈ defined (s :: ss) := by
        intro hm
        simp only [defined, List.filterMap_cons] at hm ⊢
        split
        · exact hm
        · exact List.mem_cons_of_mem _ hm
      rcases ih _ h with h1 | h1
      · simp only at h1
        split at h1
        · cases s with
          | createView mode u v' =>
            have : o = some (.view v) ∨ v' = v := by
              cases o with
              | none => simp only [Obj.after, Option.some.injEq, Obj.view.injEq] at h1; exact .inr h1
              | some ob => cases ob <;> cases mode <;> simp [Obj.after] at h1 <;> simp [h1]
            rcases this with h2 | rfl
            · exact .inl h2
            · exact .inr (by simp [defined])
          | dropView u ie =>
            cases o with
            | none => simp [Obj.after] at h1
            | some ob => cases ob <;> simp [Obj.after] at h1
          | table u x =>
            cases o with
            | none => cases x <;> simp [Obj.after] at h1
            | some ob =>
              cases ob
              · cases x <;> simp [Obj.after] at h1
              · simp [Obj.after] at h1; exact .inl (by simp [h1])
        · exact .inl h1
      · exact .inr (hmono h1)
  rcases key ss none h with h | h
  · simp at h
  · exact h

/-- C230, what is proved: this holds if the parts of all queries, that of the reader and those of the views, are right (`okS`, see C134). -/
theorem C230_partial (S : Sem V) (ss : List (VStmt V)) (q : View) (x : List (List Char) × List (List V))
    (hr : ∀ v ∈ q :: defined ss, v.Resolved ∧ okS uid (fun _ => none) v.scan) (h : Answers S (objects ss) q x) :
    Gets S (World.empty.run ss) q x := by
  obtain ⟨f, hf, hx⟩ := h
  have hh := history_holds ss fun v hv => (hr v (List.mem_cons_of_mem _ hv)).1
  obtain ⟨K, hK⟩ := max_exists fun u hu => read_shows hh
    (fun t v ho => hr v (List.mem_cons_of_mem _ (objects_defined ss t v ho))) (hf u hu)
  have hq := hr q (by simp)
  obtain ⟨t, ht⟩ := has_text hq.1
  refine ⟨t, ht, K, fun k hk => ?_⟩
  obtain ⟨t', ht', hy⟩ := yields_of hq.1 hq.2 (hK k hk) hx
  rw [ht] at ht'
  cases ht'
  exact hy

/-- Every statement of a history succeeds exactly if it should: CREATE VIEW of a name in use fails unless IF NOT EXISTS is given or OR
REPLACE meets a view, DROP VIEW of a missing view fails without IF EXISTS. -/
theorem C230_success (ss : List (VStmt V)) (s : VStmt V) (hr : ∀ v ∈ defined (ss ++ [s]), v.Resolved) :
    ((World.empty.run ss).exec s).2 = (Obj.after (objects ss s.name) s).2 := by
  have hd : defined (ss ++ [s]) = defined ss ++ defined [s] := by simp [defined, List.filterMap_append]
  refine (exec_holds (history_holds ss fun v hv => hr v ?_) s fun m t v e => hr v ?_).1
  · rw [hd]; exact List.mem_append_left _ hv
  · subst e
    rw [hd]
    exact List.mem_append_right _ (by simp [defined])

end

/-! ### Examples -/

/-- A table, a view of it, a view of the view, and then other rows in the table. -/
def hist0 : List (VStmt (Option Int)) := [.table ['t'] (some ([['a']], [[some 1], [some 2], [some 3]])),
  .createView .default ['v'] ⟨[(ca, ['x'])], pr (.table ['t'] [ca]) [ca]⟩,
  .createView .orReplace ['w'] ⟨[(⟨['x'], 2⟩, ['y'])], pr (.filter (.table ['v'] [⟨['x'], 2⟩]) (gt ⟨['x'], 2⟩ 2)) [⟨['x'], 2⟩]⟩,
  .createView .ifNotExists ['v'] ⟨[(ca, ['z'])], pr (.table ['t'] [ca]) [ca]⟩,
  .table ['t'] (some ([['a']], [[some 7], [some 0], [some 4]]))]

/-- `SELECT y FROM w` -/
def read0 : View := ⟨[(⟨['y'], 1⟩, ['y'])], pr (.table ['w'] [⟨['y'], 1⟩]) [⟨['y'], 1⟩]⟩

theorem hist0_ok : ∀ v ∈ read0 :: defined hist0, v.Resolved ∧ okS uid (fun _ => none) v.scan := by
  intro v hv
  simp only [hist0, defined, List.filterMap_cons, List.filterMap_nil, List.mem_cons, List.not_mem_nil, or_false] at hv
  rcases hv with rfl | rfl | rfl | rfl
  · exact ⟨⟨⟨by decide, by simp [read0, pr, scopedS, scopedCs], rfl⟩, by simp [read0]⟩, by simp [read0, pr, okS, okCs, Scan.cols, CExprs.cols]⟩
  · exact ⟨⟨⟨by decide, by simp [pr, scopedS, scopedCs], rfl⟩, by simp⟩, by simp [pr, okS, okCs, Scan.cols, CExprs.cols]⟩
  · exact ⟨⟨⟨by decide, by simp [pr, gt, scopedS, scopedE, scopedEs, scopedCs], rfl⟩, by simp⟩,
      by simp [pr, gt, okS, okE, okEs, okCs, Scan.cols, isQuery, leftOk, CExprs.cols]⟩
  · exact ⟨⟨⟨by decide, by simp [pr, scopedS, scopedCs], rfl⟩, by simp⟩, by simp [pr, okS, okCs, Scan.cols, CExprs.cols]⟩

/-- A view whose query cannot be written is refused, and the database is as before: the statement reports success only if it left a view. -/
theorem C230_refused (w : World V) (mode : CMode) (t : TName) (v : View) (h : (w.exec (.createView mode t v)).2 = true) (hm : mode ≠ .ifNotExists) :
    fmtQuery v.out v.scan ≠ none ∧ (w.exec (.createView mode t v)).1.views t = fmtQuery v.out v.scan := by
  simp only [World.exec] at h ⊢
  cases hq : fmtQuery v.out v.scan with
  | none => rw [hq] at h; simp at h
  | some q =>
    rw [hq] at h
    refine ⟨by simp, ?_⟩
    simp only at h ⊢
    generalize (if mode = .orReplace then w.dropView t true else (w, true)) = d at h ⊢
    by_cases hd : d.2 = false
    · rw [if_pos hd] at h
      simp at h
    · rw [if_neg hd] at h ⊢
      simp only [World.createView, hm, decide_false] at h ⊢
      by_cases hc : d.1.tabs t ≠ none ∨ d.1.views t ≠ none
      · rw [if_pos hc] at h
        simp at h
      · rw [if_neg hc]
        simp [upd]

/-- The view of the view shows the rows the table has now. -/
theorem C230_example : Gets S0 (World.empty.run hist0) read0 ([['y']], [[some 7], [some 4]]) := by
  refine C230_partial S0 hist0 read0 _ hist0_ok ⟨fun _ => ([['y']], [[some 7], [some 4]]), ?_, by decide +kernel⟩
  intro u hu
  simp only [read0, pr, tabS, tabCs, List.append_nil, List.mem_cons, List.not_mem_nil, or_false] at hu
  subst hu
  refine .view (fun _ => ([['x']], [[some 7], [some 0], [some 4]])) (v := ⟨[(⟨['x'], 2⟩, ['y'])],
    pr (.filter (.table ['v'] [⟨['x'], 2⟩]) (gt ⟨['x'], 2⟩ 2)) [⟨['x'], 2⟩]⟩) rfl ?_ (by decide +kernel)
  intro u hu
  simp only [pr, gt, tabS, tabE, tabEs, tabCs, List.append_nil, List.mem_cons, List.not_mem_nil, or_false] at hu
  subst hu
  refine .view (fun _ => ([['a']], [[some 7], [some 0], [some 4]])) (v := ⟨[(ca, ['x'])], pr (.table ['t'] [ca]) [ca]⟩) rfl ?_ (by decide +kernel)
  intro u hu
  simp only [pr, tabS, tabCs, List.append_nil, List.mem_cons, List.not_mem_nil, or_false] at hu
  subst hu
  exact .table rfl

/-- `SELECT cols FROM t` fails if there is nothing under the name. -/
theorem missing_fails {V : Type} [DecidableEq V] (S : Sem V) (db : Db V) (t : TName) (hd : db t = none) (out : List (Col × List Char))
    (tcols cols : List Col) (q : List Tok) (hq : fmtQuery out (pr (.table t tcols) cols) = some q) : Fails S db q := by
  let q0 : List Tok := [.sel (tcols.map fun c => .ex (.name (.raw c.name)) (some (uid c))), .from, .tbl t]
  have h0 : ∀ n, evalQ S db n (fun _ => none) (fun _ => none) q0 = none :=
    fails_tref (S := S) (x := .tbl t) (r := .tbl t) (w := []) rfl (by simp) (by simp) (Or.inl rfl) fun n => by simp [evalTref, hd]
  have h1 : ∀ n, evalTref db (evalQ S db n (fun _ => none)) (fun _ => none) (fun _ => none) (.grp q0) = none :=
    fun n => by simp only [evalTref]; exact h0 n
  have h2 := fails_tref (S := S) (db := db) (items := selList uid [] cols) (x := .grp q0) (r := .grp q0) (w := []) rfl (by simp) (by simp) (Or.inl rfl) h1
  have ht : fmtS uid (fun _ => none) (pr (.table t tcols) cols) = some (.sel (selList uid [] cols) :: .from :: .grp q0 :: []) := by
    simp only [pr, fmtS, fmtCs]
    rfl
  simp only [fmtQuery, ht, Option.some.injEq] at hq
  subst hq
  intro n
  cases n with
  | zero => rfl
  | succ n => exact fails_from rfl (h2 n)

/-- A view that reads itself (CREATE OR REPLACE VIEW v AS SELECT … FROM v is accepted) cannot be read. -/
theorem C230_circular {V : Type} [DecidableEq V] (S : Sem V) (w : World V) (t : TName) (out : List (Col × List Char)) (tcols cols : List Col)
    (ht : w.tabs t = none) (hq : w.views t = fmtQuery out (pr (.table t tcols) cols)) : ∀ k, w.read S k t = none
  | 0 => ht
  | k + 1 => by
    have ih := C230_circular S w t out tcols cols ht hq k
    cases hf : fmtQuery out (pr (.table t tcols) cols) with
    | none => simp only [World.read, ht, hq, hf]
    | some q =>
      have hv : valueQ S (w.read S k) q = none := by
        unfold valueQ
        rw [dif_neg]
        rintro ⟨r, hr⟩
        exact hr.not_fails (missing_fails S _ t ih out tcols cols q hf)
      simp only [World.read, ht, hq, hf, hv]

/-- So OR REPLACE loses the old view. -/
example : ((World.empty (V := Option Int)).run [.table ['t'] (some ([['a']], [[some 1]])),
      .createView .default ['v'] ⟨[(ca, ['a'])], pr (.table ['t'] [ca]) [ca]⟩,
      .createView .orReplace ['v'] ⟨[(ca, ['a'])], pr (.table ['v'] [ca]) [ca]⟩]).views ['v'] =
    fmtQuery [(ca, ['a'])] (pr (.table ['v'] [ca]) [ca]) := rfl

/-- A view whose query SQLite cannot read cannot be read. -/
theorem C230_broken {V : Type} [DecidableEq V] (S : Sem V) (w : World V) (t : TName) (q : List Tok) (ht : w.tabs t = none)
    (hq : w.views t = some q) (hf : ∀ db : Db V, Fails S db q) (k : Nat) : w.read S k t = none := by
  cases k with
  | zero => exact ht
  | succ k =>
    have hv : valueQ S (w.read S k) q = none := by
      unfold valueQ
      rw [dif_neg]
      rintro ⟨r, hr⟩
      exact hr.not_fails (hf _)
    simp only [World.read, ht, hq, hv]

/-- A view of `SELECT a FROM (SELECT a FROM t LIMIT 2) WHERE a > 1` can be created; no query reads it. -/
def hist1 : List (VStmt (Option Int)) := [.table ['t'] (some ([['a']], [[some 1], [some 2], [some 3]])),
  .createView .default ['w'] ⟨[(ca, ['y'])], sel [ca] (.limit T 2 none [ca]) (gt ca 1)⟩]

theorem C230_full_false : ¬ C230_full := by
  intro h
  have hres : ∀ v ∈ read0 :: defined hist1, v.Resolved := by
    intro v hv
    simp only [hist1, defined, List.filterMap_cons, List.filterMap_nil, List.mem_cons, List.not_mem_nil, or_false] at hv
    rcases hv with rfl | rfl
    · exact (hist0_ok _ (by simp)).1
    · exact ⟨⟨by decide, by simp [sel, T, gt, scopedS, scopedE, scopedEs, scopedCs], rfl⟩, by simp⟩
  have hans : Answers S0 (objects hist1) read0 ([['y']], [[some 2]]) := by
    refine ⟨fun _ => ([['y']], [[some 2]]), ?_, by decide +kernel⟩
    intro u hu
    simp only [read0, pr, tabS, tabCs, List.append_nil, List.mem_cons, List.not_mem_nil, or_false] at hu
    subst hu
    refine .view (fun _ => ([['a']], [[some 1], [some 2], [some 3]])) (v := ⟨[(ca, ['y'])], sel [ca] (.limit T 2 none [ca]) (gt ca 1)⟩) rfl ?_
      (by decide +kernel)
    intro u hu
    simp only [sel, T, gt, tabS, tabE, tabEs, tabCs, List.append_nil, List.mem_cons, List.not_mem_nil, or_false] at hu
    subst hu
    exact .table rfl
  obtain ⟨t, ht, K, hK⟩ := h (Option Int) inferInstance S0 hist1 read0 _ hres hans
  have hb : ∀ k, (World.empty.run hist1).read S0 k ['w'] = none := by
    obtain ⟨q, hq, _⟩ := C135_limit S0 db0 [(ca, ['y'])] [ca] [ca] T 2 none (gt ca 1) (by simp [T, scopedS])
      (by simp [gt, scopedE, scopedEs]) (by intro t ht; cases ht; decide +kernel)
    have hfails : ∀ db : Db (Option Int), Fails S0 db q := by
      intro db
      obtain ⟨q', hq', hf⟩ := C135_limit S0 db [(ca, ['y'])] [ca] [ca] T 2 none (gt ca 1) (by simp [T, scopedS])
        (by simp [gt, scopedE, scopedEs]) (by intro t ht; cases ht; decide +kernel)
      rw [hq] at hq'
      cases hq'
      exact hf
    have hh := history_holds hist1 fun v hv => hres v (List.mem_cons_of_mem _ hv)
    exact C230_broken S0 _ ['w'] q (hh.tabs ['w']) ((hh.views ['w']).trans hq) hfails
  exact (hK K (Nat.le_refl K)).not_fails (missing_fails S0 _ ['w'] (hb K) _ _ _ t ht)

end Verif.Query
