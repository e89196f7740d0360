import Verif.Model.Result
import Verif.Props.Dml

/-!
# C253: RowsAffected
-/

namespace Verif.Query

section
variable {V : Type} [DecidableEq V]

/-- The number of rows that a statement inserts, changes or deletes. -/
def Affects (S : Sem V) (db db' : Db V) (d : Dml) (k : Nat) : Prop :=
  match d with
  | .insertRows t _ _ | .insertQuery t _ _ => ∃ names old new, db t = some (names, old) ∧ db' t = some (names, old ++ new) ∧ k = new.length
  | .delete t _ _ => ∃ names rows rows', db t = some (names, rows) ∧ db' t = some (names, rows') ∧ rows.length = rows'.length + k
  | .update t tcols _ none wh => ∃ names rows, db t = some (names, rows) ∧
      k = (rows.filter fun r => decide ((evalE S db (fun _ => none) (tenv names tcols r) wh).map S.truth = some true)).length
  | .update t tcols _ (some src) wh => ∃ names rows from_, db t = some (names, rows) ∧
      evalS S db (fun _ => none) (fun _ => none) src = some from_ ∧
      k = (rows.filter fun r => from_.any fun b =>
        decide ((evalE S db (fun _ => none) (bindR src.cols b (tenv names tcols r)) wh).map S.truth = some true)).length
end

/-- The statement is executed as it should, and RowsAffected is the number of rows. -/
def Counts (d : Dml) : Prop :=
  ∀ (V : Type) (_ : DecidableEq V) (S : Sem V) (db db' : Db V), runDml S db d = some db' →
    ∃ t, fmtDml d = some t ∧ ∃ N, ∀ n, N ≤ n → ∃ r, execAll S n db none [.dml t] = some (db', r) ∧ Affects S db db' d (rowsAffected r)

section
variable {V : Type} [DecidableEq V] {S : Sem V} {db db' : Db V}

theorem exec_one {n : Nat} {t : DmlText} {k : Nat} (h1 : evalDml S db n t = some db') (h2 : changes S db n t = some k) :
    execAll S n db none [.dml t] = some (db', some k) := by
  simp only [execAll, SAction.exec, h1, h2]

theorem insertInto_count {null : V} {t : TName} {cols : List (List Char)} {vals : List (List V)} (h : insertInto null db t cols vals = some db') :
    ∃ names old new, db t = some (names, old) ∧ db' t = some (names, old ++ new) ∧ vals.length = new.length := by
  obtain ⟨names, old, new, h1, h2, h3, _⟩ := insertInto_rows h
  exact ⟨names, old, new, h1, h2, h3.symm⟩

/-- The rows for which a condition is true, and the others. -/
theorem filtO_count {α : Type} {f : α → Option Bool} : ∀ {as ys ns : List α}, filtO f as = some ys → filtO (fun a => (f a).map (!·)) as = some ns →
    as.length = ns.length + ys.length
  | [], ys, ns, h1, h2 => by
    cases h1
    cases h2
    rfl
  | a :: as, ys, ns, h1, h2 => by
    obtain ⟨b, bs, e1, e2, rfl⟩ := filtO_cons h1
    obtain ⟨c, cs, e3, e4, rfl⟩ := filtO_cons h2
    have := filtO_count e2 e4
    simp only [e1, Option.map_some, Option.some.injEq] at e3
    subst e3
    cases b <;> simp <;> omega

theorem filtO_filter {α : Type} {f : α → Option Bool} : ∀ {as ys : List α}, filtO f as = some ys → ys = as.filter fun a => decide (f a = some true)
  | [], ys, h => by
    cases h
    rfl
  | a :: as, ys, h => by
    obtain ⟨b, bs, e1, e2, rfl⟩ := filtO_cons h
    rw [filtO_filter e2]
    cases b <;> simp [e1]

theorem filtO_total {α : Type} {f : α → Option Bool} : ∀ {as : List α}, (∀ a ∈ as, (f a).isSome) → ∃ ys, filtO f as = some ys
  | [], _ => ⟨[], rfl⟩
  | a :: as, h => by
    obtain ⟨ys, hy⟩ := filtO_total (f := f) (as := as) fun x hx => h x (List.mem_cons_of_mem _ hx)
    obtain ⟨b, hb⟩ := Option.isSome_iff_exists.1 (h a (by simp))
    exact ⟨_, filtO_cons' hb hy⟩

theorem filtO_all {α : Type} {f : α → Option Bool} : ∀ {as ys : List α}, filtO f as = some ys → ∀ a ∈ as, (f a).isSome
  | [], _, _ => by simp
  | a :: as, ys, h => by
    obtain ⟨b, bs, e1, e2, rfl⟩ := filtO_cons h
    intro x hx
    rcases List.mem_cons.1 hx with rfl | hx
    · simp [e1]
    · exact filtO_all e2 x hx
end

/-- **C253** DELETE, in the cases of `C154_partial`. -/
theorem C253_delete (t : TName) (tcols : List Col) (wh : Expr) (hs : scopedE (fun _ => none) wh)
    (hok : okE plain (fun _ => none) wh) (hc : clearE tcols wh) : Counts (.delete t tcols wh) := by
  intro V _ S db db' h
  obtain ⟨x, hx⟩ := hasE plain (fun _ => none) wh hs
  obtain ⟨txt, ht, N1, hN1⟩ := C154_partial t tcols wh hs hok hc V _ S db db' h
  have e : txt = .delete t x := by
    simp only [fmtDml, hx, Option.map_some, Option.some.injEq] at ht
    exact ht.symm
  subst e
  refine ⟨_, ht, ?_⟩
  obtain ⟨N2, hN2⟩ := plainE S db tcols wh hx hok hc
  refine ⟨N1 + N2, fun n hn => ?_⟩
  have h1 := hN1 n (by omega)
  simp only [runDml] at h
  split at h
  · simp at h
  rename_i names rows hdb
  simp only [Option.map_eq_some_iff] at h
  obtain ⟨rows', hr, rfl⟩ := h
  have htot : ∀ r ∈ rows, ((evalE S db (fun _ => none) (tenv names tcols r) wh).map S.truth).isSome := by
    intro r hr'
    have := filtO_all hr r hr'
    simpa using this
  obtain ⟨ys, hy⟩ := filtO_total htot
  have hy' : filtO (fun r => (evalX S (evalQ S db n (fun _ => none)) (rowEnv names r) x).map S.truth) rows = some ys := by
    refine filtO_mono hy fun r _ b hb => ?_
    simp only [Option.map_eq_some_iff] at hb ⊢
    obtain ⟨v, hv, rfl⟩ := hb
    exact ⟨v, hN2 n (by omega) names r v hv, rfl⟩
  refine ⟨some ys.length, exec_one h1 (by simp only [changes, hdb, hy', Option.map_some]), names, rows, rows', hdb, by simp [upd], ?_⟩
  refine filtO_count hy ?_
  simpa [Option.map_map, Function.comp_def] using hr

/-- **C253** UPDATE, in the cases of `C155_partial`. -/
theorem C253_update (t : TName) (tcols : List Col) (sets : List (Col × Expr)) (wh : Expr)
    (hs : ∀ x ∈ sets, scopedE (fun _ => none) x.2) (hw : scopedE (fun _ => none) wh)
    (hok : ∀ x ∈ sets, okE plain (fun _ => none) x.2 ∧ clearE tcols x.2)
    (hwok : okE plain (fun _ => none) wh ∧ clearE tcols wh) : Counts (.update t tcols sets none wh) := by
  intro V _ S db db' h
  obtain ⟨x, hx⟩ := hasE plain (fun _ => none) wh hw
  obtain ⟨xs, hxs⟩ := has_sets hs
  obtain ⟨txt, ht, N1, hN1⟩ := C155_partial t tcols sets wh hs hw hok hwok V _ S db db' h
  have e : txt = .update t xs x := by
    simp only [fmtDml, hx, hxs, Option.some.injEq] at ht
    exact ht.symm
  subst e
  refine ⟨_, ht, ?_⟩
  obtain ⟨N2, hN2⟩ := plainE S db tcols wh hx hwok.1 hwok.2
  refine ⟨N1 + N2, fun n hn => ?_⟩
  have h1 := hN1 n (by omega)
  simp only [runDml] at h
  split at h
  · simp at h
  rename_i names rows hdb
  split at h
  case isFalse => simp at h
  simp only [Option.map_eq_some_iff] at h
  obtain ⟨rows', hr, rfl⟩ := h
  have htot : ∀ r ∈ rows, ((evalE S db (fun _ => none) (tenv names tcols r) wh).map S.truth).isSome := by
    intro r hr'
    obtain ⟨b, _, hb⟩ := mapO_some hr r hr'
    split at hb
    · simp at hb
    · rename_i v hv
      simp [hv]
  obtain ⟨ys, hy⟩ := filtO_total htot
  have hy' : filtO (fun r => (evalX S (evalQ S db n (fun _ => none)) (rowEnv names r) x).map S.truth) rows = some ys := by
    refine filtO_mono hy fun r _ b hb => ?_
    simp only [Option.map_eq_some_iff] at hb ⊢
    obtain ⟨v, hv, rfl⟩ := hb
    exact ⟨v, hN2 n (by omega) names r v hv, rfl⟩
  refine ⟨some ys.length, exec_one h1 (by simp only [changes, hdb, hy', Option.map_some]), names, rows, hdb, ?_⟩
  exact congrArg List.length (filtO_filter hy)

/-- **C253** INSERT … VALUES, in the cases of `C157_partial`. -/
theorem C253_values (t : TName) (cols : List (List Char)) (rows : List Exprs) (hs : ∀ r ∈ rows, scopedEs (fun _ => none) r)
    (hok : ∀ r ∈ rows, okEs plain (fun _ => none) r ∧ clearEs [] r) : Counts (.insertRows t cols rows) := by
  intro V _ S db db' h
  obtain ⟨xs, hxs⟩ := has_rows hs
  obtain ⟨txt, ht, N1, hN1⟩ := C157_partial t cols rows hs hok V _ S db db' h
  have e : txt = .insertRows t cols xs := by
    simp only [fmtDml, hxs, Option.map_some, Option.some.injEq] at ht
    exact ht.symm
  subst e
  refine ⟨_, ht, N1, fun n hn => ⟨some xs.length, exec_one (hN1 n hn) rfl, ?_⟩⟩
  simp only [runDml] at h
  split at h
  · simp at h
  rename_i vals hv
  obtain ⟨names, old, new, h1, h2, h3⟩ := insertInto_count h
  refine ⟨names, old, new, h1, h2, ?_⟩
  show xs.length = _
  rw [← h3, mapO_length hv, mapO_length hxs]

/-- **C253** INSERT … SELECT, in the cases of `C156_partial`. -/
theorem C253_select (t : TName) (cols : List (List Char)) (s : Scan) (hr : Resolved s) (hok : okS uid (fun _ => none) s) :
    Counts (.insertQuery t cols s) := by
  intro V _ S db db' h
  obtain ⟨q, hq⟩ := hasS uid (fun _ => none) s hr.inScope
  obtain ⟨txt, ht, N1, hN1⟩ := C156_partial t cols s hr hok V _ S db db' h
  have e : txt = .insertQuery t cols q := by
    simp only [fmtDml, hq, Option.map_some, Option.some.injEq] at ht
    exact ht.symm
  subst e
  refine ⟨_, ht, N1, fun n hn => ?_⟩
  have h0 := hN1 n hn
  have h0' := h0
  simp only [evalDml] at h0'
  split at h0'
  · simp at h0'
  rename_i hd rows hev
  obtain ⟨names, old, new, h1, h2, h3⟩ := insertInto_count h0'
  exact ⟨some rows.length, exec_one h0 (by simp only [changes, hev, Option.map_some]), names, old, new, h1, h2, h3⟩

/-! ### Other statements -/

section
variable {V : Type} [DecidableEq V]

theorem execAll_append (S : Sem V) (n : Nat) : ∀ (as bs : List (SAction V)) (db : Db V) (r : Option Nat),
    execAll S n db r (as ++ bs) = (execAll S n db r as).bind fun x => execAll S n x.1 x.2 bs
  | [], bs, db, r => rfl
  | a :: as, bs, db, r => by
    simp only [List.cons_append, execAll]
    split
    · rfl
    · exact execAll_append S n as bs _ _

/-- **C253** of several statements, the last one counts alone. -/
theorem C253_last (S : Sem V) (n : Nat) (db db1 : Db V) (as : List (SAction V)) (r r1 : Option Nat) (a : SAction V)
    (h : execAll S n db r as = some (db1, r1)) : execAll S n db r (as ++ [a]) = execAll S n db1 none [a] := by
  rw [execAll_append, h]
  rfl

/-- **C253** if the last statement is none of INSERT, UPDATE and DELETE, RowsAffected is 0, whatever the call has changed. -/
theorem C253_zero (S : Sem V) (n : Nat) (db db' : Db V) (as : List (SAction V)) (a : SAction V) (ha : ∀ t, a ≠ .dml t) (r r' : Option Nat)
    (h : execAll S n db r (as ++ [a]) = some (db', r')) : rowsAffected r' = 0 := by
  rw [execAll_append] at h
  simp only [Option.bind_eq_some_iff] at h
  obtain ⟨x, _, h⟩ := h
  cases a with
  | dml t => exact absurd rfl (ha t)
  | truncate f =>
    simp only [execAll, SAction.exec] at h
    cases hf : f x.1 <;> simp [hf] at h
    simp [← h.2, rowsAffected]
  | merge fs =>
    simp only [execAll, SAction.exec] at h
    cases hf : fs.foldl (fun d f => d.bind f) (some x.1) <;> simp [hf] at h
    simp [← h.2, rowsAffected]
  | other f =>
    simp only [execAll, SAction.exec] at h
    cases hf : f x.1 <;> simp [hf] at h
    simp [← h.2, rowsAffected]
end

/-- Statements that only delete rows. -/
def SAction.OnlyDeletes {V : Type} : SAction V → Prop
  | .truncate _ => True
  | .dml (.delete _ _) => True
  | _ => False

/-- Full C253, for the statements that only delete rows: RowsAffected is the number of rows that have gone. -/
def C253_full : Prop := ∀ (V : Type) (_ : DecidableEq V) (S : Sem V) (n : Nat) (db db' : Db V) (a : SAction V) (r : Option Nat) (t : TName)
    (names : List (List Char)) (rows kept : List (List V)), a.OnlyDeletes →
  execAll S n db none [a] = some (db', r) → db t = some (names, rows) → db' t = some (names, kept) → (∀ u, u ≠ t → db' u = db u) →
  kept.length + rowsAffected r = rows.length

/-- TRUNCATE of a table with a row. -/
theorem C253_full_false : ¬ C253_full := by
  intro h
  have := h (Option Int) inferInstance S0 0 (fun n => if n = ['t'] then some ([], [[]]) else none) (fun n => if n = ['t'] then some ([], []) else none)
    (.truncate fun _ => some fun n => if n = ['t'] then some ([], []) else none) none ['t'] [] [[]] [] trivial rfl rfl rfl (by
      intro u hu
      simp [hu])
  simp [rowsAffected] at this

/-- **C253** RowsAffected of a prepared CREATE statement panics; that of a prepared INSERT, UPDATE or DELETE is that of SQLite. -/
theorem C253_prepared (p : PStmt) (k : Nat) : (p = .dml → p.rowsAffected k = .ok k) ∧ (p ≠ .dml → p.rowsAffected k = .panic) := by
  cases p <;> simp [PStmt.rowsAffected]

/-- DELETE FROM t WHERE TRUE meets the hypotheses of `C253_delete`. -/
example : Counts (.delete ['t'] [ta] (eq ta ta)) :=
  C253_delete ['t'] [ta] (eq ta ta) (by simp [eq, scopedE, scopedEs]) (by simp [eq, okE, okEs]) (by simp [eq, clearE, clearEs])

end Verif.Query
