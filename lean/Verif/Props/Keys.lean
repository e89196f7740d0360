import Verif.Model.Keys
import Verif.Props.Result

/-!
# C256 to C258: primary keys and the options of INSERT, UPDATE and DELETE
-/

namespace Verif.Keys

variable {K R : Type} [DecidableEq K]

/-- No two rows have the same key, NULLs aside. -/
def Distinct (ks : List (List (Option K))) : Prop := ks.Pairwise fun a b => conflict a b = false

instance (ks : List (List (Option K))) : Decidable (Distinct ks) := inferInstanceAs (Decidable (ks.Pairwise _))

theorem conflict_comm (a b : List (Option K)) : conflict a b = conflict b a := by
  unfold conflict
  by_cases h : a = b
  · subst h; rfl
  · simp [h, Ne.symm h]

/-! ## C256: INSERT -/

/-- What INSERT should do with the rows one after the other.  `upd` puts the inserted columns of the new row into the old one. -/
def insertRow (mode : Mode) (key : R → List (Option K)) (upd : R → R → R) (t : List R) (r : R) : Option (List R) :=
  if ∃ x ∈ t, conflict (key r) (key x) = true then
    match mode with
    | .orError => none
    | .orIgnore => some t
    | .orReplace => some (t.filter (fun x => !conflict (key r) (key x)) ++ [r])
    | .orUpdate => some (t.map fun x => if conflict (key r) (key x) then upd x r else x)
  else some (t ++ [r])

def insertSpec (mode : Mode) (key : R → List (Option K)) (upd : R → R → R) (t : List R) : List R → Option (List R)
  | [] => some t
  | r :: rs => (insertRow mode key upd t r).bind fun t' => insertSpec mode key upd t' rs

/-- Full C256: INSERT does what its mode says. -/
def C256_full : Prop := ∀ (K R : Type) (_ : DecidableEq K) (mode : Mode) (key : R → List (Option K)) (upd : R → R → R) (old new : List R),
  Distinct (old.map key) → insert mode key old new = insertSpec mode key upd old new

/-- What INSERT does: all rows or, if two would have the same key, none. -/
theorem C256_insert (mode : Mode) (key : R → List (Option K)) (old new : List R) (h : Distinct (old.map key)) :
    insert mode key old new = if Distinct ((old ++ new).map key) then some (old ++ new) else none := by
  unfold insert
  induction new generalizing old with
  | nil => simp [sqliteInsert, h]
  | cons r rs ih =>
    unfold sqliteInsert
    by_cases hc : old.any (fun x => conflict (key r) (key x)) = true
    · rw [if_pos hc, if_neg]
      intro hd
      obtain ⟨x, hx, hxr⟩ := List.any_eq_true.1 hc
      unfold Distinct at hd
      rw [List.map_append, List.pairwise_append] at hd
      have := hd.2.2 (key x) (List.mem_map_of_mem hx) (key r) (by simp)
      rw [conflict_comm, hxr] at this
      cases this
    · rw [if_neg hc]
      have h' : Distinct ((old ++ [r]).map key) := by
        unfold Distinct
        rw [List.map_append, List.pairwise_append]
        refine ⟨h, by simp, ?_⟩
        intro a ha b hb
        obtain ⟨x, hx, rfl⟩ := List.mem_map.1 ha
        simp only [List.map_cons, List.map_nil, List.mem_singleton] at hb
        subst hb
        simp only [List.any_eq_true, not_exists, not_and, Bool.not_eq_true] at hc
        rw [conflict_comm]
        exact hc x hx
      rw [ih _ h']
      simp

theorem insertSpec_distinct (mode : Mode) (key : R → List (Option K)) (upd : R → R → R) : ∀ (new old : List R), Distinct ((old ++ new).map key) →
    insertSpec mode key upd old new = some (old ++ new)
  | [], old, _ => by simp [insertSpec]
  | r :: rs, old, h => by
    have hn : ¬ ∃ x ∈ old, conflict (key r) (key x) = true := by
      rintro ⟨x, hx, hxr⟩
      unfold Distinct at h
      rw [List.map_append, List.pairwise_append] at h
      have := h.2.2 (key x) (List.mem_map_of_mem hx) (key r) (by simp)
      rw [conflict_comm, hxr] at this
      cases this
    unfold insertSpec insertRow
    rw [if_neg hn, Option.bind_some, insertSpec_distinct mode key upd rs _ (by simpa using h)]
    simp

theorem insertSpec_some {mode : Mode} (hm : mode ≠ .orError) (key : R → List (Option K)) (upd : R → R → R) : ∀ (new old : List R),
    (insertSpec mode key upd old new).isSome
  | [], old => rfl
  | r :: rs, old => by
    have h : ∃ t, insertRow mode key upd old r = some t := by
      unfold insertRow
      split
      · cases mode <;> first | exact absurd rfl hm | exact ⟨_, rfl⟩
      · exact ⟨_, rfl⟩
    obtain ⟨t, ht⟩ := h
    unfold insertSpec
    rw [ht]
    exact insertSpec_some hm key upd rs t

/-- A plain INSERT is right: it fails exactly if two rows would have the same key, and then has no effect. -/
theorem C256_plain (key : R → List (Option K)) (upd : R → R → R) : ∀ (new old : List R),
    insert .orError key old new = insertSpec .orError key upd old new
  | [], old => rfl
  | r :: rs, old => by
    have ih := C256_plain key upd rs
    unfold insert at ih ⊢
    unfold sqliteInsert insertSpec insertRow
    by_cases hc : old.any (fun x => conflict (key r) (key x)) = true
    · rw [if_pos hc, if_pos (List.any_eq_true.1 hc)]
      rfl
    · rw [if_neg hc, if_neg (fun h => hc (List.any_eq_true.2 h)), Option.bind_some]
      exact ih _

/-- INSERT OR IGNORE, OR REPLACE and OR UPDATE are right exactly if there is nothing to ignore, replace or update. -/
theorem C256_iff {mode : Mode} (hm : mode ≠ .orError) (key : R → List (Option K)) (upd : R → R → R) (old new : List R) (h : Distinct (old.map key)) :
    insert mode key old new = insertSpec mode key upd old new ↔ Distinct ((old ++ new).map key) := by
  rw [C256_insert mode key old new h]
  constructor
  · intro e
    by_cases hd : Distinct ((old ++ new).map key)
    · exact hd
    · rw [if_neg hd] at e
      have := insertSpec_some hm key upd new old
      rw [← e] at this
      cases this
  · intro hd
    rw [if_pos hd, insertSpec_distinct mode key upd new old hd]

/-- INSERT OR IGNORE of a row that is there. -/
theorem C256_full_false : ¬ C256_full := by
  intro h
  have := h Nat Nat inferInstance .orIgnore (fun r => [some r]) (fun _ r => r) [1] [1] (by decide)
  exact absurd this (by decide)

/-- Rows with NULL in the key are never refused, however many there are. -/
theorem C256_null (mode : Mode) (key : R → List (Option K)) (old new : List R) (hn : ∀ r ∈ new, none ∈ key r) :
    insert mode key old new = some (old ++ new) := by
  unfold insert
  induction new generalizing old with
  | nil => simp [sqliteInsert]
  | cons r rs ih =>
    unfold sqliteInsert
    rw [if_neg, ih _ fun x hx => hn x (List.mem_cons_of_mem _ hx)]
    · simp
    · intro hc
      obtain ⟨x, -, hx⟩ := List.any_eq_true.1 hc
      have := hn r (by simp)
      unfold conflict at hx
      simp only [Bool.and_eq_true, List.all_eq_true] at hx
      have := hx.2 none this
      cases this

/-- Two rows with different keys are inserted into a table with one. -/
example : insert .orError (fun r : Nat × Nat => [some r.1]) [(1, 1)] [(2, 1), (3, 1)] = some [(1, 1), (2, 1), (3, 1)] := by
  rw [C256_insert _ _ _ _ (by decide)]
  rfl

/-! ## C257: UPDATE of a key -/

/-- Full C257: an UPDATE fails exactly if two rows have the same key afterwards.  The rows are those of the table with their keys before
and after. -/
def C257_full : Prop := ∀ (K : Type) (_ : DecidableEq K) (rows : List (List (Option K) × List (Option K))), Distinct (rows.map (·.1)) →
  update rows = if Distinct (rows.map (·.2)) then some (rows.map (·.2)) else none

theorem sqliteUpdate_eq : ∀ (rows : List (List (Option K) × List (Option K))) (seen : List (List (Option K))), Distinct seen →
    sqliteUpdate seen rows = if Distinct (seen ++ rows.map (·.2)) ∧ rows.Pairwise (fun a b => conflict a.2 b.1 = false)
      then some (seen ++ rows.map (·.2)) else none
  | [], seen, h => by simp [sqliteUpdate, h]
  | (o, n) :: rest, seen, h => by
    unfold sqliteUpdate
    by_cases hc : (seen.any (conflict n) || (rest.map (·.1)).any (conflict n)) = true
    · rw [if_pos hc, if_neg]
      rintro ⟨h1, h2⟩
      rw [Bool.or_eq_true] at hc
      rcases hc with hc | hc
      · obtain ⟨x, hx, hxn⟩ := List.any_eq_true.1 hc
        unfold Distinct at h1
        rw [List.pairwise_append] at h1
        have := h1.2.2 x hx n (by simp)
        rw [conflict_comm, hxn] at this
        cases this
      · obtain ⟨x, hx, hxn⟩ := List.any_eq_true.1 hc
        obtain ⟨b, hb, rfl⟩ := List.mem_map.1 hx
        have := (List.pairwise_cons.1 h2).1 b hb
        rw [hxn] at this
        cases this
    · rw [if_neg hc]
      simp only [Bool.or_eq_true, not_or, List.any_eq_true, not_exists, not_and, Bool.not_eq_true] at hc
      have h' : Distinct (seen ++ [n]) := by
        unfold Distinct
        rw [List.pairwise_append]
        refine ⟨h, by simp, ?_⟩
        intro a ha b hb
        rw [List.mem_singleton] at hb
        subst hb
        rw [conflict_comm]
        exact hc.1 a ha
      rw [sqliteUpdate_eq rest _ h']
      have e : ((o, n) :: rest).Pairwise (fun a b => conflict a.2 b.1 = false) ↔ rest.Pairwise (fun a b => conflict a.2 b.1 = false) := by
        rw [List.pairwise_cons]
        refine ⟨fun x => x.2, fun x => ⟨fun b hb => hc.2 b.1 (List.mem_map_of_mem hb), x⟩⟩
      simp only [e]
      simp

/-- Exactly: an UPDATE succeeds if and only if the keys are distinct afterwards and no row gets the key that a row visited later has
before. -/
theorem C257_exact (rows : List (List (Option K) × List (Option K))) :
    update rows = if Distinct (rows.map (·.2)) ∧ rows.Pairwise (fun a b => conflict a.2 b.1 = false) then some (rows.map (·.2)) else none := by
  unfold update
  rw [sqliteUpdate_eq rows [] List.Pairwise.nil]
  simp

/-- Right if the new keys of rows that change are not keys of other rows; in particular if no key changes. -/
theorem C257_partial (rows : List (List (Option K) × List (Option K)))
    (hn : ∀ a ∈ rows, a.1 ≠ a.2 → ∀ b ∈ rows, conflict a.2 b.1 = false) (hd : Distinct (rows.map (·.1))) :
    update rows = if Distinct (rows.map (·.2)) then some (rows.map (·.2)) else none := by
  rw [C257_exact]
  have : rows.Pairwise (fun a b => conflict a.2 b.1 = false) := by
    unfold Distinct at hd
    rw [List.pairwise_map] at hd
    refine List.Pairwise.imp_of_mem ?_ hd
    intro a b ha hb hab
    by_cases e : a.1 = a.2
    · rw [← e]; exact hab
    · exact hn a ha e b hb
  simp [this]

/-- UPDATE t SET id = id + 1 WHERE TRUE of the rows 1 and 2. -/
theorem C257_full_false : ¬ C257_full := by
  intro h
  have := h Nat inferInstance [([some 1], [some 2]), ([some 2], [some 3])] (by decide)
  exact absurd this (by decide)

/-- UPDATE t SET id = id - 1 WHERE TRUE of these rows. -/
example : update [([some 2], [some 1]), ([some 3], [some 2])] = some [[some 1], [some 2]] := by
  rw [C257_exact]
  rfl

/-- UPDATE t SET id = 7 WHERE id = 2: the hypotheses of `C257_partial` are met. -/
example : update [([some 1], [some 1]), ([some 2], [some 7])] = some [[some 1], [some 7]] := by
  rw [C257_partial _ (by decide) (by decide)]
  rfl

end Verif.Keys

namespace Verif.Query

/-! ## C258: ASSERT_ROWS_MODIFIED -/

/-- Full C258: a statement with ASSERT_ROWS_MODIFIED k fails if it changes another number of rows, and otherwise does what it does without
it. -/
def C258_full : Prop := ∀ (d : Dml), Counts d → ∀ (k : Nat) (V : Type) (_ : DecidableEq V) (S : Sem V) (db db' : Db V), runDml S db d = some db' →
  ∃ N, ∀ n, N ≤ n → (Affects S db db' d k → execAssert S db n d (some k) = some db') ∧ (¬ Affects S db db' d k → execAssert S db n d (some k) = none)

/-- The assertion is never looked at: the statement does what it does without it, whatever the number of rows. -/
theorem C258_partial (d : Dml) (h : Counts d) (assert : Option Nat) {V : Type} [DecidableEq V] (S : Sem V) (db db' : Db V)
    (hr : runDml S db d = some db') : ∃ N, ∀ n, N ≤ n → execAssert S db n d assert = some db' := by
  obtain ⟨t, ht, N, hN⟩ := h V _ S db db' hr
  refine ⟨N, fun n hn => ?_⟩
  obtain ⟨r, h1, -⟩ := hN n hn
  unfold execAssert fmtAssert
  rw [ht]
  simp only
  simp only [execAll, SAction.exec] at h1
  split at h1
  · simp at h1
  · rename_i x y he
    split at he
    · rename_i db'' k e1 e2
      simp only [Option.some.injEq, Prod.mk.injEq] at he h1
      rw [e1, he.1, h1.1]
    · simp at he

/-- So it is right exactly if the number of rows is the one that is asserted. -/
theorem C258_iff (d : Dml) (h : Counts d) (k : Nat) {V : Type} [DecidableEq V] (S : Sem V) (db db' : Db V) (hr : runDml S db d = some db') :
    (∃ N, ∀ n, N ≤ n → (Affects S db db' d k → execAssert S db n d (some k) = some db') ∧
      (¬ Affects S db db' d k → execAssert S db n d (some k) = none)) ↔ Affects S db db' d k := by
  obtain ⟨N, hN⟩ := C258_partial d h (some k) S db db' hr
  constructor
  · rintro ⟨M, hM⟩
    by_cases ha : Affects S db db' d k
    · exact ha
    · have := (hM (N + M) (by omega)).2 ha
      rw [hN _ (by omega)] at this
      cases this
  · intro ha
    exact ⟨N, fun n hn => ⟨fun _ => hN n hn, fun hna => absurd ha hna⟩⟩

/-- DELETE FROM t WHERE a = a ASSERT_ROWS_MODIFIED 5 on a table with two rows. -/
theorem C258_full_false : ¬ C258_full := by
  intro h
  have hc : Counts (.delete ['t'] [ta] (eq ta ta)) :=
    C253_delete ['t'] [ta] (eq ta ta) (by simp [eq, scopedE, scopedEs]) (by simp [eq, okE, okEs]) (by simp [eq, clearE, clearEs])
  have hr : runDml S0 dbT (.delete ['t'] [ta] (eq ta ta)) = some (upd dbT ['t'] ([['a']], [])) := rfl
  have h1 := (C258_iff _ hc 5 S0 dbT _ hr).1 (h _ hc 5 _ inferInstance S0 dbT _ hr)
  obtain ⟨names, rows, rows', e1, e2, e3⟩ := h1
  cases e1
  cases e2
  simp at e3

end Verif.Query
