import Verif.Lemmas.Catalog

/-! Which names the analyzer's catalog resolves to which specification. -/

namespace Verif.Catalog
open Spec NamePath

/-- The place of a full path in the tree. -/
def treeKey (pos path : Path) : Path × Name :=
  ((pos ++ path.dropLast).map lower, lower (path.getLast?.getD []))

theorem addIfAbsent_apply (t : Tree) (pos : Path) (n : Name) (s : Spec) (k : Path × Name) :
    t.addIfAbsent pos n s k = if k = (pos.map lower, lower n) then some ((t k).getD s) else t k := by
  unfold Tree.addIfAbsent Tree.get
  by_cases hk : k = (pos.map lower, lower n)
  · subst hk
    cases h : t (pos.map lower, lower n) <;> simp [h]
  · cases h : t (pos.map lower, lower n) <;> simp [hk]

theorem find?_congr {α} {l : List α} {p q : α → Bool} (h : ∀ x ∈ l, p x = q x) : l.find? p = l.find? q := by
  induction l with
  | nil => rfl
  | cons x xs ih =>
    simp only [List.find?_cons, h x (by simp), ih (fun y hy => h y (by simp [hy]))]

theorem addIfAbsent_short (t : Tree) (pos : Path) (n : Name) (s : Spec) (k : Path × Name)
    (h : k.1.length ≠ pos.length) : t.addIfAbsent pos n s k = t k := by
  rw [addIfAbsent_apply, if_neg]
  intro e; rw [e] at h; simp at h

theorem addTableRec_long (s : Spec) (path : Path) : ∀ (t : Tree) (pos : Path) (k : Path × Name),
    pos.length + path.length ≤ k.1.length → (addTableRec s t pos path).1 k = t k := by
  induction path with
  | nil => intro t pos k _; rfl
  | cons n rest ih =>
    intro t pos k hk
    cases rest with
    | nil =>
      simp only [addTableRec, List.length_cons, List.length_nil] at hk ⊢
      exact addIfAbsent_short _ _ _ _ _ (by omega)
    | cons m rest =>
      simp only [addTableRec, List.length_cons] at hk ⊢
      have e1 := ih (t.addIfAbsent pos (joinDot (n :: m :: rest)) s) pos k (by simp; omega)
      have e0 : t.addIfAbsent pos (joinDot (n :: m :: rest)) s k = t k := addIfAbsent_short _ _ _ _ _ (by omega)
      split
      · rename_i t' heq; rw [heq] at e1; rw [← e0, ← e1]
      · rename_i t' heq; rw [heq] at e1
        rw [ih t' (pos ++ [n]) k (by simp; omega), ← e0, ← e1]

theorem addTableRec_full (s : Spec) (path : Path) (hp : path ≠ []) : ∀ (t : Tree) (pos : Path) (k : Path × Name),
    k.1.length + 1 = pos.length + path.length →
    (addTableRec s t pos path).1 k = if k = treeKey pos path then some ((t k).getD s) else t k := by
  induction path with
  | nil => exact absurd rfl hp
  | cons n rest ih =>
    intro t pos k hk
    cases rest with
    | nil => simp [addTableRec, treeKey, addIfAbsent_apply]
    | cons m rest =>
      simp only [addTableRec, List.length_cons] at hk ⊢
      have e0 : t.addIfAbsent pos (joinDot (n :: m :: rest)) s k = t k := addIfAbsent_short _ _ _ _ _ (by omega)
      have e1 := addTableRec_long s (m :: rest) (t.addIfAbsent pos (joinDot (n :: m :: rest)) s) pos k (by simp; omega)
      have eok := addTableRec_ok s (t.addIfAbsent pos (joinDot (n :: m :: rest)) s) pos (m :: rest) (by simp)
      split
      · rename_i t' heq; rw [heq] at eok; simp at eok
      · rename_i t' heq; rw [heq] at e1
        rw [ih (by simp) t' (pos ++ [n]) k (by simp; omega)]
        have e2 : t' k = t k := by rw [← e0, ← e1]
        rw [e2]
        have : treeKey (pos ++ [n]) (m :: rest) = treeKey pos (n :: m :: rest) := by simp [treeKey]
        rw [this]

theorem addFunctionRec_long (s : Spec) (path : Path) : ∀ (t : Tree) (pos : Path) (k : Path × Name),
    pos.length + path.length ≤ k.1.length → (addFunctionRec s t pos path).1 k = t k := by
  induction path with
  | nil => intro t pos k _; rfl
  | cons n rest ih =>
    intro t pos k hk
    cases rest with
    | nil =>
      simp only [addFunctionRec, List.length_cons, List.length_nil] at hk ⊢
      exact addIfAbsent_short _ _ _ _ _ (by omega)
    | cons m rest =>
      simp only [addFunctionRec, List.length_cons] at hk ⊢
      have e1 := ih t pos k (by simp; omega)
      split
      · rename_i t' heq; rw [heq] at e1; exact e1
      · rename_i t' heq; rw [heq] at e1
        rw [ih t' (pos ++ [n]) k (by simp; omega)]; exact e1

theorem addFunctionRec_full (s : Spec) (path : Path) (hp : path ≠ []) : ∀ (t : Tree) (pos : Path) (k : Path × Name),
    k.1.length + 1 = pos.length + path.length →
    (addFunctionRec s t pos path).1 k = if k = treeKey pos path then some ((t k).getD s) else t k := by
  induction path with
  | nil => exact absurd rfl hp
  | cons n rest ih =>
    intro t pos k hk
    cases rest with
    | nil => simp [addFunctionRec, treeKey, addIfAbsent_apply]
    | cons m rest =>
      simp only [addFunctionRec, List.length_cons] at hk ⊢
      have e1 := addFunctionRec_long s (m :: rest) t pos k (by simp; omega)
      have eok := addFunctionRec_ok s t pos (m :: rest) (by simp)
      split
      · rename_i t' heq; rw [heq] at eok; simp at eok
      · rename_i t' heq; rw [heq] at e1
        rw [ih (by simp) t' (pos ++ [n]) k (by simp; omega)]
        have e2 : t' k = t k := e1
        rw [e2]
        have : treeKey (pos ++ [n]) (m :: rest) = treeKey pos (n :: m :: rest) := by simp [treeKey]
        rw [this]

theorem tree_fold (add : Spec → Tree → Path → Path → Tree × Bool) (L : Nat)
    (hadd : ∀ s t (k : Path × Name), s.path.length = L → k.1.length + 1 = L →
      (add s t [] s.path).1 k = if k = treeKey [] s.path then some ((t k).getD s) else t k)
    (l : List Spec) (hl : ∀ s ∈ l, s.path.length = L) (k : Path × Name) (hk : k.1.length + 1 = L) :
    ∀ t : Tree, (l.foldl (fun t s => (add s t [] s.path).1) t) k
      = (t k).or (l.find? fun s => treeKey [] s.path = k) := by
  induction l with
  | nil => intro t; simp
  | cons s ss ih =>
    intro t
    simp only [List.foldl_cons, List.find?_cons]
    rw [ih (fun x hx => hl x (by simp [hx])), hadd s t k (hl s (by simp)) hk]
    by_cases h : k = treeKey [] s.path
    · simp [h]
    · have h' : ¬ treeKey [] s.path = k := fun e => h e.symm
      simp [h, h']

theorem treeKey_eq_iff (p q : Path) (hp : p ≠ []) (hq : q ≠ []) :
    treeKey [] p = treeKey [] q ↔ p.map lower = q.map lower := by
  obtain ⟨p', x, rfl⟩ := List.eq_nil_or_concat p |>.resolve_left hp
  obtain ⟨q', y, rfl⟩ := List.eq_nil_or_concat q |>.resolve_left hq
  simp [treeKey]

theorem find_eq (t : Tree) (p : Path) (hp : p ≠ []) : t.find p = t (treeKey [] p) := by
  obtain ⟨p', x, rfl⟩ := List.eq_nil_or_concat p |>.resolve_left hp
  simp [treeKey, Tree.find, Tree.get]

/-- With all table paths of one length, a full path finds the first table whose path it is,
up to case. -/
theorem tables_find (l : List Spec) (L : Nat) (hl : ∀ s ∈ l, s.path.length = L) (p : Path)
    (hp : p.length = L) (h0 : p ≠ []) :
    (addTablesTree Tree.empty l).find p = l.find? fun s => s.path.map lower = p.map lower := by
  have hL : 0 < L := by cases p with | nil => exact absurd rfl h0 | cons _ _ => simp at hp; omega
  have hs0 : ∀ s ∈ l, s.path ≠ [] := by
    intro s hs e; have := hl s hs; rw [e] at this; simp at this; omega
  rw [find_eq _ _ h0, addTablesTree, tree_fold addTableRec L]
  · simp only [Tree.empty, Option.none_or]
    apply find?_congr
    intro s hs
    simp [treeKey_eq_iff s.path p (hs0 s hs) h0]
  · intro s t k hs hk
    exact addTableRec_full s s.path (by intro e; rw [e] at hs; simp at hs; omega) t [] k (by simp; omega)
  · exact hl
  · simp [treeKey]; omega

theorem fns_find (l : List Spec) (L : Nat) (hl : ∀ s ∈ l, s.path.length = L) (p : Path)
    (hp : p.length = L) (h0 : p ≠ []) :
    (addFnsTree Tree.empty l).find p = l.find? fun s => s.path.map lower = p.map lower := by
  have hL : 0 < L := by cases p with | nil => exact absurd rfl h0 | cons _ _ => simp at hp; omega
  have hs0 : ∀ s ∈ l, s.path ≠ [] := by
    intro s hs e; have := hl s hs; rw [e] at this; simp at this; omega
  rw [find_eq _ _ h0, addFnsTree, tree_fold addFunctionRec L]
  · simp only [Tree.empty, Option.none_or]
    apply find?_congr
    intro s hs
    simp [treeKey_eq_iff s.path p (hs0 s hs) h0]
  · intro s t k hs hk
    exact addFunctionRec_full s s.path (by intro e; rw [e] at hs; simp at hs; omega) t [] k (by simp; omega)
  · exact hl
  · simp [treeKey]; omega

end Verif.Catalog
