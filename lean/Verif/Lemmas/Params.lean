import Verif.Model.Params

namespace Verif.Params
open Verif.Go

theorem length_le_of_nodup_subset {α} [DecidableEq α] : ∀ {l m : List α}, l.Nodup → (∀ x ∈ l, x ∈ m) → l.length ≤ m.length
  | [], _, _, _ => by simp
  | x :: xs, m, hn, hs => by
    have hx : x ∈ m := hs x (by simp)
    have hn' := List.nodup_cons.1 hn
    have := length_le_of_nodup_subset (m := m.erase x) hn'.2 (fun y hy => by
      have hne : y ≠ x := fun e => hn'.1 (e ▸ hy)
      exact (List.mem_erase_of_ne hne).2 (hs y (by simp [hy])))
    rw [List.length_erase_of_mem hx] at this
    have : 0 < m.length := List.length_pos_of_mem hx
    simp; omega

theorem getParams_named (ns : List Name) (h : ∀ n ∈ ns, n ≠ []) (seen : List Name) :
    (getParams seen ns).Nodup ∧ (∀ n, n ∈ getParams seen ns ↔ n ∈ ns ∧ n ∉ seen) := by
  induction ns generalizing seen with
  | nil => simp [getParams]
  | cons x xs ih =>
    have hx : x ≠ [] := h x (by simp)
    have hxs : ∀ n ∈ xs, n ≠ [] := fun n hn => h n (by simp [hn])
    simp only [getParams, hx, if_false]
    by_cases hs : x ∈ seen
    · simp only [hs, if_true]
      refine ⟨(ih hxs seen).1, fun n => ?_⟩
      rw [(ih hxs seen).2]
      grind
    · simp only [hs, if_false]
      refine ⟨List.nodup_cons.2 ⟨fun hc => ?_, (ih hxs _).1⟩, fun n => ?_⟩
      · exact ((ih hxs _).2 x).1 hc |>.2 (by simp)
      · rw [List.mem_cons, (ih hxs _).2]
        grind

theorem table_named (ns : List Name) (h : ∀ n ∈ ns, n ≠ []) (acc : List Name) (hacc : acc.Nodup) :
    (table acc ns).Nodup ∧ (∀ n, n ∈ table acc ns ↔ n ∈ acc ∨ n ∈ ns) ∧ ∃ t, table acc ns = acc ++ t := by
  induction ns generalizing acc with
  | nil => exact ⟨hacc, by simp [table], [], by simp [table]⟩
  | cons x xs ih =>
    have hx : x ≠ [] := h x (by simp)
    have hxs : ∀ n ∈ xs, n ≠ [] := fun n hn => h n (by simp [hn])
    simp only [table, hx, ne_eq, not_false_eq_true, true_and]
    by_cases hs : x ∈ acc
    · simp only [hs, if_true]
      obtain ⟨h1, h2, h3⟩ := ih hxs acc hacc
      refine ⟨h1, fun n => ?_, h3⟩
      rw [h2]; grind
    · simp only [hs, if_false]
      have hn : (acc ++ [x]).Nodup := by
        rw [List.nodup_append]
        refine ⟨hacc, by simp, ?_⟩
        intro a ha b hb e
        simp at hb; subst hb; subst e; exact hs ha
      obtain ⟨h1, h2, t, h3⟩ := ih hxs (acc ++ [x]) hn
      refine ⟨h1, fun n => ?_, x :: t, by rw [h3]; simp⟩
      rw [h2]; grind

theorem idxOf_append_mem {n : Name} {a b : List Name} (h : n ∈ a) : (a ++ b).idxOf n = a.idxOf n := by
  rw [List.idxOf_append]; simp [h]

theorem numbers_named (ns : List Name) (h : ∀ n ∈ ns, n ≠ []) (acc : List Name) (hacc : acc.Nodup) :
    numbers acc ns = ns.map fun n => (table acc ns).idxOf n := by
  induction ns generalizing acc with
  | nil => simp [numbers]
  | cons x xs ih =>
    have hx : x ≠ [] := h x (by simp)
    have hxs : ∀ n ∈ xs, n ≠ [] := fun n hn => h n (by simp [hn])
    by_cases hs : x ∈ acc
    · obtain ⟨_, _, t, h3⟩ := table_named xs hxs acc hacc
      simp only [numbers, table, hx, ne_eq, not_false_eq_true, true_and, hs, if_true, List.map_cons, ih hxs acc hacc]
      rw [h3, idxOf_append_mem hs]
    · have hn : (acc ++ [x]).Nodup := by
        rw [List.nodup_append]
        refine ⟨hacc, by simp, ?_⟩
        intro a ha b hb e
        simp at hb; subst hb; subst e; exact hs ha
      obtain ⟨_, _, t, h3⟩ := table_named xs hxs (acc ++ [x]) hn
      simp only [numbers, table, hx, ne_eq, not_false_eq_true, true_and, hs, if_false, List.map_cons, ih hxs _ hn]
      congr 1
      rw [h3, idxOf_append_mem (by simp), List.idxOf_append]
      simp [hs]

theorem idxOf_inj {l : List Name} {a b : Name} (ha : a ∈ l) (hb : b ∈ l) (h : l.idxOf a = l.idxOf b) : a = b := by
  have h1 := List.getElem_idxOf (List.idxOf_lt_length_iff.2 ha)
  have h2 := List.getElem_idxOf (List.idxOf_lt_length_iff.2 hb)
  simp only [h] at h1
  exact h1.symm.trans h2

theorem bindAll_named {V} (tbl : List Name) (args : List (Arg V)) (hne : ∀ a ∈ args, a.name ≠ []) (hin : ∀ a ∈ args, a.name ∈ tbl)
    (hnd : (args.map Arg.name).Nodup) (slots : Nat → Option V) (i : Nat) :
    (∀ a ∈ args, bindAll tbl slots i args (tbl.idxOf a.name) = some a.value) ∧
    (∀ n ∈ tbl, n ∉ args.map Arg.name → bindAll tbl slots i args (tbl.idxOf n) = slots (tbl.idxOf n)) := by
  induction args generalizing slots i with
  | nil => simp [bindAll]
  | cons x xs ih =>
    have hx := hne x (by simp)
    have hxt := hin x (by simp)
    rw [List.map_cons, List.nodup_cons] at hnd
    obtain ⟨h1, h2⟩ := ih (fun a ha => hne a (by simp [ha])) (fun a ha => hin a (by simp [ha])) hnd.2 (bindOne tbl slots i x) (i + 1)
    constructor
    · intro a ha
      simp only [bindAll]
      rw [List.mem_cons] at ha
      rcases ha with rfl | ha
      · rw [h2 _ hxt hnd.1]
        simp [bindOne, hx, hxt]
      · exact h1 a ha
    · intro n hn hnx
      simp only [List.map_cons, List.mem_cons, not_or] at hnx
      simp only [bindAll]
      rw [h2 n hn hnx.2]
      have : tbl.idxOf n ≠ tbl.idxOf x.name := fun e => hnx.1 (idxOf_inj hn hxt e)
      simp [bindOne, hx, hxt, this]

theorem pickAll_of {V} (values : List (Arg V)) (f : Name → V) (ns : List Name) (k : Nat)
    (h : ∀ n ∈ ns, ∃ a, lastNamed values n = some a ∧ lower a.name = n ∧ a.value = f n) (hne : ∀ n ∈ ns, n ≠ []) :
    pickAll values k ns = some (ns.map fun n => ⟨n, f n⟩) := by
  induction ns generalizing k with
  | nil => rfl
  | cons x xs ih =>
    obtain ⟨a, h1, h2, h3⟩ := h x (by simp)
    have hx := hne x (by simp)
    simp only [pickAll, pick, hx, ne_eq, not_false_eq_true, if_true, h1,
      ih (k + 1) (fun n hn => h n (by simp [hn])) (fun n hn => hne n (by simp [hn])), List.map_cons, h2, h3]

theorem filter_unique {V} (values : List (Arg V)) (hd : (values.map fun a => lower a.name).Nodup) (a : Arg V) (ha : a ∈ values) :
    values.filter (fun b => lower b.name = lower a.name) = [a] := by
  induction values with
  | nil => simp at ha
  | cons x xs ih =>
    rw [List.map_cons, List.nodup_cons] at hd
    rw [List.mem_cons] at ha
    rcases ha with rfl | ha
    · rw [List.filter_cons]
      simp
      intro b hb e
      exact hd.1 (by rw [List.mem_map]; exact ⟨b, hb, e⟩)
    · have hx : lower x.name ≠ lower a.name := fun e => hd.1 (by rw [List.mem_map]; exact ⟨a, ha, e.symm⟩)
      rw [List.filter_cons]
      simp [hx]
      simpa using ih hd.2 ha

theorem format_names (e : Expr) (k : Nat) (n : Name) : n ∈ (e.format k).map Prod.snd ↔ n ∈ e.walk := by
  induction e generalizing k with
  | lit => simp [Expr.format, Expr.walk]
  | param m => simp [Expr.format, Expr.walk]
  | app a b iha ihb => simp only [Expr.format, Expr.walk, List.map_append, List.mem_append, iha, ihb]
  | ifnull a b iha ihb => simp only [Expr.format, Expr.walk, List.map_append, List.mem_append, iha, ihb]; grind

/-! ## Positional parameters -/

theorem getParams_pos (m : Nat) (seen : List Name) : getParams seen (List.replicate m []) = List.replicate m [] := by
  induction m with
  | zero => rfl
  | succ m ih => simp [List.replicate_succ, getParams, ih]

theorem table_pos (m : Nat) (acc : List Name) : table acc (List.replicate m []) = acc ++ List.replicate m [] := by
  induction m generalizing acc with
  | zero => simp [table]
  | succ m ih => simp [List.replicate_succ, table, ih]

theorem numbers_pos (m : Nat) (acc : List Name) : numbers acc (List.replicate m []) = List.range' acc.length m := by
  induction m generalizing acc with
  | zero => simp [numbers]
  | succ m ih => simp [List.replicate_succ, numbers, ih, List.range'_succ]

theorem pickAll_pos {V} (values : List (Arg V)) (hu : ∀ a ∈ values, a.name = []) (m k : Nat) (h : k + m ≤ values.length) :
    pickAll values k (List.replicate m []) = some ((values.drop k).take m) := by
  induction m generalizing k with
  | zero => simp [pickAll]
  | succ m ih =>
    have hk : k < values.length := by omega
    simp only [List.replicate_succ, pickAll, pick, ne_eq, not_true_eq_false, if_false, List.getElem?_eq_getElem hk, ih (k + 1) (by omega)]
    have hn := hu _ (List.getElem_mem hk)
    rw [List.drop_eq_getElem_cons hk, List.take_succ_cons]
    congr 2
    cases hv : values[k] with
    | mk n v => rw [hv] at hn; simp at hn; subst hn; rfl

theorem bindAll_pos {V} (tbl : List Name) (args : List (Arg V)) (hu : ∀ a ∈ args, a.name = []) (slots : Nat → Option V) (i k : Nat) :
    bindAll tbl slots i args k = if i ≤ k ∧ k < i + args.length then (args[k - i]?).map Arg.value else slots k := by
  induction args generalizing slots i with
  | nil => simp [bindAll]; omega
  | cons x xs ih =>
    have hx := hu x (by simp)
    simp only [bindAll]
    rw [ih (fun a ha => hu a (by simp [ha])) (bindOne tbl slots i x) (i + 1)]
    simp only [bindOne, hx, ne_eq, not_true_eq_false, if_false, List.length_cons]
    by_cases h1 : k = i
    · subst h1
      simp
      omega
    · by_cases h2 : i + 1 ≤ k ∧ k < i + 1 + xs.length
      · rw [if_pos h2, if_pos (by omega)]
        have : k - i = (k - (i + 1)) + 1 := by omega
        rw [this, List.getElem?_cons_succ]
      · rw [if_neg h2, if_neg h1, if_neg (by omega)]

theorem walk_pos (e : Expr) (h : ∀ n ∈ e.walk, n = []) : e.walk = List.replicate e.walk.length [] :=
  List.eq_replicate_iff.2 ⟨rfl, h⟩

/-- No parameter occurs inside the first argument of IFNULL. -/
def NoRepeat : Expr → Prop
  | .lit | .param _ => True
  | .app a b => NoRepeat a ∧ NoRepeat b
  | .ifnull a b => a.walk = [] ∧ NoRepeat a ∧ NoRepeat b

theorem format_of_empty (e : Expr) (k : Nat) (h : e.walk = []) : e.format k = [] := by
  induction e generalizing k with
  | lit => rfl
  | param n => simp [Expr.walk] at h
  | app a b iha ihb =>
    simp only [Expr.walk, List.append_eq_nil_iff] at h
    simp [Expr.format, iha _ h.1, ihb _ h.2]
  | ifnull a b iha ihb =>
    simp only [Expr.walk, List.append_eq_nil_iff] at h
    simp [Expr.format, iha _ h.1, ihb _ h.2]

theorem format_noRepeat (e : Expr) (k : Nat) (h : NoRepeat e) :
    (e.format k).map Prod.fst = List.range' k e.walk.length ∧ (e.format k).map Prod.snd = e.walk := by
  induction e generalizing k with
  | lit => simp [Expr.format, Expr.walk]
  | param n => simp [Expr.format, Expr.walk]
  | app a b iha ihb =>
    obtain ⟨h1, h2⟩ := iha k h.1
    obtain ⟨h3, h4⟩ := ihb (k + a.walk.length) h.2
    simp [Expr.format, Expr.walk, h1, h2, h3, h4, List.range'_append_1]
  | ifnull a b iha ihb =>
    obtain ⟨h3, h4⟩ := ihb (k + a.walk.length) h.2.2
    simp only [h.1, List.length_nil, Nat.add_zero] at h3 h4
    simp [Expr.format, Expr.walk, h3, h4, h.1, format_of_empty a _ h.1]

end Verif.Params
