import Verif.Props.Window

/-! # C37, C39: NULL sort keys, and how the options of an aggregate are recorded -/

namespace Verif.Aggregate

open Go Verif.Val Verif.Sql
open Verif.OrderBy (Before Before_irrefl Before_trans Before_total)

/-- C38: the options of an aggregate call are recorded whatever their order: DISTINCT and IGNORE NULLS if present, the
ORDER BY keys in the order given, the last LIMIT. -/
theorem C38_recorded (os : List OptArg) :
    let o := os.foldl AggOpt.set {}
    (o.distinct = true ↔ ∃ x ∈ os, x = .distinct) ∧ (o.ignoreNulls = true ↔ ∃ x ∈ os, x = .ignoreNulls) ∧
    o.orderBy = os.filterMap (fun | .orderBy k => some k | _ => none) ∧
    o.limit = (os.filterMap (fun | .limit n => some n | _ => none)).getLast? := by
  have key : ∀ (os : List OptArg) (o : AggOpt),
      let o' := os.foldl AggOpt.set o
      (o'.distinct = true ↔ o.distinct = true ∨ ∃ x ∈ os, x = .distinct) ∧
      (o'.ignoreNulls = true ↔ o.ignoreNulls = true ∨ ∃ x ∈ os, x = .ignoreNulls) ∧
      o'.orderBy = o.orderBy ++ os.filterMap (fun | .orderBy k => some k | _ => none) ∧
      o'.limit = ((o.limit.toList ++ os.filterMap (fun | .limit n => some n | _ => none)).getLast?) := by
    intro os
    induction os with
    | nil => intro o; refine ⟨by simp, by simp, by simp, ?_⟩; simp only [List.foldl_nil]; cases o.limit <;> simp
    | cons x os ih =>
      intro o
      obtain ⟨h1, h2, h3, h4⟩ := ih (o.set x)
      refine ⟨?_, ?_, ?_, ?_⟩
      · simp only [List.foldl_cons]; rw [h1]; cases x <;> simp [AggOpt.set]
      · simp only [List.foldl_cons]; rw [h2]; cases x <;> simp [AggOpt.set]
      · simp only [List.foldl_cons]; rw [h3]; cases x <;> simp [AggOpt.set]
      · simp only [List.foldl_cons]; rw [h4]
        cases x <;> simp only [AggOpt.set, List.filterMap_cons]
        rename_i n
        cases o.limit with
        | none => rfl
        | some m => simp [Option.toList]
  have := key os {}
  simpa using this

/-- A row of ARRAY_AGG(v ORDER BY k DESC) whose key may be NULL. -/
structure NRow where
  value : Val
  key : Option Scalar

/-- Its options. -/
def NRow.arg (ratText : Rat → List Char) (asc : Bool) (limit : Option Nat) (r : NRow) : Val × AggOpt :=
  (r.value, { limit := limit.map Int.ofNat, orderBy := [⟨jsonKey ratText (ofScalar r.key), asc⟩] })

/-- C37 with NULL keys: a single descending key puts the NULLs last, as SQL prescribes. -/
theorem C37_null_desc (ratText : Rat → List Char) (rows : List NRow) (limit : Option Nat) (out : Res Val)
    (h1 : ∀ r ∈ rows, r.value.isNull = false) (h2 : ∀ r ∈ rows, ∀ s ∈ rows, SameTyN r.key s.key)
    (h3 : ∀ r ∈ rows, ∀ k, r.key = some k → SafeKey k) (ho : ArrayAgg (rows.map (NRow.arg ratText false limit)) out) :
    ∃ sorted, List.Perm sorted rows ∧ sorted.Pairwise (fun a b => ¬ Before ⟨true, .unspecified⟩ b.key a.key) ∧
      out = .ok (.arr ((match limit with | none => sorted | some n => sorted.take n).map NRow.value)) := by
  refine arrayAgg_order NRow.value (NRow.arg ratText false limit) (fun a b => Before ⟨true, .unspecified⟩ a.key b.key) rows limit out
    (fun r hr => ⟨rfl, h1 r hr⟩) (fun r hr => ⟨rfl, by simp [NRow.arg]⟩) ?_ ?_ ho
  · intro r _ a ha b hb
    have ht := h2 a ha b hb
    have h3a := h3 a ha
    have h3b := h3 b hb
    simp only [NRow.arg, List.map_cons, List.map_nil]
    cases hka : a.key with
    | none =>
      simp only [ofScalar, jsonKey, less, Val.isNull, if_true, Before]
      cases b.key <;> simp
    | some x =>
      have ax := jsonKey_safe (ratText := ratText) (h3a x hka)
      cases hkb : b.key with
      | none =>
        simp only [less, ax.not_null, show (jsonKey ratText (ofScalar none)).isNull = true from rfl, if_true, Before]
        simp
      | some y =>
        have ay := jsonKey_safe (ratText := ratText) (h3b y hkb)
        rw [hka, hkb] at ht
        rw [less_iff (xs := [x]) (ys := [y]) (.cons ax .nil) (.cons ay .nil) ⟨ht, trivial⟩]
        simp [KeyLt, Before]
  · refine ⟨fun a _ => Before_irrefl _ _, fun a _ b _ c _ => Before_trans _, ?_⟩
    intro a ha b hb c hc h
    rcases Before_total ⟨true, .unspecified⟩ (h2 a ha c hc) with h' | h' | h'
    · exact .inl h'
    · rw [h'] at h; exact .inr h
    · exact .inr (Before_trans _ h' h)

/-- The key types and values of the hypotheses: three rows, two of them with a NULL key. -/
example : ∀ r ∈ [NRow.mk (.int 1) none, ⟨.int 2, some (.int 5)⟩, ⟨.int 3, none⟩], ∀ k, r.key = some k → SafeKey k := by
  intro r hr k hk
  simp at hr
  rcases hr with rfl | rfl | rfl <;> simp at hk
  subst hk; simp [SafeKey]

/-- With an ascending NULL key the comparison is not an order at all, a row being less than itself, so that
`sort.Slice` promises nothing; it does put the NULL before any other key. -/
theorem C37_null_asc_counterexample (fs : List Bool) (ks ls : List Val) :
    less (true :: fs) (.null :: ks) (.null :: ks) = true ∧
    ∀ v, less (true :: fs) (.null :: ks) (v :: ls) = true ∧ (v.isNull = false → less (true :: fs) (v :: ls) (.null :: ks) = false) := by
  refine ⟨rfl, fun v => ⟨rfl, fun h => ?_⟩⟩
  simp [less, h, show Val.null.isNull = true from rfl]

end Verif.Aggregate

namespace Verif.Window

open Go Verif.Val Verif.Sql Verif.Aggregate
open Verif.Logic (All2)

/-- With a NULL ORDER BY key the comparison of the window's sort is not an order, ascending or descending, and it wants
NULLs first even in descending order. -/
theorem C39_null_key_counterexample (asc : Bool) (fs : List Bool) (ks ls : List Val) :
    lessW (asc :: fs) (.null :: ks) (.null :: ks) = true ∧
    ∀ v, lessW (asc :: fs) (.null :: ks) (v :: ls) = true ∧ (v.isNull = false → lessW (asc :: fs) (v :: ls) (.null :: ks) = false) := by
  refine ⟨rfl, fun v => ⟨rfl, fun h => ?_⟩⟩
  simp [lessW, h, show Val.null.isNull = true from rfl]

/-- The rows of the next theorem: a NULL key and the key 1. -/
def nullRows : List SRow := [⟨[], [none], .null⟩, ⟨[], [some (.int 1)], .null⟩]

open Classical in
/-- A sort that keeps its promise and otherwise applies `f`. -/
noncomputable def otherSorter (f : {α : Type} → List α → List α) (hf : ∀ {α : Type} (xs : List α), (f xs).Perm xs) : Sorter where
  sort r xs := if StrictWeakOn r xs then mergeSorter.sort r xs else f xs
  perm r xs := by
    split
    · exact mergeSorter.perm r xs
    · exact hf xs
  sorted r xs h := by
    rw [if_pos h]; exact mergeSorter.sorted r xs h

/-- So what `sort.Slice` is documented to do does not fix the place of the NULL row: a sort that is right on orders
may number these two rows wrongly, in either direction. -/
theorem C39_null_key_unspecified (text : Val → Res (List Char)) (asc : Bool) : ∃ S : Sorter, ¬ RowNumbers S text [asc] nullRows := by
  have hg : GoodParts text nullRows := .inl (by simp [nullRows])
  have hm : members nullRows [] = [0, 1] := by decide
  have hsw : ¬ StrictWeakOn lessRow (memberRows [asc] nullRows []) := by
    intro h
    have hmem : (0, SRow.row [asc] ⟨[], [none], .null⟩) ∈ memberRows [asc] nullRows [] := by
      simp [memberRows, index, input, nullRows, List.zipIdx]
    have := h.irrefl _ hmem
    simp [lessRow, SRow.row, winKey, ofScalar, lessW, Val.isNull] at this
  have hfst := memberRows_fst [asc] nullRows []
  -- the two sorts
  have hid : windowOrder (otherSorter (fun xs => xs) (fun _ => .rfl)) [asc] nullRows [] = [0, 1] := by
    simp only [windowOrder, sortedRows, otherSorter, if_neg hsw, hfst, hm]
  have hrev : windowOrder (otherSorter (fun xs => xs.reverse) (fun xs => List.reverse_perm xs)) [asc] nullRows [] = [1, 0] := by
    simp only [windowOrder, sortedRows, otherSorter, if_neg hsw, List.map_reverse, hfst, hm]
    rfl
  have hnum : ∀ (S : Sorter) (a b : Nat), windowOrder S [asc] nullRows [] = [a, b] → RowNumbers S text [asc] nullRows →
      WindowOrder [asc] nullRows [] [a, b] := by
    intro S a b hW h
    obtain ⟨W, hWo, hN⟩ := h []
    have hrow : ∀ (i j : Nat), ([a, b] : List Nat)[i]? = some j → rowNumber S text (input [asc] nullRows) ((j : Int) + 1) = .ok (.int (i + 1)) := by
      intro i j hij
      rw [← hW] at hij
      obtain ⟨r, hr, hp⟩ := mem_windowOrder.mp (List.mem_of_getElem? hij)
      rw [← hp] at hij
      unfold rowNumber
      rw [position_eq hg hr hij, Res.bind'_ok]
    have hp1 : ([a, b] : List Nat).Perm (members nullRows []) := by rw [← hW]; exact windowOrder_perm _ _ _ _
    have hlen : W.length = 2 := by rw [hWo.perm.length_eq, hm]; rfl
    match W, hlen with
    | [c, d], _ =>
      have hc : c ∈ [a, b] := by rw [hp1.mem_iff, ← hWo.perm.mem_iff]; simp
      have hd : d ∈ [a, b] := by rw [hp1.mem_iff, ← hWo.perm.mem_iff]; simp
      have n1 := hN 0 c rfl
      have n2 := hN 1 d rfl
      have m1 := hrow 0 a rfl
      have m2 := hrow 1 b rfl
      have e1 : c = a := by
        simp only [List.mem_cons, List.not_mem_nil, or_false] at hc
        rcases hc with rfl | rfl
        · rfl
        · rw [m2] at n1; simp at n1
      have e2 : d = b := by
        simp only [List.mem_cons, List.not_mem_nil, or_false] at hd
        rcases hd with rfl | rfl
        · rw [m1] at n2; simp at n2
        · rfl
      subst e1 e2
      exact hWo
  cases asc with
  | true =>
    refine ⟨otherSorter (fun xs => xs.reverse) (fun xs => List.reverse_perm xs), fun h => ?_⟩
    have := (hnum _ 1 0 hrev h).sorted
    simp only [List.pairwise_cons, List.mem_singleton, forall_eq] at this
    exact this.1 _ _ rfl rfl (.here (by simp [OrderBy.Before]))
  | false =>
    refine ⟨otherSorter (fun xs => xs) (fun _ => .rfl), fun h => ?_⟩
    have := (hnum _ 0 1 hid h).sorted
    simp only [List.pairwise_cons, List.mem_singleton, forall_eq] at this
    exact this.1 _ _ rfl rfl (.here (by simp [OrderBy.Before]))

end Verif.Window
