import Verif.Model.Window
import Verif.Props.OrderBy
import Verif.Props.AggOptions

/-! # Window lemmas: the window order of a partition -/

namespace Verif.Window

open Go Verif.Val Verif.Sql Verif.Aggregate
open Verif.OrderBy (RowBefore Before Before_irrefl Before_trans Before_total)
open Verif.Logic (All2)

/-- An SQL row under an OVER clause: PARTITION BY values, ORDER BY values and the
argument of the function. -/
structure SRow where
  parts : List (Option Scalar)
  keys : List (Option Scalar)
  value : Val

/-- What reaches the aggregator for it; `flags` says which keys are ASC. -/
def SRow.row (flags : List Bool) (r : SRow) : WRow :=
  { parts := r.parts.map fun p => winKey (ofScalar p)
    keys := List.zipWith (fun k f => ⟨winKey (ofScalar k), f⟩) r.keys flags
    value := r.value }

/-- All rows. -/
def input (flags : List Bool) (rows : List SRow) : List WRow := rows.map (SRow.row flags)

/-- `x` comes strictly before `y` in the window order. -/
def KeysBefore (flags : List Bool) (x y : List (Option Scalar)) : Prop :=
  RowBefore (flags.map fun a => ⟨!a, .unspecified⟩) x y

/-- The rows (by position in the input) whose PARTITION BY values are `p`. -/
def members (rows : List SRow) (p : List (Option Scalar)) : List Nat :=
  (List.range rows.length).filter fun j => decide (rows[j]?.map SRow.parts = some p)

/-- The partition texts tell the partitions apart (C45). -/
def GoodParts (text : Val → Res (List Char)) (rows : List SRow) : Prop :=
  (∀ r ∈ rows, r.parts = []) ∨
  ∃ key : List (Option Scalar) → List Char,
    (∀ r ∈ rows, partitionKey text (r.parts.map fun p => winKey (ofScalar p)) = .ok (key r.parts)) ∧
    ∀ r ∈ rows, ∀ s ∈ rows, key r.parts = key s.parts → r.parts = s.parts

theorem allKeys_eq {text} {flags} {rows : List SRow} {key : List (Option Scalar) → List Char}
    (h : ∀ r ∈ rows, partitionKey text (r.parts.map fun p => winKey (ofScalar p)) = .ok (key r.parts)) :
    allKeys text (input flags rows) = .ok (rows.map fun r => key r.parts) := by
  induction rows with
  | nil => rfl
  | cons r rs ih =>
    have h1 := h r (by simp)
    simp only [input, List.map_cons, allKeys] at *
    rw [show (SRow.row flags r).parts = r.parts.map (fun p => winKey (ofScalar p)) from rfl, h1, Res.bind'_ok,
      ih (fun r hr => h r (by simp [hr])), Res.bind'_ok]

/-- The members of a partition as indexed rows. -/
def memberRows (flags : List Bool) (rows : List SRow) (p : List (Option Scalar)) : List IRow :=
  (index (input flags rows)).filter fun q => decide (rows[q.1]?.map SRow.parts = some p)

theorem index_map_fst (ws : List WRow) : (index ws).map Prod.fst = List.range ws.length := by
  unfold index
  rw [List.map_map]
  have : (Prod.fst ∘ fun (p : WRow × Nat) => (p.2, p.1)) = Prod.snd := rfl
  rw [this, List.range_eq_range', List.zipIdx_map_snd]

theorem mem_index {ws : List WRow} {q : IRow} (h : q ∈ index ws) : ws[q.1]? = some q.2 := by
  unfold index at h
  simp only [List.mem_map] at h
  obtain ⟨⟨w, i⟩, h, rfl⟩ := h
  simpa using List.mem_zipIdx_iff_getElem?.mp h

theorem memberRows_fst (flags rows p) : (memberRows flags rows p).map Prod.fst = members rows p := by
  unfold memberRows members
  rw [← List.length_map (f := SRow.row flags) (as := rows), ← input, ← index_map_fst, List.filter_map]
  rfl

theorem zip_filterMap (flags : List Bool) (rows : List SRow) (key : List (Option Scalar) → List Char) (k : List Char) (n : Nat) :
    ((((input flags rows).zipIdx n).map fun p => (p.2, p.1)).zip (rows.map fun r => key r.parts)).filterMap
      (fun p : IRow × List Char => if p.2 = k then some p.1 else none)
    = (((input flags rows).zipIdx n).map fun p => (p.2, p.1)).filter
        (fun q : IRow => decide ((rows[q.1 - n]?.map fun r => key r.parts) = some k)) := by
  induction rows generalizing n with
  | nil => rfl
  | cons r rs ih =>
    have ih := ih (n + 1)
    simp only [input, List.map_cons, List.zipIdx_cons, List.zip_cons_cons, List.filterMap_cons, List.filter_cons,
      Nat.sub_self, List.getElem?_cons_zero, Option.map_some, Option.some.injEq] at *
    have hc : (((List.map (SRow.row flags) rs).zipIdx (n + 1)).map (fun p => (p.2, p.1))).filter
          (fun q : IRow => decide ((((r :: rs)[q.1 - n]?).map fun r => key r.parts) = some k))
        = (((List.map (SRow.row flags) rs).zipIdx (n + 1)).map (fun p => (p.2, p.1))).filter
          (fun q : IRow => decide ((rs[q.1 - (n + 1)]?.map fun r => key r.parts) = some k)) := by
      apply List.filter_congr
      intro q hq
      simp only [List.mem_map] at hq
      obtain ⟨⟨w, i⟩, hq, rfl⟩ := hq
      have := List.le_snd_of_mem_zipIdx hq
      have e : (w, i).2 - n = ((w, i).2 - (n + 1)) + 1 := by simp at this ⊢; omega
      simp only [e, List.getElem?_cons_succ]
    rw [hc]
    by_cases hk : key r.parts = k <;> simp [hk, ih]

theorem partitionOf_eq {text} {flags : List Bool} {rows : List SRow} (hg : GoodParts text rows) {cur : Nat} {r : SRow}
    (hc : rows[cur]? = some r) :
    partitionOf text (input flags rows) cur = .ok (memberRows flags rows r.parts) := by
  have hmem : ∀ j s, rows[j]? = some s → s ∈ rows := fun j s h => List.mem_of_getElem? h
  unfold partitionOf
  by_cases he : (input flags rows).all (fun r => r.parts.isEmpty) = true
  · rw [if_pos he]
    have hall : ∀ s ∈ rows, s.parts = [] := by
      intro s hs
      simp only [input, List.all_eq_true, List.mem_map, List.isEmpty_iff, forall_exists_index, and_imp] at he
      have := he _ s hs rfl
      simpa [SRow.row] using this
    unfold memberRows
    rw [List.filter_eq_self.mpr]
    intro q hq
    have := mem_index hq
    simp only [input, List.getElem?_map, Option.map_eq_some_iff] at this
    obtain ⟨s, hs, _⟩ := this
    simp [hs, hall s (hmem _ _ hs), hall r (hmem _ _ hc)]
  · rw [if_neg he]
    rcases hg with hg | ⟨key, hk, hinj⟩
    · exfalso; apply he
      simp only [input, List.all_eq_true, List.mem_map, List.isEmpty_iff, forall_exists_index, and_imp]
      rintro _ s hs rfl
      simp [SRow.row, hg s hs]
    · rw [allKeys_eq hk, Res.bind'_ok]
      simp only [List.getElem?_map, hc, Option.map_some]
      congr 1
      have := zip_filterMap flags rows key (key r.parts) 0
      simp only [Nat.sub_zero] at this
      unfold index memberRows
      rw [this]
      apply List.filter_congr
      intro q hq
      have hq' := mem_index (ws := input flags rows) hq
      simp only [input, List.getElem?_map, Option.map_eq_some_iff] at hq'
      obtain ⟨s, hs, _⟩ := hq'
      simp only [hs, Option.map_some, Option.some.injEq, decide_eq_decide]
      exact ⟨hinj _ (hmem _ _ hs) _ (hmem _ _ hc), fun h => by rw [h]⟩

/-! ## The sort -/

/-- Keys that survive the JSON trip: everything but INT64 beyond 2^53. -/
def WinSafe : Option Scalar → Prop
  | none => False
  | some (.int i) => -9007199254740992 < i ∧ i < 9007199254740992
  | some _ => True

theorem winKey_arg {x : Scalar} (h : WinSafe (some x)) : Arg1 (winKey (ofScalar (some x))) x := by
  cases x with
  | int i => simp only [ofScalar, winKey, f64_exact h.1 h.2]; constructor
  | bool b =>
    cases b
    · exact .false
    · exact .true
  | _ => constructor

theorem RowBefore_irrefl (its : List OrderBy.Item) (xs) : ¬ RowBefore its xs xs := by
  induction its generalizing xs with
  | nil => intro h; cases h
  | cons it its ih =>
    intro h
    cases h with
    | here h => exact Before_irrefl _ _ h
    | there h => exact ih _ h

theorem RowBefore_trans {its : List OrderBy.Item} {xs ys zs} (h : RowBefore its xs ys) (h' : RowBefore its ys zs) :
    RowBefore its xs zs := by
  induction h generalizing zs with
  | here h =>
    cases h' with
    | here h' => exact .here (Before_trans _ h h')
    | there h' => exact .here h
  | there h ih =>
    cases h' with
    | here h' => exact .here h'
    | there h' => exact .there (ih h')

theorem RowBefore_cotrans {its : List OrderBy.Item} {xs ys zs} (hx : All2 SameTyN xs zs) (hy : All2 SameTyN ys zs)
    (h : RowBefore its xs ys) : RowBefore its xs zs ∨ RowBefore its zs ys := by
  induction h generalizing zs with
  | @here it its x y xs ys h =>
    cases hx with
    | @cons _ z _ zs hx hxs =>
      cases hy with
      | cons hy hys =>
        rcases Before_total it hx with h1 | h1 | h1
        · exact .inl (.here h1)
        · subst h1; exact .inr (.here h)
        · exact .inr (.here (Before_trans _ h1 h))
  | @there it its x xs ys h ih =>
    cases hx with
    | @cons _ z _ zs hx hxs =>
      cases hy with
      | cons hy hys =>
        rcases Before_total it hx with h1 | h1 | h1
        · exact .inl (.here h1)
        · subst h1
          rcases ih hxs hys with h2 | h2
          · exact .inl (.there h2)
          · exact .inr (.there h2)
        · exact .inr (.here h1)

theorem RowBefore_total {its : List OrderBy.Item} {xs ys} (hl : xs.length = its.length) (h : All2 SameTyN xs ys) :
    RowBefore its xs ys ∨ xs = ys ∨ RowBefore its ys xs := by
  induction its generalizing xs ys with
  | nil =>
    cases h with
    | nil => simp
    | cons => simp at hl
  | cons it its ih =>
    cases h with
    | nil => simp at hl
    | @cons x y xs ys h1 h =>
      rcases Before_total it h1 with h2 | h2 | h2
      · exact .inl (.here h2)
      · subst h2
        rcases ih (by simpa using hl) h with h3 | h3 | h3
        · exact .inl (.there h3)
        · subst h3; simp
        · exact .inr (.inr (.there h3))
      · exact .inr (.inr (.here h2))

/-- On keys that survive, the comparison of `Done` is the window order. -/
theorem lessW_iff {fs : List Bool} {xs ys : List (Option Scalar)} (hx : ∀ x ∈ xs, WinSafe x) (hy : ∀ y ∈ ys, WinSafe y)
    (ht : All2 SameTyN xs ys) :
    lessW fs (xs.map fun k => winKey (ofScalar k)) (ys.map fun k => winKey (ofScalar k)) = true ↔ KeysBefore fs xs ys := by
  unfold KeysBefore
  induction fs generalizing xs ys with
  | nil => simp only [lessW, List.map_nil, Bool.false_eq_true, false_iff]; intro h; cases h
  | cons f fs ih =>
    cases ht with
    | nil => simp only [lessW, List.map_nil, Bool.false_eq_true, false_iff]; intro h; cases h
    | @cons x y xs ys h1 hts =>
      have hx1 := hx x (by simp)
      have hy1 := hy y (by simp)
      obtain _ | x := x
      · exact hx1.elim
      obtain _ | y := y
      · exact hy1.elim
      have ax := winKey_arg hx1
      have ay := winKey_arg hy1
      obtain ⟨e, he, hei⟩ := cmp_scalar .eq ax ay h1
      obtain ⟨a, ha, hai⟩ := cmp_scalar .lt ax ay h1
      obtain ⟨b, hb, hbi⟩ := cmp_scalar .gt ax ay h1
      simp only [List.map_cons, lessW, ax.not_null, ay.not_null, Bool.false_eq_true, if_false, he, ha, hb, okTrue]
      have hstep : RowBefore ((⟨!f, .unspecified⟩ : OrderBy.Item) :: fs.map fun a => ⟨!a, .unspecified⟩) (some x :: xs) (some y :: ys)
          ↔ (if f then Lt x y else Lt y x) ∨ (x = y ∧ RowBefore (fs.map fun a => (⟨!a, .unspecified⟩ : OrderBy.Item)) xs ys) := by
        constructor
        · intro h
          cases h with
          | here h => left; cases f <;> simpa [Before] using h
          | there h => exact .inr ⟨rfl, h⟩
        · rintro (h | ⟨rfl, h⟩)
          · refine .here ?_; cases f <;> simpa [Before] using h
          · exact .there h
      rw [hstep]
      cases e with
      | true =>
        have hxy : x = y := hei.mp rfl
        subst hxy
        simp only [if_true, true_and]
        rw [ih (fun x h => hx x (by simp [h])) (fun y h => hy y (by simp [h])) hts]
        cases f <;> simp [Lt_irrefl]
      | false =>
        have hxy : x ≠ y := fun h => by simpa using hei.mpr h
        simp only [Bool.false_eq_true, if_false, hxy, false_and, or_false]
        cases f
        · simpa [OpHolds] using hbi
        · simpa [OpHolds] using hai

/-- Well-formed ORDER BY keys: one per flag, of the same types in all rows, none NULL,
INT64 keys within 2^53. -/
structure GoodKeys (flags : List Bool) (rows : List SRow) : Prop where
  len : ∀ r ∈ rows, r.keys.length = flags.length
  safe : ∀ r ∈ rows, ∀ k ∈ r.keys, WinSafe k
  ty : ∀ r ∈ rows, ∀ s ∈ rows, All2 SameTyN r.keys s.keys

theorem zipWith_value (ks : List (Option Scalar)) (fs : List Bool) (h : ks.length = fs.length) :
    (List.zipWith (fun k f => (⟨winKey (ofScalar k), f⟩ : OrderKey)) ks fs).map OrderKey.value
      = ks.map (fun k => winKey (ofScalar k)) ∧
    (List.zipWith (fun k f => (⟨winKey (ofScalar k), f⟩ : OrderKey)) ks fs).map OrderKey.isAsc = fs := by
  induction ks generalizing fs with
  | nil => cases fs <;> simp_all
  | cons k ks ih =>
    cases fs with
    | nil => simp at h
    | cons f fs => simpa using ih fs (by simpa using h)

theorem lessRow_iff {flags : List Bool} {rows : List SRow} (hk : GoodKeys flags rows) {i j : Nat} {r s : SRow} (hr : r ∈ rows) (hs : s ∈ rows) :
    lessRow (i, r.row flags) (j, s.row flags) = true ↔ KeysBefore flags r.keys s.keys := by
  unfold lessRow SRow.row
  rw [(zipWith_value _ _ (hk.len r hr)).1, (zipWith_value _ _ (hk.len s hs)).1, (zipWith_value _ _ (hk.len r hr)).2]
  exact lessW_iff (hk.safe r hr) (hk.safe s hs) (hk.ty r hr s hs)

theorem mem_memberRows {flags rows p} {q : IRow} (h : q ∈ memberRows flags rows p) :
    ∃ r, rows[q.1]? = some r ∧ r ∈ rows ∧ q.2 = r.row flags ∧ r.parts = p := by
  unfold memberRows at h
  simp only [List.mem_filter, decide_eq_true_eq] at h
  have := mem_index h.1
  simp only [input, List.getElem?_map, Option.map_eq_some_iff] at this
  obtain ⟨r, hr, e⟩ := this
  refine ⟨r, hr, List.mem_of_getElem? hr, e.symm, ?_⟩
  have h2 := h.2
  rw [hr] at h2
  simpa using h2

theorem strictWeak {flags : List Bool} {rows : List SRow} (hk : GoodKeys flags rows) (p) :
    StrictWeakOn lessRow (memberRows flags rows p) := by
  refine ⟨?_, ?_, ?_⟩
  · intro ⟨i, w⟩ hx
    obtain ⟨r, _, hr, rfl, _⟩ := mem_memberRows hx
    cases h : lessRow (i, r.row flags) (i, r.row flags) with
    | false => rfl
    | true => exact absurd ((lessRow_iff hk hr hr).mp h) (RowBefore_irrefl _ _)
  · intro ⟨i, w⟩ hx ⟨j, v⟩ hy ⟨k, u⟩ hz h1 h2
    obtain ⟨r, _, hr, rfl, _⟩ := mem_memberRows hx
    obtain ⟨s, _, hs, rfl, _⟩ := mem_memberRows hy
    obtain ⟨t, _, ht, rfl, _⟩ := mem_memberRows hz
    rw [lessRow_iff hk hr hs] at h1
    rw [lessRow_iff hk hs ht] at h2
    rw [lessRow_iff hk hr ht]
    exact RowBefore_trans h1 h2
  · intro ⟨i, w⟩ hx ⟨j, v⟩ hy ⟨k, u⟩ hz h1
    obtain ⟨r, _, hr, rfl, _⟩ := mem_memberRows hx
    obtain ⟨s, _, hs, rfl, _⟩ := mem_memberRows hy
    obtain ⟨t, _, ht, rfl, _⟩ := mem_memberRows hz
    rw [lessRow_iff hk hr hs] at h1
    rw [lessRow_iff hk hr ht, lessRow_iff hk ht hs]
    exact RowBefore_cotrans (hk.ty r hr t ht) (hk.ty s hs t ht) h1

/-- The sorted partition. -/
def sortedRows (S : Sorter) (flags : List Bool) (rows : List SRow) (p : List (Option Scalar)) : List IRow :=
  S.sort lessRow (memberRows flags rows p)

/-- The rows of a partition, by position in the input, in the order the code puts them. -/
def windowOrder (S : Sorter) (flags : List Bool) (rows : List SRow) (p : List (Option Scalar)) : List Nat :=
  (sortedRows S flags rows p).map Prod.fst

theorem windowOrder_perm (S flags rows p) : (windowOrder S flags rows p).Perm (members rows p) := by
  rw [← memberRows_fst flags]
  exact (S.perm _ _).map _

theorem nodup_members (rows p) : (members rows p).Nodup := List.Pairwise.filter _ List.nodup_range

theorem windowOrder_nodup (S flags rows p) : (windowOrder S flags rows p).Nodup :=
  (windowOrder_perm S flags rows p).nodup_iff.mpr (nodup_members rows p)

theorem mem_members {rows : List SRow} {p} {j : Nat} : j ∈ members rows p ↔ ∃ r, rows[j]? = some r ∧ r.parts = p := by
  unfold members
  simp only [List.mem_filter, List.mem_range, decide_eq_true_eq, Option.map_eq_some_iff, and_iff_right_iff_imp]
  rintro ⟨r, h, _⟩
  exact (List.getElem?_eq_some_iff.mp h).1

theorem mem_windowOrder {S flags} {rows : List SRow} {p} {j : Nat} :
    j ∈ windowOrder S flags rows p ↔ ∃ r, rows[j]? = some r ∧ r.parts = p := by
  rw [(windowOrder_perm S flags rows p).mem_iff, mem_members]

/-- The window order respects the ORDER BY keys. -/
theorem windowOrder_sorted (S : Sorter) {flags rows} (hk : GoodKeys flags rows) (p) :
    (windowOrder S flags rows p).Pairwise fun i j => ∀ r s, rows[i]? = some r → rows[j]? = some s →
      ¬ KeysBefore flags s.keys r.keys := by
  unfold windowOrder
  rw [List.pairwise_map]
  have h := S.sorted _ _ (strictWeak hk p)
  have hm : ∀ q ∈ sortedRows S flags rows p, q ∈ memberRows flags rows p := fun q hq => (S.perm _ _).mem_iff.mp hq
  refine List.Pairwise.imp_of_mem ?_ h
  intro a b ha hb hab r s hr hs hlt
  obtain ⟨r', hr', hr'm, ea, _⟩ := mem_memberRows (hm a ha)
  obtain ⟨s', hs', hs'm, eb, _⟩ := mem_memberRows (hm b hb)
  rw [hr'] at hr; cases hr
  rw [hs'] at hs; cases hs
  obtain ⟨i, w⟩ := a
  obtain ⟨j, v⟩ := b
  simp only at ea eb
  subst ea eb
  have := (lessRow_iff (i := j) (j := i) hk hs'm hr'm).mpr hlt
  rw [this] at hab; cases hab

theorem sortedRows_get {S flags} {rows : List SRow} {p} {i : Nat} {q : IRow} (h : (sortedRows S flags rows p)[i]? = some q) :
    ∃ r, rows[q.1]? = some r ∧ q.2 = r.row flags ∧ r.parts = p := by
  have hq := (S.perm _ _).mem_iff.mp (List.mem_of_getElem? h)
  obtain ⟨r, h1, _, h2, h3⟩ := mem_memberRows hq
  exact ⟨r, h1, h2, h3⟩

theorem findIdx?_fst {qs : List IRow} (hn : (qs.map Prod.fst).Nodup) {i cur : Nat} (h : (qs.map Prod.fst)[i]? = some cur) :
    qs.findIdx? (fun r => decide (r.1 = cur)) = some i := by
  induction qs generalizing i with
  | nil => simp at h
  | cons q qs ih =>
    simp only [List.map_cons, List.nodup_cons] at hn
    rw [List.findIdx?_cons]
    cases i with
    | zero => simp at h; simp [h]
    | succ i =>
      simp only [List.map_cons, List.getElem?_cons_succ] at h
      have hne : q.1 ≠ cur := by
        rintro rfl
        exact hn.1 (List.mem_of_getElem? h)
      simp only [hne, decide_false, Bool.false_eq_true, if_false, ih hn.2 h, Option.map_some]

/-- `currentIndex` finds the position of the current row. -/
theorem currentIndex_eq {S flags} {rows : List SRow} {p} {i cur : Nat} (h : (windowOrder S flags rows p)[i]? = some cur) :
    currentIndex (sortedRows S flags rows p) cur = .ok i := by
  unfold currentIndex
  rw [findIdx?_fst (windowOrder_nodup S flags rows p) h]

/-- `Done` as a function of the window order. -/
theorem done_eq {S : Sorter} {text} {flags} {rows : List SRow} (hg : GoodParts text rows) {cur : Nat} {r : SRow}
    (hc : rows[cur]? = some r) (u : FrameUnit) (b e : Boundary) :
    done S text u b e (input flags rows) ((cur : Int) + 1) =
      (boundaryIndex u (sortedRows S flags rows r.parts) cur (r.row flags) b).bind fun start =>
      (boundaryIndex u (sortedRows S flags rows r.parts) cur (r.row flags) e).bind fun stop =>
      if start ≥ (sortedRows S flags rows r.parts).length ∨ stop < 0 then .ok none
      else .ok (some ((sortedRows S flags rows r.parts), (if start < 0 then 0 else start),
        (if stop ≥ (sortedRows S flags rows r.parts).length then ((sortedRows S flags rows r.parts).length : Int) - 1 else stop))) := by
  unfold done
  rw [if_neg (by omega)]
  have e1 : ((cur : Int) + 1 - 1).toNat = cur := by omega
  rw [e1]
  have e2 : (input flags rows)[cur]? = some (r.row flags) := by simp [input, hc]
  simp only [e2, partitionOf_eq hg hc, Res.bind'_ok]
  rfl

theorem position_eq {S : Sorter} {text} {flags} {rows : List SRow} (hg : GoodParts text rows) {cur : Nat} {r : SRow}
    (hc : rows[cur]? = some r) {i : Nat} (hi : (windowOrder S flags rows r.parts)[i]? = some cur) :
    position S text (input flags rows) ((cur : Int) + 1) = .ok (some (sortedRows S flags rows r.parts, (i : Int))) := by
  have hlt : i < (sortedRows S flags rows r.parts).length := by
    have := (List.getElem?_eq_some_iff.mp hi).1
    simpa [windowOrder] using this
  unfold position
  rw [done_eq hg hc]
  simp only [boundaryIndex, currentIndex_eq hi, Res.bind'_ok]
  rw [if_neg (by omega), if_neg (by omega)]
  rfl

end Verif.Window
