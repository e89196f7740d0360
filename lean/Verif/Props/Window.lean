import Verif.Lemmas.Window

/-! # C39, C41, C42, C44, C45: window functions -/

namespace Verif.Window

open Go Verif.Val Verif.Sql Verif.Aggregate
open Verif.Logic (All2)

/-- Rows as a query delivers them: one key per flag, the same types in every row. -/
structure Typed (flags : List Bool) (rows : List SRow) : Prop where
  len : ∀ r ∈ rows, r.keys.length = flags.length
  ty : ∀ r ∈ rows, ∀ s ∈ rows, All2 SameTyN r.keys s.keys ∧ All2 SameTyN r.parts s.parts

/-- `W` is an order of the partition `p` that the ORDER BY clause allows. -/
structure WindowOrder (flags : List Bool) (rows : List SRow) (p : List (Option Scalar)) (W : List Nat) : Prop where
  perm : W.Perm (members rows p)
  sorted : W.Pairwise fun i j => ∀ r s, rows[i]? = some r → rows[j]? = some s → ¬ KeysBefore flags s.keys r.keys

theorem windowOrder_ok (S : Sorter) {flags rows} (hk : GoodKeys flags rows) (p) :
    WindowOrder flags rows p (windowOrder S flags rows p) :=
  ⟨windowOrder_perm S flags rows p, windowOrder_sorted S hk p⟩

/-! ## C45 -/

/-- C45: the rows the code puts into the partition of a row are those with the same
PARTITION BY values (SQL: NULL partition values are equal to each other). -/
def C45_full (text : Val → Res (List Char)) : Prop :=
  ∀ (flags : List Bool) (rows : List SRow), Typed flags rows → ∀ (cur : Nat) (r : SRow), rows[cur]? = some r →
    ∃ qs, partitionOf text (input flags rows) cur = .ok qs ∧ qs.map Prod.fst = members rows r.parts

/-- A NULL partition value is a nil dereference. -/
theorem C45_null (text : Val → Res (List Char)) (S : Sorter) :
    rowNumber S text (input [] [⟨[none], [], .null⟩]) 1 = .panic := rfl

theorem C45_full_false (text : Val → Res (List Char)) : ¬ C45_full text := by
  intro h
  obtain ⟨qs, h1, _⟩ := h [] [⟨[none], [], .null⟩] ⟨by simp, by simp; exact ⟨.nil, .cons trivial .nil⟩⟩ 0 _ rfl
  have : partitionOf text (input [] [⟨[none], [], .null⟩]) 0 = .panic := rfl
  rw [this] at h1; cases h1

/-- Without any NULL: ('a_b', 'c') and ('a', 'b_c') share a partition. -/
theorem C45_collision (other : Val → Res (List Char)) :
    let rows : List SRow := [⟨[some (.str "a_b".toList), some (.str "c".toList)], [], .null⟩,
      ⟨[some (.str "a".toList), some (.str "b_c".toList)], [], .null⟩]
    ∃ qs, partitionOf (toText other) (input [] rows) 0 = .ok qs ∧ qs.map Prod.fst = [0, 1] := ⟨_, rfl, rfl⟩

/-- C45, part: any partition texts that tell the values apart (`GoodParts`, see
`goodParts_string` and `goodParts_columns`). -/
theorem C45_partial {text : Val → Res (List Char)} {flags : List Bool} {rows : List SRow} (hg : GoodParts text rows)
    (cur : Nat) (r : SRow) (hc : rows[cur]? = some r) :
    ∃ qs, partitionOf text (input flags rows) cur = .ok qs ∧ qs.map Prod.fst = members rows r.parts :=
  ⟨_, partitionOf_eq hg hc, memberRows_fst _ _ _⟩

/-- PARTITION BY one STRING column never mixes partitions. -/
theorem goodParts_string (other : Val → Res (List Char)) (rows : List SRow) (h : ∀ r ∈ rows, ∃ s, r.parts = [some (.str s)]) :
    GoodParts (toText other) rows := by
  refine .inr ⟨fun p => match p with | [some (.str s)] => s | _ => [], ?_, ?_⟩
  · intro r hr
    obtain ⟨s, hs⟩ := h r hr
    rw [hs]; rfl
  · intro r hr s hs he
    obtain ⟨a, ha⟩ := h r hr
    obtain ⟨b, hb⟩ := h s hs
    rw [ha, hb] at he ⊢
    simp only at he
    rw [he]

theorem join_injective {ts us : List (List Char)} (hl : ts.length = us.length) (ht : ∀ t ∈ ts, '_' ∉ t) (hu : ∀ u ∈ us, '_' ∉ u)
    (h : join ['_'] ts = join ['_'] us) : ts = us := by
  induction ts generalizing us with
  | nil => cases us <;> simp_all
  | cons t ts ih =>
    cases us with
    | nil => simp at hl
    | cons u us =>
      have key : ∀ (a b : List Char) (x y : List Char), '_' ∉ a → '_' ∉ b → a ++ '_' :: x = b ++ '_' :: y → a = b ∧ x = y := by
        intro a
        induction a with
        | nil =>
          intro b x y _ hb h
          cases b with
          | nil => simpa using h
          | cons c b => simp at h hb; exact absurd h.1 hb.1
        | cons c a ih =>
          intro b x y ha hb h
          cases b with
          | nil => simp at h ha; exact absurd h.1.symm ha.1
          | cons d b =>
            simp at h ha hb
            obtain ⟨e1, e2⟩ := ih b x y ha.2 hb.2 h.2
            exact ⟨by rw [h.1, e1], e2⟩
      cases ts with
      | nil =>
        cases us with
        | nil => simpa [join] using h
        | cons => simp at hl
      | cons t2 ts =>
        cases us with
        | nil => simp at hl
        | cons u2 us =>
          simp only [join, List.append_assoc, List.singleton_append, List.cons_append, List.nil_append] at h
          obtain ⟨e1, e2⟩ := key _ _ _ _ (ht t (by simp)) (hu u (by simp)) h
          rw [e1, ih (by simpa using hl) (fun t h => ht t (by simp [h])) (fun u h => hu u (by simp [h])) e2]

/-- PARTITION BY any number of non-NULL columns whose texts are injective and free of
underscores. -/
theorem goodParts_columns (text : Val → Res (List Char)) (tx : Scalar → List Char) (n : Nat) (rows : List SRow)
    (hlen : ∀ r ∈ rows, r.parts.length = n)
    (hok : ∀ r ∈ rows, ∀ p ∈ r.parts, ∃ x, p = some x ∧ text (winKey (ofScalar p)) = .ok (tx x) ∧ '_' ∉ tx x)
    (hinj : ∀ r ∈ rows, ∀ s ∈ rows, ∀ x y, some x ∈ r.parts → some y ∈ s.parts → tx x = tx y → x = y) :
    GoodParts text rows := by
  have keyOk : ∀ ps : List (Option Scalar), (∀ p ∈ ps, ∃ x, p = some x ∧ text (winKey (ofScalar p)) = .ok (tx x) ∧ '_' ∉ tx x) →
      partitionTexts text (ps.map fun p => winKey (ofScalar p)) = .ok (ps.map fun p => (p.map tx).getD []) := by
    intro ps h
    induction ps with
    | nil => rfl
    | cons p ps ih =>
      obtain ⟨x, rfl, h2, _⟩ := h p (by simp)
      have hn : (winKey (ofScalar (some x))).isNull = false := by cases x <;> rfl
      simp only [List.map_cons, partitionTexts, hn, Bool.false_eq_true, if_false, h2, Res.bind'_ok,
        ih (fun p hp => h p (by simp [hp])), Option.map_some, Option.getD_some]
  refine .inr ⟨fun ps => join ['_'] (ps.map fun p => (p.map tx).getD []), ?_, ?_⟩
  · intro r hr
    unfold partitionKey
    rw [keyOk _ (hok r hr), Res.bind'_ok]
  · intro r hr s hs he
    have hno : ∀ r ∈ rows, ∀ t ∈ r.parts.map (fun p => (p.map tx).getD []), '_' ∉ t := by
      intro r hr t ht
      simp only [List.mem_map] at ht
      obtain ⟨p, hp, rfl⟩ := ht
      obtain ⟨x, rfl, _, h3⟩ := hok r hr p hp
      simpa using h3
    have := join_injective (by simp [hlen r hr, hlen s hs]) (hno r hr) (hno s hs) he
    have gen : ∀ ps qs : List (Option Scalar), (∀ p ∈ ps, p.isSome) → (∀ q ∈ qs, q.isSome) →
        (∀ x y, some x ∈ ps → some y ∈ qs → tx x = tx y → x = y) →
        ps.map (fun p => (p.map tx).getD []) = qs.map (fun p => (p.map tx).getD []) → ps = qs := by
      intro ps
      induction ps with
      | nil => intro qs _ _ _ h; cases qs <;> simp_all
      | cons p ps ih =>
        intro qs h1 h2 h3 h
        cases qs with
        | nil => simp at h
        | cons q qs =>
          have hp := h1 p (by simp)
          have hq := h2 q (by simp)
          obtain ⟨x, rfl⟩ := Option.isSome_iff_exists.mp hp
          obtain ⟨y, rfl⟩ := Option.isSome_iff_exists.mp hq
          simp only [List.map_cons, Option.map_some, Option.getD_some, List.cons.injEq] at h
          rw [h3 x y (by simp) (by simp) h.1,
            ih qs (fun p hp => h1 p (by simp [hp])) (fun q hq => h2 q (by simp [hq]))
              (fun x y hx hy => h3 x y (by simp [hx]) (by simp [hy])) h.2]
    refine gen _ _ ?_ ?_ (hinj r hr s hs) this
    · intro p hp; obtain ⟨x, rfl, _⟩ := hok r hr p hp; rfl
    · intro p hp; obtain ⟨x, rfl, _⟩ := hok s hs p hp; rfl

/-- PARTITION BY any number of INT64 columns, with integers that are float64 values (all up to 2^53 are), never mixes partitions. -/
theorem goodParts_ints (other : Val → Res (List Char)) (n : Nat) (rows : List SRow) (hlen : ∀ r ∈ rows, r.parts.length = n)
    (h : ∀ r ∈ rows, ∀ p ∈ r.parts, ∃ i, p = some (.int i) ∧ f64 i = i) : GoodParts (toText other) rows := by
  refine goodParts_columns (toText other) (fun x => match x with
    | .int i => decInt i
    | _ => []) n rows hlen ?_ ?_
  · intro r hr p hp
    obtain ⟨i, rfl, hi⟩ := h r hr p hp
    refine ⟨_, rfl, ?_, ?_⟩
    · simp only [ofScalar, winKey, toText, hi]
    · intro hc
      rcases decInt_chars i _ hc with h | h <;> revert h <;> decide
  · intro r hr s hs x y hx hy he
    obtain ⟨i, hi, _⟩ := h r hr _ hx
    obtain ⟨j, hj, _⟩ := h s hs _ hy
    cases hi; cases hj
    rw [decInt_injective he]

/-- Larger integers share a partition with their neighbours: 2^53 and 2^53 + 1. -/
theorem C45_wide (other : Val → Res (List Char)) :
    let rows : List SRow := [⟨[some (.int 9007199254740992)], [], .null⟩, ⟨[some (.int 9007199254740993)], [], .null⟩]
    ∃ qs, partitionOf (toText other) (input [] rows) 0 = .ok qs ∧ qs.map Prod.fst = [0, 1] := ⟨_, rfl, rfl⟩

/-- Two columns. -/
example (other : Val → Res (List Char)) : GoodParts (toText other)
    [⟨[some (.int 1), some (.int 20)], [], .null⟩, ⟨[some (.int (-7)), some (.int 20)], [], .null⟩] :=
  goodParts_ints other 2 _ (by simp) (by
    intro r hr p hp
    simp only [List.mem_cons, List.not_mem_nil, or_false] at hr
    rcases hr with rfl | rfl <;> simp only [List.mem_cons, List.not_mem_nil, or_false] at hp <;> rcases hp with rfl | rfl
    · exact ⟨1, rfl, by decide⟩
    · exact ⟨20, rfl, by decide⟩
    · exact ⟨-7, rfl, by decide⟩
    · exact ⟨20, rfl, by decide⟩)

/-! ## C39 -/

/-- ROW_NUMBER numbers every partition 1..n along an order its ORDER BY allows. -/
def RowNumbers (S : Sorter) (text : Val → Res (List Char)) (flags : List Bool) (rows : List SRow) : Prop :=
  ∀ p, ∃ W, WindowOrder flags rows p W ∧
    ∀ (i j : Nat), W[i]? = some j → rowNumber S text (input flags rows) ((j : Int) + 1) = .ok (.int (i + 1))

/-- C39 as stated. -/
def C39_full (S : Sorter) (text : Val → Res (List Char)) : Prop :=
  ∀ flags rows, Typed flags rows → RowNumbers S text flags rows

theorem C39_full_false (S : Sorter) (text : Val → Res (List Char)) : ¬ C39_full S text := by
  intro h
  obtain ⟨W, ⟨hp, _⟩, hW⟩ := h [] [⟨[none], [], .null⟩] ⟨by simp, by simp; exact ⟨.nil, .cons trivial .nil⟩⟩ [none]
  have : members [⟨[none], [], .null⟩] [none] = [0] := by decide
  rw [this, List.perm_singleton] at hp
  subst hp
  have := hW 0 0 rfl
  rw [show ((0 : Nat) : Int) + 1 = 1 from rfl, C45_null] at this
  cases this

/-- C39, part: partitions that are told apart and keys that survive the JSON trip
(no NULL, INT64 within 2^53). -/
theorem C39_partial (S : Sorter) (text : Val → Res (List Char)) (flags : List Bool) (rows : List SRow)
    (hg : GoodParts text rows) (hk : GoodKeys flags rows) : RowNumbers S text flags rows := by
  intro p
  refine ⟨windowOrder S flags rows p, windowOrder_ok S hk p, ?_⟩
  intro i j h
  obtain ⟨r, hr, rfl⟩ := mem_windowOrder.mp (List.mem_of_getElem? h)
  unfold rowNumber
  rw [position_eq hg hr h, Res.bind'_ok]

/-- A witness: three rows in two partitions. -/
example (S : Sorter) (other : Val → Res (List Char)) : RowNumbers S (toText other) [false]
    [⟨[some (.str ['x'])], [some (.int 3)], .null⟩, ⟨[some (.str ['y'])], [some (.int 1)], .null⟩,
     ⟨[some (.str ['x'])], [some (.int 7)], .null⟩] := by
  refine C39_partial _ _ _ _ (goodParts_string _ _ (by simp)) ⟨by simp, by simp [WinSafe], ?_⟩
  intro r hr s hs
  simp only [List.mem_cons, List.not_mem_nil, or_false] at hr hs
  rcases hr with rfl | rfl | rfl <;> rcases hs with rfl | rfl | rfl <;> exact .cons trivial .nil

/-- Whatever the keys (NULLs included), distinct rows of a partition get distinct
numbers in 1..n. -/
theorem C39_bijection (S : Sorter) (text : Val → Res (List Char)) (flags : List Bool) (rows : List SRow)
    (hg : GoodParts text rows) (p : List (Option Scalar)) :
    ∃ W : List Nat, W.Perm (members rows p) ∧
      ∀ (i j : Nat), W[i]? = some j → rowNumber S text (input flags rows) ((j : Int) + 1) = .ok (.int (i + 1)) := by
  refine ⟨windowOrder S flags rows p, windowOrder_perm _ _ _ _, ?_⟩
  intro i j h
  obtain ⟨r, hr, rfl⟩ := mem_windowOrder.mp (List.mem_of_getElem? h)
  unfold rowNumber
  rw [position_eq hg hr h, Res.bind'_ok]

/-! ## C42 -/

/-- Position `pos` is not before the start bound of a ROWS frame of the row at `i`. -/
def lowerOk (i pos : Int) : Boundary → Prop
  | .unboundedPreceding => True
  | .preceding n => i - n ≤ pos
  | .current => i ≤ pos
  | .following n => i + n ≤ pos
  | .unboundedFollowing => False

/-- Position `pos` is not after the end bound. -/
def upperOk (i pos : Int) : Boundary → Prop
  | .unboundedPreceding => False
  | .preceding n => pos ≤ i - n
  | .current => pos ≤ i
  | .following n => pos ≤ i + n
  | .unboundedFollowing => True

instance (i pos b) : Decidable (lowerOk i pos b) := by cases b <;> unfold lowerOk <;> infer_instance
instance (i pos b) : Decidable (upperOk i pos b) := by cases b <;> unfold upperOk <;> infer_instance

/-- What SQL prescribes for ROWS BETWEEN b AND e at position `i` of the ordered partition
`W`: the rows at the positions between the bounds. -/
def rowsFrame (W : List Nat) (b e : Boundary) (i : Int) : List Nat :=
  (W.zipIdx.filter fun q => decide (lowerOk i q.2 b ∧ upperOk i q.2 e)).map Prod.fst

/-- The argument of the function in row `j`. -/
def valueAt (rows : List SRow) (j : Nat) : Val := (rows[j]?.map SRow.value).getD .null

/-- The frames SQL's grammar allows. -/
def Grammatical (b e : Boundary) : Prop := b ≠ .unboundedFollowing ∧ e ≠ .unboundedPreceding

/-- C42 as stated: every aggregate over every ROWS frame. -/
def C42_full (S : Sorter) (text : Val → Res (List Char)) : Prop :=
  ∀ flags rows, GoodParts text rows → GoodKeys flags rows → ∀ p, ∃ W, WindowOrder flags rows p W ∧
    ∀ (b e : Boundary), Grammatical b e → ∀ (f : Fn) (i j : Nat), W[i]? = some j →
      winAgg f S text .rows b e (input flags rows) ((j : Int) + 1) = run f ((rowsFrame W b e i).map (valueAt rows))

theorem filter_pos {α : Type} (xs : List α) (n : Nat) (lo hi : Int) :
    ((xs.zipIdx n).filter (fun q => decide (lo ≤ (q.2 : Int) ∧ (q.2 : Int) ≤ hi))).map Prod.fst
      = (xs.drop (lo - n).toNat).take (hi + 1 - max lo n).toNat := by
  induction xs generalizing n with
  | nil => simp
  | cons x xs ih =>
    have ih := ih (n + 1)
    rw [List.zipIdx_cons, List.filter_cons]
    by_cases h1 : lo ≤ (n : Int)
    · have e1 : (lo - n).toNat = 0 := by omega
      have e2 : (lo - (n + 1 : Nat)).toNat = 0 := by omega
      rw [e1, List.drop_zero]
      rw [e2, List.drop_zero] at ih
      by_cases h2 : (n : Int) ≤ hi
      · have e3 : (hi + 1 - max lo n).toNat = (hi + 1 - max lo (n + 1 : Nat)).toNat + 1 := by omega
        rw [e3, List.take_succ_cons, if_pos (by simp [h1, h2]), List.map_cons, ih]
      · have e3 : (hi + 1 - max lo n).toNat = 0 := by omega
        have e4 : (hi + 1 - max lo (n + 1 : Nat)).toNat = 0 := by omega
        rw [e3, if_neg (by simp [h2]), ih, e4]
        simp
    · have e1 : (lo - n).toNat = (lo - (n + 1 : Nat)).toNat + 1 := by omega
      have e3 : (hi + 1 - max lo n).toNat = (hi + 1 - max lo (n + 1 : Nat)).toNat := by omega
      rw [e1, List.drop_succ_cons, if_neg (by simp [h1]), ih, e3]

/-- The offset of a bound from the current row, `none` if unbounded. -/
def offset : Boundary → Option Int
  | .preceding n => some (-n)
  | .current => some 0
  | .following n => some n
  | _ => none

/-- The start bound is at most one row after the end bound. -/
def Ordered (b e : Boundary) : Prop := ∀ x y, offset b = some x → offset e = some y → x ≤ y + 1

theorem sorted_values (S flags) (rows : List SRow) (p) :
    (sortedRows S flags rows p).map (fun q => q.2.value) = (windowOrder S flags rows p).map (valueAt rows) := by
  unfold windowOrder
  rw [List.map_map]
  apply List.map_congr_left
  intro q hq
  obtain ⟨i, hi⟩ := List.getElem?_of_mem hq
  obtain ⟨r, h1, h2, _⟩ := sortedRows_get hi
  simp [valueAt, h1, h2, SRow.row]

/-- The values of a frame given by two indices. -/
theorem frame_slice {S : Sorter} {text} {flags} {rows : List SRow} (hg : GoodParts text rows) {cur : Nat} {r : SRow}
    (hc : rows[cur]? = some r) {u b e} {s t : Int}
    (hs : boundaryIndex u (sortedRows S flags rows r.parts) cur (r.row flags) b = .ok s)
    (ht : boundaryIndex u (sortedRows S flags rows r.parts) cur (r.row flags) e = .ok t)
    (hst : s < (sortedRows S flags rows r.parts).length → 0 ≤ t → s ≤ t + 1) :
    frameValues S text u b e (input flags rows) ((cur : Int) + 1) =
      .ok ((((windowOrder S flags rows r.parts).drop s.toNat).take (t + 1 - max s 0).toNat).map (valueAt rows)) := by
  have hlen : (windowOrder S flags rows r.parts).length = (sortedRows S flags rows r.parts).length := by simp [windowOrder]
  unfold frameValues frame
  rw [done_eq hg hc, hs, ht]
  simp only [Res.bind'_ok]
  by_cases h1 : s ≥ (sortedRows S flags rows r.parts).length ∨ t < 0
  · rw [if_pos h1]
    simp only [Res.bind'_ok, List.map_nil]
    rcases h1 with h1 | h1
    · rw [List.drop_eq_nil_of_le (by omega)]; simp
    · have : (t + 1 - max s 0).toNat = 0 := by omega
      rw [this]; simp
  · rw [if_neg h1]
    have h2 : s < (sortedRows S flags rows r.parts).length ∧ 0 ≤ t := by omega
    have h3 := hst h2.1 h2.2
    simp only [Res.bind'_ok]
    unfold slice
    generalize hn : (sortedRows S flags rows r.parts).length = n at *
    rw [if_neg (by split <;> split <;> omega)]
    simp only [Res.bind'_ok]
    rw [List.map_take, List.map_drop, sorted_values, ← List.map_drop, ← List.map_take]
    have e1 : (if s < 0 then 0 else s).toNat = s.toNat := by split <;> omega
    rw [e1]
    congr 2
    by_cases h4 : t ≥ n
    · rw [if_pos h4]
      rw [List.take_of_length_le, List.take_of_length_le]
      · rw [List.length_drop]; omega
      · rw [List.length_drop]; split <;> omega
    · rw [if_neg h4]
      congr 1
      split <;> omega

/-- The frame as positions: C42 for bounds in order. -/
theorem rows_frame {S : Sorter} {text} {flags} {rows : List SRow} (hg : GoodParts text rows) {cur : Nat} {r : SRow}
    (hc : rows[cur]? = some r) {i : Nat} (hi : (windowOrder S flags rows r.parts)[i]? = some cur) {b e : Boundary}
    (hge : Grammatical b e) (ho : Ordered b e) :
    frameValues S text .rows b e (input flags rows) ((cur : Int) + 1) =
      .ok ((rowsFrame (windowOrder S flags rows r.parts) b e i).map (valueAt rows)) := by
  have hlt := (List.getElem?_eq_some_iff.mp hi).1
  have hlen : (windowOrder S flags rows r.parts).length = (sortedRows S flags rows r.parts).length := by simp [windowOrder]
  have hcur := currentIndex_eq hi
  obtain ⟨s, hs, hs'⟩ : ∃ s, boundaryIndex .rows (sortedRows S flags rows r.parts) cur (r.row flags) b = .ok s ∧
      (∀ pos : Int, 0 ≤ pos → (lowerOk i pos b ↔ s ≤ pos)) := by
    cases b with
    | unboundedPreceding => exact ⟨0, rfl, fun pos h => by simp [lowerOk, h]⟩
    | unboundedFollowing => exact absurd rfl hge.1
    | current => exact ⟨i, hcur, fun pos h => by simp [lowerOk]⟩
    | preceding n => exact ⟨i - n, by simp [boundaryIndex, rowsIndex, hcur], fun pos h => by simp [lowerOk]⟩
    | following n => exact ⟨i + n, by simp [boundaryIndex, rowsIndex, hcur], fun pos h => by simp [lowerOk]⟩
  obtain ⟨t, ht, ht'⟩ : ∃ t, boundaryIndex .rows (sortedRows S flags rows r.parts) cur (r.row flags) e = .ok t ∧
      (∀ pos : Int, pos < (sortedRows S flags rows r.parts).length → (upperOk i pos e ↔ pos ≤ t)) := by
    cases e with
    | unboundedFollowing => exact ⟨(sortedRows S flags rows r.parts).length - 1, rfl, fun pos h => by simp [upperOk]; omega⟩
    | unboundedPreceding => exact absurd rfl hge.2
    | current => exact ⟨i, hcur, fun pos h => by simp [upperOk]⟩
    | preceding n => exact ⟨i - n, by simp [boundaryIndex, rowsIndex, hcur], fun pos h => by simp [upperOk]⟩
    | following n => exact ⟨i + n, by simp [boundaryIndex, rowsIndex, hcur], fun pos h => by simp [upperOk]⟩
  have hst : s < (sortedRows S flags rows r.parts).length → 0 ≤ t → s ≤ t + 1 := by
    intro h1 h2
    cases b <;> cases e <;> simp [boundaryIndex, rowsIndex, hcur] at hs ht <;>
      first
      | exact absurd rfl hge.1
      | exact absurd rfl hge.2
      | (have := ho _ _ rfl rfl; omega)
      | omega
  rw [frame_slice hg hc hs ht hst]
  congr 2
  unfold rowsFrame
  have := filter_pos (windowOrder S flags rows r.parts) 0 s t
  simp only [Int.natCast_zero, Int.sub_zero] at this
  rw [← this]
  congr 1
  apply List.filter_congr
  intro q hq
  have := List.snd_lt_of_mem_zipIdx hq
  simp only [decide_eq_decide]
  rw [hs' _ (by omega), ht' _ (by omega)]

/-- C42, part: bounds in order. -/
theorem C42_partial (S : Sorter) (text : Val → Res (List Char)) (flags : List Bool) (rows : List SRow)
    (hg : GoodParts text rows) (hk : GoodKeys flags rows) (p : List (Option Scalar)) :
    ∃ W, WindowOrder flags rows p W ∧
      ∀ (b e : Boundary), Grammatical b e → Ordered b e → ∀ (f : Fn) (i j : Nat), W[i]? = some j →
        winAgg f S text .rows b e (input flags rows) ((j : Int) + 1) = run f ((rowsFrame W b e i).map (valueAt rows)) := by
  refine ⟨windowOrder S flags rows p, windowOrder_ok S hk p, ?_⟩
  intro b e hge ho f i j h
  obtain ⟨r, hr, rfl⟩ := mem_windowOrder.mp (List.mem_of_getElem? h)
  unfold winAgg
  rw [rows_frame hg hr h hge ho, Res.bind'_ok]

example : Grammatical (.preceding 2) (.following 1) ∧ Ordered (.preceding 2) (.following 1) := by
  constructor
  · simp [Grammatical]
  · intro x y hx hy; simp [offset] at hx hy; omega

/-- ROWS BETWEEN 2 PRECEDING AND 1 FOLLOWING around position 1 of five rows. -/
example : rowsFrame [4, 2, 0, 3, 1] (.preceding 2) (.following 1) 1 = [4, 2, 0] := by decide

theorem goodParts_none (text : Val → Res (List Char)) (rows : List SRow) (h : ∀ r ∈ rows, r.parts = []) : GoodParts text rows :=
  .inl h

/-- A frame that SQL defines as empty is a slice panic: ROWS BETWEEN 1 PRECEDING AND 3
PRECEDING at the fourth of four rows. -/
theorem C42_full_false (S : Sorter) (text : Val → Res (List Char)) : ¬ C42_full S text := by
  intro h
  let rows : List SRow := [⟨[], [], .null⟩, ⟨[], [], .null⟩, ⟨[], [], .null⟩, ⟨[], [], .null⟩]
  have hg : GoodParts text rows := .inl (by simp [rows])
  have hk : GoodKeys [] rows := ⟨by simp [rows], by simp [rows], fun r hr s hs => by
    simp [rows] at hr hs; subst hr hs; exact .nil⟩
  obtain ⟨W, hW, h⟩ := h [] rows hg hk []
  -- the code's own order has four rows
  have hlen : (windowOrder S [] rows []).length = 4 := by
    rw [(windowOrder_perm S [] rows []).length_eq]; rfl
  have hWlen : W.length = 4 := by rw [hW.perm.length_eq]; rfl
  obtain ⟨j, hj⟩ : ∃ j, (windowOrder S [] rows [])[3]? = some j := ⟨_, List.getElem?_eq_getElem (by omega)⟩
  obtain ⟨r, hr, hrp⟩ := mem_windowOrder.mp (List.mem_of_getElem? hj)
  have hjW : j ∈ W := hW.perm.mem_iff.mpr (mem_members.mpr ⟨r, hr, hrp⟩)
  obtain ⟨i, hi⟩ := List.getElem?_of_mem hjW
  have h1 := h (.preceding 1) (.preceding 3) ⟨by simp, by simp⟩ .count i j hi
  have h2 : rowsFrame W (.preceding 1) (.preceding 3) i = [] := by
    unfold rowsFrame
    rw [List.map_eq_nil_iff, List.filter_eq_nil_iff]
    intro q _
    rw [decide_eq_true_eq]
    simp only [lowerOk, upperOk]
    omega
  rw [h2] at h1
  have hsl : (sortedRows S [] rows r.parts).length = 4 := by rw [hrp]; simpa [windowOrder] using hlen
  have hci : currentIndex (sortedRows S [] rows r.parts) j = .ok 3 := by rw [hrp]; exact currentIndex_eq hj
  have h3 : winAgg .count S text .rows (.preceding 1) (.preceding 3) (input [] rows) ((j : Int) + 1) = .panic := by
    unfold winAgg frameValues frame
    rw [done_eq hg hr]
    simp [boundaryIndex, rowsIndex, hci, hsl, slice, Res.bind]
  rw [h3] at h1
  cases h1

end Verif.Window
