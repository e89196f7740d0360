import Verif.Props.Window

/-! # C41 and C44: NTILE and the navigation functions -/

namespace Verif.Window

open Go Verif.Val Verif.Sql Verif.Aggregate
open Verif.Logic (All2)

/-! ## C44 -/

/-- The rows FIRST_VALUE, LAST_VALUE and NTH_VALUE choose from: NULLs count unless
IGNORE NULLS is given. -/
def candidates (n : Nulls) (vs : List Val) : List Val :=
  if n = .ignore then vs.filter (fun v => !v.isNull) else vs

/-- FIRST_VALUE, LAST_VALUE and NTH_VALUE at position `i` of the ordered partition `W`. -/
structure NavSpec (S : Sorter) (text : Val → Res (List Char)) (flags : List Bool) (rows : List SRow) (W : List Nat)
    (b e : Boundary) (n : Nulls) (i j : Nat) : Prop where
  first : winFirst n S text .rows b e (input flags rows) ((j : Int) + 1) =
    .ok ((candidates n ((rowsFrame W b e i).map (valueAt rows))).head?.getD .null)
  last : winLast n S text .rows b e (input flags rows) ((j : Int) + 1) =
    .ok ((candidates n ((rowsFrame W b e i).map (valueAt rows))).getLast?.getD .null)

/-- NTH_VALUE(x, k). -/
def NthSpec (S : Sorter) (text : Val → Res (List Char)) (flags : List Bool) (rows : List SRow) (W : List Nat)
    (b e : Boundary) (n : Nulls) (k : Nat) (i j : Nat) : Prop :=
  winNth n k S text .rows b e (input flags rows) ((j : Int) + 1) =
    .ok (((candidates n ((rowsFrame W b e i).map (valueAt rows)))[k - 1]?).getD .null)

/-- LEAD and LAG: the row `off` positions later or earlier, the default if there is none. -/
structure LeadLagSpec (S : Sorter) (text : Val → Res (List Char)) (flags : List Bool) (rows : List SRow) (W : List Nat)
    (off : Nat) (d : Val) (i j : Nat) : Prop where
  lead : winLead off d S text (input flags rows) ((j : Int) + 1) =
    .ok (match W[i + off]? with | some j' => valueAt rows j' | none => d)
  lag : winLag off d S text (input flags rows) ((j : Int) + 1) =
    .ok (if off ≤ i then (match W[i - off]? with | some j' => valueAt rows j' | none => d) else d)

/-- C44 as stated. -/
def C44_full (S : Sorter) (text : Val → Res (List Char)) : Prop :=
  ∀ flags rows, GoodParts text rows → GoodKeys flags rows → ∀ p, ∃ W, WindowOrder flags rows p W ∧
    ∀ (i j : Nat), W[i]? = some j →
      (∀ b e n, Grammatical b e → Ordered b e → NavSpec S text flags rows W b e n i j ∧
        ∀ k, 1 ≤ k → NthSpec S text flags rows W b e n k i j) ∧
      ∀ off d, LeadLagSpec S text flags rows W off d i j

theorem lead_list (off : Nat) (d : Val) (vs : List Val) (i : Nat) :
    lead off d vs i = .ok (match vs[i + off]? with | some v => if v.isNull then d else v | none => d) := by
  unfold lead
  rw [if_neg (by omega)]
  have e1 : ((i : Int) + (off : Int)).toNat = i + off := by omega
  simp only [e1]
  by_cases h : (i : Int) + off ≥ vs.length
  · rw [if_pos h, List.getElem?_eq_none (by omega)]; rfl
  · rw [if_neg h, List.getElem?_eq_getElem (by omega)]
    simp

theorem lag_list (off : Nat) (d : Val) (vs : List Val) (i : Nat) (hi : i < vs.length) :
    lag off d vs i = .ok (if off ≤ i then (match vs[i - off]? with | some v => if v.isNull then d else v | none => d) else d) := by
  unfold lag
  rw [if_neg (by omega)]
  have e1 : ((i : Int) - (off : Int)).toNat = i - off := by omega
  simp only [e1]
  by_cases h : off ≤ i
  · rw [if_neg (show ¬ ((i : Int) - (off : Int) < 0) by omega), if_pos h, List.getElem?_eq_getElem (by omega)]
    simp
  · rw [if_pos (show ((i : Int) - (off : Int) < 0) by omega), if_neg h]; rfl

theorem lead_eq {S : Sorter} {text} {flags} {rows : List SRow} (hg : GoodParts text rows) {cur : Nat} {r : SRow}
    (hc : rows[cur]? = some r) {i : Nat} (hi : (windowOrder S flags rows r.parts)[i]? = some cur) (off : Nat) (d : Val) :
    winLead off d S text (input flags rows) ((cur : Int) + 1) =
      .ok (match (windowOrder S flags rows r.parts)[i + off]? with
        | some j' => if (valueAt rows j').isNull then d else valueAt rows j'
        | none => d) ∧
    winLag off d S text (input flags rows) ((cur : Int) + 1) =
      .ok (if off ≤ i then (match (windowOrder S flags rows r.parts)[i - off]? with
        | some j' => if (valueAt rows j').isNull then d else valueAt rows j'
        | none => d) else d) := by
  unfold winLead winLag
  rw [position_eq hg hc hi]
  simp only [Res.bind'_ok]
  rw [sorted_values, Int.toNat_natCast, lead_list, lag_list _ _ _ _ (by
    have := (List.getElem?_eq_some_iff.mp hi).1; simpa using this)]
  constructor
  · rw [List.getElem?_map]
    cases (windowOrder S flags rows r.parts)[i + off]? <;> rfl
  · rw [List.getElem?_map]
    cases (windowOrder S flags rows r.parts)[i - off]? <;> rfl

/-- LEAD(x, 1, 5) over two rows with x NULL: SQL says NULL, the code 5. -/
theorem C44_full_false (S : Sorter) (text : Val → Res (List Char)) : ¬ C44_full S text := by
  intro h
  let rows : List SRow := [⟨[], [], .null⟩, ⟨[], [], .null⟩]
  have hg : GoodParts text rows := .inl (by simp [rows])
  have hk : GoodKeys [] rows := ⟨by simp [rows], by simp [rows], fun r hr s hs => by
    simp [rows] at hr hs; subst hr hs; exact .nil⟩
  obtain ⟨W, hW, h⟩ := h [] rows hg hk []
  have hWlen : W.length = 2 := by rw [hW.perm.length_eq]; rfl
  obtain ⟨j, hj⟩ : ∃ j, W[0]? = some j := ⟨_, List.getElem?_eq_getElem (by omega)⟩
  obtain ⟨j', hj'⟩ : ∃ j, W[1]? = some j := ⟨_, List.getElem?_eq_getElem (by omega)⟩
  have hnull : ∀ j ∈ members rows [], valueAt rows j = .null := by
    have : members rows [] = [0, 1] := by rfl
    rw [this]; simp [valueAt, rows]
  obtain ⟨r, hr, hrp⟩ := mem_members.mp (hW.perm.mem_iff.mp (List.mem_of_getElem? hj))
  have hmem : j ∈ windowOrder S [] rows r.parts := by rw [hrp]; exact mem_windowOrder.mpr ⟨r, hr, hrp⟩
  obtain ⟨i, hi⟩ := List.getElem?_of_mem hmem
  have h1 := (lead_eq hg hr hi 1 (.int 5)).1
  have h2 := ((h 0 j hj).2 1 (.int 5)).lead
  rw [h2] at h1
  simp only [Nat.zero_add, hj', hnull j' (hW.perm.mem_iff.mp (List.mem_of_getElem? hj'))] at h1
  cases hx : (windowOrder S [] rows r.parts)[i + 1]? with
  | none => simp [hx] at h1
  | some y =>
    have := hnull y (by rw [← (windowOrder_perm S [] rows []).mem_iff, ← hrp]; exact List.mem_of_getElem? hx)
    simp [hx, this] at h1

theorem navFilter_eq {n : Nulls} (hn : n ≠ .unspecified) (vs : List Val) : navFilter (ignores n) vs = candidates n vs := by
  cases n <;> simp [navFilter, ignores, candidates] at *

/-- C44, part.  FIRST_VALUE and LAST_VALUE over any ROWS frame with bounds in order, when
the query states its null handling or the frame has no NULL; NTH_VALUE except for the last candidate; LEAD and LAG except
where the target exists and is NULL. -/
theorem C44_partial (S : Sorter) (text : Val → Res (List Char)) (flags : List Bool) (rows : List SRow)
    (hg : GoodParts text rows) (hk : GoodKeys flags rows) (p : List (Option Scalar)) :
    ∃ W, WindowOrder flags rows p W ∧ ∀ (i j : Nat), W[i]? = some j →
      (∀ b e n, Grammatical b e → Ordered b e →
        (n ≠ .unspecified ∨ ∀ v ∈ (rowsFrame W b e i).map (valueAt rows), v.isNull = false) →
        NavSpec S text flags rows W b e n i j ∧
        ∀ k, 1 ≤ k → k ≠ (candidates n ((rowsFrame W b e i).map (valueAt rows))).length →
          NthSpec S text flags rows W b e n k i j) ∧
      ∀ off d, (d = .null ∨ ∀ j' ∈ W, (valueAt rows j').isNull = false) → LeadLagSpec S text flags rows W off d i j := by
  refine ⟨windowOrder S flags rows p, windowOrder_ok S hk p, ?_⟩
  intro i j h
  obtain ⟨r, hr, rfl⟩ := mem_windowOrder.mp (List.mem_of_getElem? h)
  constructor
  · intro b e n hge ho hn
    have hf := rows_frame hg hr h hge ho
    have hcand : ∀ vs : List Val, (n ≠ .unspecified ∨ ∀ v ∈ vs, v.isNull = false) →
        navFilter (ignores n) vs = candidates n vs := by
      rintro vs (hn | hv)
      · exact navFilter_eq hn vs
      · have hall : vs.filter (fun v => !v.isNull) = vs := by
          rw [List.filter_eq_self]; intro v hv'; simp [hv v hv']
        cases n <;> simp [navFilter, ignores, candidates, hall]
    refine ⟨⟨?_, ?_⟩, ?_⟩
    · unfold winFirst; rw [hf]; simp only [Res.bind'_ok, firstValue]; rw [hcand _ hn]
    · unfold winLast; rw [hf]; simp only [Res.bind'_ok, lastValue]; rw [hcand _ hn]
    · intro k hk1 hk2
      unfold NthSpec winNth
      rw [hf]
      simp only [Res.bind'_ok, nthValue]
      rw [hcand _ hn]
      generalize candidates n ((rowsFrame (windowOrder S flags rows r.parts) b e i).map (valueAt rows)) = cs at *
      by_cases hcs : cs = []
      · subst hcs; simp
      · rw [if_neg hcs]
        by_cases hlt : k < cs.length
        · rw [if_pos (by omega), if_neg (by omega)]
          have : ((k : Int) - 1).toNat = k - 1 := by omega
          rw [this]
        · rw [if_neg (by omega), List.getElem?_eq_none (by omega)]
          rfl
  · intro off d hd
    obtain ⟨h1, h2⟩ := lead_eq hg hr h off d
    refine ⟨?_, ?_⟩
    · rw [h1]
      congr 1
      cases hx : (windowOrder S flags rows r.parts)[i + off]? with
      | none => rfl
      | some y =>
        simp only
        rcases hd with rfl | hd
        · cases hv : valueAt rows y <;> simp [Val.isNull]
        · simp [hd y (List.mem_of_getElem? hx)]
    · rw [h2]
      congr 1
      by_cases ho : off ≤ i
      · rw [if_pos ho, if_pos ho]
        cases hx : (windowOrder S flags rows r.parts)[i - off]? with
        | none => rfl
        | some y =>
          simp only
          rcases hd with rfl | hd
          · cases hv : valueAt rows y <;> simp [Val.isNull]
          · simp [hd y (List.mem_of_getElem? hx)]
      · rw [if_neg ho, if_neg ho]

/-- NTH_VALUE(x, 2) over two rows is NULL and NTH_VALUE(x, 0) an index panic. -/
theorem C44_nth : nthValue true 2 [.int 10, .int 20] = .ok .null ∧ nthValue true 0 [.int 10, .int 20] = .panic := ⟨rfl, rfl⟩

/-- FIRST_VALUE without RESPECT NULLS skips NULLs. -/
theorem C44_first : firstValue (ignores .unspecified) [.null, .int 20] = .int 20 := rfl

/-! ## C41 -/

/-- The number of rows among the first `n` positions in bucket `c`. -/
def bucketSize (bkt : Nat → Nat) (n c : Nat) : Nat := (List.range n).countP fun i => bkt i = c

/-- What SQL prescribes for NTILE(k) over `n` rows. -/
structure NtileSpec (n k : Nat) (bkt : Nat → Nat) : Prop where
  range : ∀ i, i < n → 1 ≤ bkt i ∧ bkt i ≤ k
  mono : ∀ i j, i ≤ j → j < n → bkt i ≤ bkt j
  sizes : ∀ c d, 1 ≤ c → c ≤ d → d ≤ k → bucketSize bkt n d ≤ bucketSize bkt n c ∧ bucketSize bkt n c ≤ bucketSize bkt n d + 1

/-- C41 as stated. -/
def C41_full (S : Sorter) (text : Val → Res (List Char)) : Prop :=
  ∀ flags rows, GoodParts text rows → GoodKeys flags rows → ∀ p, ∃ W, WindowOrder flags rows p W ∧
    ∀ k : Nat, 1 ≤ k → ∃ bkt, NtileSpec W.length k bkt ∧
      ∀ (i j : Nat), W[i]? = some j → winNtile k S text (input flags rows) ((j : Int) + 1) = .ok (.int (bkt i))

/-- The values the code computes. -/
theorem ntileValues_get (n : Nat) (s d : Nat) (i : Nat) (h : i < n) :
    (ntileValues n s d)[i]? = some (((if i < 2 * d then s + i / 2 + 1 else s + i - d + 1 : Nat)) : Int) := by
  induction n generalizing s d i with
  | zero => omega
  | succ n ih =>
    unfold ntileValues
    cases d with
    | zero =>
      rw [if_neg (by omega)]
      cases i with
      | zero => simp
      | succ i =>
        rw [List.getElem?_cons_succ]
        have := ih (s + 1) 0 i (by omega)
        simp only [Int.natCast_add, Int.natCast_one] at this ⊢
        rw [this]
        congr 1
        simp; omega
    | succ d =>
      rw [if_pos (by omega)]
      cases i with
      | zero => simp
      | succ i =>
        rw [List.getElem?_cons_succ]
        cases i with
        | zero => rw [if_pos (by omega)]; simp
        | succ i =>
          rw [List.getElem?_cons_succ]
          have := ih (s + 1) d i (by omega)
          have e : ((d + 1 : Nat) : Int) - 1 = (d : Int) := by omega
          rw [e]
          simp only [Int.natCast_add, Int.natCast_one] at this ⊢
          rw [this]
          congr 1
          have h2 : (i + 1 + 1) / 2 = i / 2 + 1 := by omega
          split <;> split <;> omega

/-- `dupCount`. -/
def dups (n k : Nat) : Nat := (n + k - 1) / k - 1

theorem dup_eq (n k : Nat) (hn : 0 < n) (hk : 0 < k) :
    ((n : Int).tdiv k - 1 + (if (n : Int).tmod k > 0 then 1 else 0)) = (dups n k : Int) := by
  have h1 : (n : Int).tdiv k = ((n / k : Nat) : Int) := rfl
  have h2 : (n : Int).tmod k = ((n % k : Nat) : Int) := rfl
  rw [h1, h2]
  unfold dups
  have hdm := Nat.div_add_mod n k
  have hml := Nat.mod_lt n hk
  generalize hq : n / k = q at *
  generalize hr : n % k = r at *
  by_cases h0 : r = 0
  · subst h0
    have e : (n + k - 1) / k = q := by
      rw [Nat.div_eq_of_lt_le]
      · rw [Nat.mul_comm]; omega
      · rw [Nat.add_mul, Nat.mul_comm]; omega
    have : 0 < q := by
      rcases Nat.eq_zero_or_pos q with h | h
      · subst h; simp at hdm; omega
      · exact h
    rw [e, if_neg (by omega)]; omega
  · have e : (n + k - 1) / k = q + 1 := by
      rw [Nat.div_eq_of_lt_le]
      · rw [Nat.add_mul, Nat.mul_comm]; omega
      · rw [Nat.add_mul, Nat.add_mul, Nat.mul_comm]; omega
    rw [e, if_pos (by omega)]; omega

/-- What the code answers. -/
def codeBucket (n k i : Nat) : Nat := if i < 2 * dups n k then i / 2 + 1 else i - dups n k + 1

theorem ntileAt_eq (n k i : Nat) (hk : 0 < k) (hi : i < n) : ntileAt n k i = .ok (codeBucket n k i : Int) := by
  unfold ntileAt
  rw [if_neg (by omega)]
  simp only [dup_eq n k (by omega) hk]
  have := ntileValues_get n 0 (dups n k) i hi
  simp only [Int.natCast_zero] at this
  rw [this]
  unfold codeBucket
  simp

theorem winNtile_eq {S : Sorter} {text} {flags} {rows : List SRow} (hg : GoodParts text rows) {cur : Nat} {r : SRow}
    (hc : rows[cur]? = some r) {i : Nat} (hi : (windowOrder S flags rows r.parts)[i]? = some cur) {k : Nat} (hk : 0 < k) :
    winNtile k S text (input flags rows) ((cur : Int) + 1) =
      .ok (.int (codeBucket (windowOrder S flags rows r.parts).length k i)) := by
  have hlen : (windowOrder S flags rows r.parts).length = (sortedRows S flags rows r.parts).length := by simp [windowOrder]
  unfold winNtile
  rw [position_eq hg hc hi]
  simp only [Res.bind'_ok, Int.toNat_natCast]
  rw [ntileAt_eq _ _ _ hk (by have := (List.getElem?_eq_some_iff.mp hi).1; omega), Res.bind'_ok, hlen]

theorem count_succ (n c : Nat) : (List.range n).countP (fun i => decide (i + 1 = c)) = if 1 ≤ c ∧ c ≤ n then 1 else 0 := by
  induction n with
  | zero => simp; omega
  | succ n ih =>
    rw [List.range_succ, List.countP_append, ih]
    by_cases h : n + 1 = c
    · subst h; simp
    · simp only [List.countP_cons, h, decide_false, List.countP_nil, Bool.false_eq_true, if_false]
      split <;> split <;> omega

theorem dups_small (n k : Nat) (hn : 0 < n) (h : n ≤ k) : dups n k = 0 := by
  unfold dups
  have : (n + k - 1) / k = 1 := Nat.div_eq_of_lt_le (by omega) (by omega)
  omega

theorem dups_next (k : Nat) (hk : 0 < k) : dups (k + 1) k = 1 := by
  unfold dups
  have : (k + 1 + k - 1) / k = 2 := Nat.div_eq_of_lt_le (by omega) (by omega)
  omega

/-- The code's buckets are right when there are at most `k + 1` rows… -/
theorem codeBucket_ok (n k : Nat) (hk : 1 ≤ k) (h : n ≤ k + 1) : NtileSpec n k (codeBucket n k) := by
  rcases Nat.eq_zero_or_pos n with rfl | hn
  · refine ⟨by omega, by omega, ?_⟩
    intro c d _ _ _; simp [bucketSize]
  rcases Nat.lt_or_ge k n with h1 | h1
  · obtain rfl : n = k + 1 := by omega
    have hb : ∀ i, codeBucket (k + 1) k i = if i < 2 then 1 else i := by
      intro i; unfold codeBucket; rw [dups_next k (by omega)]; split <;> (try split) <;> omega
    have hs : ∀ c, bucketSize (codeBucket (k + 1) k) (k + 1) c = if c = 1 then 2 else if 1 < c ∧ c ≤ k then 1 else 0 := by
      intro c
      have : ∀ m, (List.range (m + 2)).countP (fun i => decide ((if i < 2 then 1 else i) = c)) =
          if c = 1 then 2 else if 1 < c ∧ c ≤ m + 1 then 1 else 0 := by
        intro m
        induction m with
        | zero =>
          have : List.range (0 + 2) = [0, 1] := rfl
          rw [this]
          by_cases hc : c = 1
          · subst hc; decide
          · have : (1 : Nat) ≠ c := fun h => hc h.symm
            simp [hc, this] <;> omega
        | succ m ih =>
          rw [List.range_succ, List.countP_append, ih]
          simp only [List.countP_cons, List.countP_nil]
          by_cases hc : c = 1
          · subst hc; simp
          · by_cases hc2 : m + 2 = c
            · subst hc2; simp
            · have : ¬ (m + 2 < 2) := by omega
              simp only [this, if_false, hc, hc2, decide_false, Bool.false_eq_true]
              split <;> split <;> omega
      unfold bucketSize
      simp only [hb]
      obtain ⟨m, rfl⟩ : ∃ m, k = m + 1 := ⟨k - 1, by omega⟩
      exact this m
    refine ⟨?_, ?_, ?_⟩
    · intro i hi; rw [hb]; split <;> omega
    · intro i j hij hj; rw [hb, hb]; split <;> split <;> omega
    · intro c d h1 h2 h3
      rw [hs, hs]
      split <;> split <;> (try split) <;> (try split) <;> omega
  · have hb : ∀ i, codeBucket n k i = i + 1 := by
      intro i; unfold codeBucket; rw [dups_small n k hn h1]; simp
    refine ⟨?_, ?_, ?_⟩
    · intro i hi; rw [hb]; omega
    · intro i j hij hj; rw [hb, hb]; omega
    · intro c d h1 h2 h3
      unfold bucketSize
      simp only [hb]
      rw [count_succ, count_succ]
      split <;> split <;> omega

/-- … and wrong as soon as there are more: the last row gets a bucket above `k`. -/
theorem codeBucket_bad (n k : Nat) (hk : 1 ≤ k) (h : k + 2 ≤ n) : k < codeBucket n k (n - 1) := by
  unfold codeBucket
  rcases Nat.lt_or_ge 1 k with h1 | h1
  · -- k ≥ 2
    have hd : dups n k < n - k := by
      unfold dups
      have hlt : (n + k - 1) / k < n - k + 1 := by
        rw [Nat.div_lt_iff_lt_mul (by omega)]
        obtain ⟨a, rfl⟩ : ∃ a, k = a + 2 := ⟨k - 2, by omega⟩
        obtain ⟨b, rfl⟩ : ∃ b, n = a + 2 + 2 + b := ⟨n - (a + 2) - 2, by omega⟩
        have : a + 2 + 2 + b - (a + 2) + 1 = b + 3 := by omega
        rw [this, Nat.mul_add, Nat.add_mul, Nat.mul_comm 3]
        have := Nat.zero_le (b * a)
        omega
      omega
    have h2 : dups n k ≤ (n - 1) / 2 := by
      unfold dups
      have : (n + k - 1) / k ≤ (n - 1) / 2 + 1 := by
        rw [Nat.div_le_iff_le_mul_add_pred (by omega)]
        obtain ⟨a, rfl⟩ : ∃ a, k = a + 2 := ⟨k - 2, by omega⟩
        rw [Nat.mul_add, Nat.add_mul]
        have : (n - 1) / 2 ≤ a * ((n - 1) / 2) + (n - 1) / 2 := by omega
        have : n - 1 ≤ 2 * ((n - 1) / 2) + 1 := by omega
        omega
      omega
    rw [if_neg (by omega)]
    omega
  · obtain rfl : k = 1 := by omega
    have : dups n 1 = n - 1 := by unfold dups; simp
    rw [this, if_pos (by omega)]
    omega

/-- C41, part: partitions of at most `k + 1` rows. -/
theorem C41_partial (S : Sorter) (text : Val → Res (List Char)) (flags : List Bool) (rows : List SRow)
    (hg : GoodParts text rows) (hk : GoodKeys flags rows) (p : List (Option Scalar)) :
    ∃ W, WindowOrder flags rows p W ∧
      ∀ k : Nat, 1 ≤ k → W.length ≤ k + 1 → ∃ bkt, NtileSpec W.length k bkt ∧
        ∀ (i j : Nat), W[i]? = some j → winNtile k S text (input flags rows) ((j : Int) + 1) = .ok (.int (bkt i)) := by
  refine ⟨windowOrder S flags rows p, windowOrder_ok S hk p, ?_⟩
  intro k hk1 hl
  refine ⟨codeBucket (windowOrder S flags rows p).length k, codeBucket_ok _ _ hk1 hl, ?_⟩
  intro i j h
  obtain ⟨r, hr, rfl⟩ := mem_windowOrder.mp (List.mem_of_getElem? h)
  exact winNtile_eq hg hr h (by omega)

/-- In every partition of at least `k + 2` rows some row gets a bucket above `k`. -/
theorem C41_wrong (S : Sorter) (text : Val → Res (List Char)) (flags : List Bool) (rows : List SRow)
    (hg : GoodParts text rows) (p : List (Option Scalar)) (k : Nat) (hk : 1 ≤ k) (hl : k + 2 ≤ (members rows p).length) :
    ∃ j ∈ members rows p, ∃ c : Int, k < c ∧ winNtile k S text (input flags rows) ((j : Int) + 1) = .ok (.int c) := by
  have hlen : (windowOrder S flags rows p).length = (members rows p).length := (windowOrder_perm S flags rows p).length_eq
  have hlt : (windowOrder S flags rows p).length - 1 < (windowOrder S flags rows p).length := by omega
  have hi := List.getElem?_eq_getElem hlt
  obtain ⟨r, hr, rfl⟩ := mem_windowOrder.mp (List.mem_of_getElem? hi)
  refine ⟨_, mem_members.mpr ⟨r, hr, rfl⟩, _, ?_, winNtile_eq hg hr hi (by omega)⟩
  have := codeBucket_bad (windowOrder S flags rows r.parts).length k hk (by omega)
  omega

/-- C41: a bucket count that is not positive is an error. -/
theorem C41_nonpositive (S : Sorter) (text : Val → Res (List Char)) (flags : List Bool) (rows : List SRow)
    (hg : GoodParts text rows) (p : List (Option Scalar)) (num : Int) (hn : num ≤ 0) :
    ∀ j ∈ members rows p, winNtile num S text (input flags rows) ((j : Int) + 1) = .err := by
  intro j hj
  rw [← (windowOrder_perm S flags rows p).mem_iff] at hj
  obtain ⟨i, hi, he⟩ := List.getElem_of_mem hj
  have hi' : (windowOrder S flags rows p)[i]? = some j := by rw [List.getElem?_eq_getElem hi, he]
  obtain ⟨r, hr, rfl⟩ := mem_windowOrder.mp (List.mem_of_getElem? hi')
  unfold winNtile
  rw [position_eq hg hr hi']
  simp [ntileAt, hn]

theorem C41_full_false (S : Sorter) (text : Val → Res (List Char)) : ¬ C41_full S text := by
  intro h
  let rows : List SRow := [⟨[], [], .null⟩, ⟨[], [], .null⟩, ⟨[], [], .null⟩]
  have hg : GoodParts text rows := .inl (by simp [rows])
  have hk : GoodKeys [] rows := ⟨by simp [rows], by simp [rows], fun r hr s hs => by
    simp [rows] at hr hs; subst hr hs; exact .nil⟩
  obtain ⟨W, hW, h⟩ := h [] rows hg hk []
  obtain ⟨bkt, hb, h⟩ := h 1 (by omega)
  obtain ⟨j, hj, c, hc, hj2⟩ := C41_wrong S text [] rows hg [] 1 (by omega) (by decide)
  obtain ⟨i, hi⟩ := List.getElem?_of_mem (hW.perm.mem_iff.mpr hj)
  have h1 := h i j hi
  rw [hj2] at h1
  have := hb.range i (List.getElem?_eq_some_iff.mp hi).1
  injection h1 with h1; injection h1 with h1
  omega

end Verif.Window
