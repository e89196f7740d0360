import Verif.Props.WindowStatExact
import Verif.Lemmas.Params

/-! # C173: exactly when AVG over a frame is right -/

namespace Verif.WindowStat

open Go Verif.Val Verif.Sql Verif.Window Verif.Aggregate
open Verif.Float (Near)

set_option exponentiation.threshold 3000

/-- A FLOAT64 nearest to a fraction `a / d`, at least 2^-53 in magnitude, is within 2^-52 of it, relatively. -/
theorem near_rel {a : Int} {d : Nat} (ha : a ≠ 0) (hd : 0 < d) (hd' : d < 2 ^ 53) {s : Bool} {k : Nat}
    (h : Near (a * F64.one) d (.fin s k)) :
    2 ^ 52 * (a * F64.one - (d : Int) * F64.sval s k).natAbs ≤ a.natAbs * F64.one := by
  have hone : (F64.one : Nat) = 2 ^ 1074 := by decide +kernel
  have hA : 2 ^ 1074 ≤ a.natAbs * F64.one := by
    rw [hone]
    exact Nat.le_mul_of_pos_left _ (by omega)
  obtain ⟨m, e, hm, h1, h2⟩ : ∃ m e : Nat, m < 2 ^ 53 ∧ d * (m * 2 ^ e) ≤ a.natAbs * F64.one ∧
      2 ^ 52 * (a.natAbs * F64.one - d * (m * 2 ^ e)) ≤ a.natAbs * F64.one := by
    generalize a.natAbs * F64.one = A at hA
    have hQ : 2 ^ 1021 ≤ A / d := by
      rw [Nat.le_div_iff_mul_le hd]
      calc 2 ^ 1021 * d ≤ 2 ^ 1021 * 2 ^ 53 := Nat.mul_le_mul_left _ (Nat.le_of_lt hd')
        _ = 2 ^ 1074 := by rw [← Nat.pow_add]
        _ ≤ A := hA
    have hQ0 : A / d ≠ 0 := Nat.ne_of_gt (Nat.lt_of_lt_of_le (Nat.two_pow_pos _) hQ)
    have hlog : 1021 ≤ Nat.log2 (A / d) := (Nat.le_log2 hQ0).2 hQ
    have l1 : 2 ^ Nat.log2 (A / d) ≤ A / d := Nat.log2_self_le hQ0
    have l2 : A / d < 2 ^ (Nat.log2 (A / d) + 1) := Nat.lt_log2_self
    generalize Nat.log2 (A / d) = g at hlog l1 l2
    have eg : g = 52 + (g - 52) := by omega
    generalize g - 52 = e at eg
    subst eg
    have he : 0 < 2 ^ e := Nat.two_pow_pos e
    have p1 : 2 ^ (52 + e) = 2 ^ 52 * 2 ^ e := Nat.pow_add ..
    have p2 : 2 ^ (52 + e + 1) = 2 ^ 53 * 2 ^ e := by rw [show 52 + e + 1 = 53 + e by omega, Nat.pow_add]
    rw [p1] at l1
    rw [p2] at l2
    clear hQ hQ0 hlog p1 p2
    refine ⟨A / d / 2 ^ e, e, ?_, ?_, ?_⟩
    · exact (Nat.div_lt_iff_lt_mul he).2 l2
    · calc d * (A / d / 2 ^ e * 2 ^ e) ≤ d * (A / d) := Nat.mul_le_mul_left _ (Nat.div_mul_le_self _ _)
        _ ≤ A := Nat.mul_div_le _ _
    · rw [Nat.div_div_eq_div_mul]
      have hlt := Nat.lt_mul_div_succ A (Nat.mul_pos hd he)
      generalize A / (d * 2 ^ e) = m at *
      have e1 : d * 2 ^ e * (m + 1) = d * (m * 2 ^ e) + d * 2 ^ e := by rw [Nat.mul_add, Nat.mul_one, Nat.mul_assoc, Nat.mul_comm (2 ^ e)]
      rw [e1] at hlt
      have h3 : 2 ^ 52 * (d * 2 ^ e) ≤ A := by
        calc 2 ^ 52 * (d * 2 ^ e) = d * (2 ^ 52 * 2 ^ e) := by rw [Nat.mul_left_comm]
          _ ≤ d * (A / d) := Nat.mul_le_mul_left _ l1
          _ ≤ A := Nat.mul_div_le _ _
      refine Nat.le_trans (Nat.mul_le_mul_left _ ?_) h3
      omega
  have h3 := h.2 (decide (a < 0)) m e hm
  refine Nat.le_trans (Nat.mul_le_mul_left _ h3) ?_
  refine Nat.le_trans (Nat.le_of_eq ?_) h2
  congr 1
  have hB : (d : Int) * ((m * 2 ^ e : Nat) : Int) = ((d * (m * 2 ^ e) : Nat) : Int) := (Int.natCast_mul ..).symm
  by_cases hneg : a < 0
  · have e1 : F64.sval (decide (a < 0)) (m * 2 ^ e) = -((m * 2 ^ e : Nat) : Int) := by simp [F64.sval, hneg]
    have e2 : a * (F64.one : Int) = -((a.natAbs * F64.one : Nat) : Int) := by
      rw [Int.natCast_mul, ← Int.neg_mul]
      congr 1
      omega
    rw [e1, e2, Int.mul_neg, hB]
    generalize d * (m * 2 ^ e) = B at *
    generalize a.natAbs * F64.one = A at *
    omega
  · have e1 : F64.sval (decide (a < 0)) (m * 2 ^ e) = ((m * 2 ^ e : Nat) : Int) := by simp [F64.sval, hneg]
    have e2 : a * (F64.one : Int) = ((a.natAbs * F64.one : Nat) : Int) := by
      rw [Int.natCast_mul]
      congr 1
      omega
    rw [e1, e2, hB]
    generalize d * (m * 2 ^ e) = B at *
    generalize a.natAbs * F64.one = A at *
    omega

/-- The same number over different denominators below 2^51 has different nearest FLOAT64s, unless it is zero. -/
theorem near_den {a : Int} {l n : Nat} (ha : a ≠ 0) (hl : 0 < l) (hln : l < n) (hn : n < 2 ^ 51) {x : F64}
    (h1 : Near (a * F64.one) l x) : ¬ Near (a * F64.one) n x := by
  intro h2
  cases x with
  | inf s => exact h1.elim
  | nan => exact h1.elim
  | fin s k =>
    have c1 := near_rel ha hl (by omega) h1
    have c2 := near_rel ha (by omega) (by omega) h2
    have hA : 0 < a.natAbs * F64.one := Nat.mul_pos (by omega) Float.one_pos
    have hna : (a * (F64.one : Int)).natAbs = a.natAbs * F64.one := by rw [Int.natAbs_mul, Int.natAbs_natCast]
    generalize a.natAbs * F64.one = A at *
    generalize a * (F64.one : Int) = z at *
    generalize F64.sval s k = v at *
    -- multiply the first by n, the second by l
    have d1 : n * (2 ^ 52 * (z - l * v).natAbs) ≤ n * A := Nat.mul_le_mul_left _ c1
    have d2 : l * (2 ^ 52 * (z - n * v).natAbs) ≤ l * A := Nat.mul_le_mul_left _ c2
    have e1 : n * (2 ^ 52 * (z - l * v).natAbs) = 2 ^ 52 * ((n : Int) * z - (n : Int) * ((l : Int) * v)).natAbs := by
      rw [← Int.mul_sub, Int.natAbs_mul, Int.natAbs_natCast, Nat.mul_left_comm]
    have e2 : l * (2 ^ 52 * (z - n * v).natAbs) = 2 ^ 52 * ((l : Int) * z - (n : Int) * ((l : Int) * v)).natAbs := by
      rw [show (n : Int) * ((l : Int) * v) = (l : Int) * ((n : Int) * v) from Int.mul_left_comm .., ← Int.mul_sub, Int.natAbs_mul, Int.natAbs_natCast, Nat.mul_left_comm]
    rw [e1] at d1
    rw [e2] at d2
    have e3 : ((n : Int) * z - (l : Int) * z).natAbs = (n - l) * A := by
      rw [← Int.sub_mul, Int.natAbs_mul, hna]
      congr 1
      omega
    have d3 : 2 ^ 52 * ((n - l) * A) ≤ n * A + l * A := by
      rw [← e3]
      generalize (n : Int) * z = p at *
      generalize (l : Int) * z = q at *
      generalize (n : Int) * ((l : Int) * v) = w at *
      omega
    have d4 : 2 ^ 52 * A ≤ 2 ^ 52 * ((n - l) * A) := Nat.mul_le_mul_left _ (Nat.le_mul_of_pos_left _ (by omega))
    have d5 : (n + l) * A < 2 ^ 52 * A := Nat.mul_lt_mul_of_pos_right (by omega) hA
    rw [Nat.add_mul] at d5
    omega

theorem distinct_sum {us ws : List Int} (h1 : us.Nodup) (h2 : ws.Nodup) (h : ∀ z, z ∈ us ↔ z ∈ ws) : us.Perm ws :=
  (List.perm_ext_iff_of_nodup h1 h2).mpr h

theorem perm_sum {us ws : List Int} (h : us.Perm ws) : us.sum = ws.sum := by
  induction h with
  | nil => rfl
  | cons _ _ ih => simp [ih]
  | swap => simp only [List.sum_cons]; omega
  | trans _ _ ih1 ih2 => rw [ih1, ih2]

/-- C173, exact: AVG over a frame of fewer than 2^51 rows is right exactly if no value in it is averaged, or the averaged values
add up to 0, or the frame holds no NULL and, under DISTINCT, no duplicate. -/
theorem C173_iff (text : Val → Res (List Char)) (ht : IntText text) (d : Bool) (vs : List (Option Int)) (hs : Small vs) (hl : vs.length < 2 ^ 51) :
    AvgSpec d vs (avgFrame d text (vs.map asVal)) ↔
      ∀ us : List Int, (if d then us.Nodup ∧ ∀ z, z ∈ us ↔ some z ∈ vs else us = vs.filterMap id) →
        us.sum = 0 ∨ us.length = vs.length := by
  obtain ⟨us, hu, hx⟩ := C173_divisor text ht d vs hs (by omega)
  have huniq : ∀ ws : List Int, (if d then ws.Nodup ∧ ∀ z, z ∈ ws ↔ some z ∈ vs else ws = vs.filterMap id) →
      ws.Perm us := by
    intro ws hw
    cases d with
    | false =>
      have hu : us = vs.filterMap id := hu
      have hw : ws = vs.filterMap id := hw
      rw [hu, hw]
    | true =>
      have hu : us.Nodup ∧ ∀ z, z ∈ us ↔ some z ∈ vs := hu
      have hw : ws.Nodup ∧ ∀ z, z ∈ ws ↔ some z ∈ vs := hw
      exact distinct_sum hw.1 hu.1 fun z => by rw [hw.2, hu.2]
  have hle : us.length ≤ vs.length := by
    cases d with
    | false =>
      have hu : us = vs.filterMap id := hu
      rw [hu]; exact List.length_filterMap_le ..
    | true =>
      have hu : us.Nodup ∧ ∀ z, z ∈ us ↔ some z ∈ vs := hu
      have := Params.length_le_of_nodup_subset (l := us.map some) (m := vs) (by
        rw [List.Nodup, List.pairwise_map]
        exact hu.1.imp fun h e => h (Option.some.inj e)) (by
        intro o ho
        obtain ⟨z, hz, rfl⟩ := List.mem_map.1 ho
        exact (hu.2 z).1 hz)
      simpa using this
  have hcond : (∀ ws : List Int, (if d then ws.Nodup ∧ ∀ z, z ∈ ws ↔ some z ∈ vs else ws = vs.filterMap id) →
        ws.sum = 0 ∨ ws.length = vs.length) ↔ (us.sum = 0 ∨ us.length = vs.length) := by
    constructor
    · intro h; exact h us hu
    · intro h ws hw
      rw [perm_sum (huniq ws hw), (huniq ws hw).length_eq]
      exact h
  rw [hcond]
  constructor
  · rintro ⟨ws, hw, h⟩
    have hp := huniq ws hw
    by_cases h0 : us = []
    · exact .inl (by simp [h0])
    · rw [if_neg h0] at hx
      rw [if_neg (by rintro rfl; exact h0 (List.Perm.nil_eq hp).symm)] at h
      obtain ⟨x, hx, hn⟩ := hx
      obtain ⟨y, hy, hn'⟩ := h
      rw [hx] at hy
      injection hy with hy
      injection hy with hy
      subst hy
      rw [perm_sum hp, hp.length_eq] at hn'
      by_cases hz : us.sum = 0
      · exact .inl hz
      · refine .inr (Classical.byContradiction fun hne => ?_)
        exact near_den hz (List.length_pos_iff.2 h0) (by omega) hl hn' hn
  · intro h
    refine ⟨us, hu, ?_⟩
    by_cases h0 : us = []
    · rw [if_pos h0] at hx ⊢; exact hx
    · rw [if_neg h0] at hx ⊢
      obtain ⟨x, hx, hn⟩ := hx
      refine ⟨x, hx, ?_⟩
      rcases h with hz | he
      · rw [hz, Int.zero_mul] at hn ⊢
        have hpos : 0 < vs.length := Nat.lt_of_lt_of_le (List.length_pos_iff.2 h0) hle
        cases x with
        | inf s => exact hn.elim
        | nan => exact hn.elim
        | fin s k =>
          have h1 := hn.2 false 0 0 (by decide)
          have e2 : F64.sval false (0 * 2 ^ 0) = 0 := by simp [F64.sval]
          rw [e2] at h1
          simp only [Int.mul_zero, Int.sub_zero, Int.natAbs_zero, Nat.le_zero, Int.zero_sub, Int.natAbs_neg, Int.natAbs_mul, Nat.mul_eq_zero, Int.natAbs_natCast] at h1
          have h2 : F64.sval s k = 0 := by
            rcases h1 with h1 | h1 <;> omega
          refine ⟨hn.1, fun t m e _ => ?_⟩
          rw [h2]
          simp
      · rw [he]; exact hn

/-- The same over the rows of a query, for every ROWS frame: a reversed one panics. -/
theorem C173_rows_iff (S : Sorter) (text : Val → Res (List Char)) (ht : IntText text) (flags : List Bool) (rows : List SRow)
    (hg : GoodParts text rows) (hk : GoodKeys flags rows) (hv : ∀ r ∈ rows, ∃ o, r.value = asVal o) (hn : rows.length < 2 ^ 51)
    (p : List (Option Scalar)) :
    ∃ W, WindowOrder flags rows p W ∧ ∀ (b e : Boundary), Grammatical b e → ∀ (d : Bool) (i j : Nat), W[i]? = some j →
      Small ((rowsFrame W b e i).map (intAt rows)) →
      (AvgSpec d ((rowsFrame W b e i).map (intAt rows)) (winAvg d S text .rows b e (input flags rows) ((j : Int) + 1)) ↔
        ¬ Reversed W.length i b e ∧
        ∀ us : List Int, (if d then us.Nodup ∧ ∀ z, z ∈ us ↔ some z ∈ (rowsFrame W b e i).map (intAt rows)
            else us = ((rowsFrame W b e i).map (intAt rows)).filterMap id) →
          us.sum = 0 ∨ us.length = (rowsFrame W b e i).length) := by
  refine ⟨windowOrder S flags rows p, windowOrder_ok S hk p, ?_⟩
  intro b e hge d i j h hs
  by_cases hr : Reversed (windowOrder S flags rows p).length i b e
  · refine iff_of_false ?_ fun h => h.1 hr
    unfold winAvg
    rw [(rows_exact S hg hge h).1 hr]
    rintro ⟨us, _, h2⟩
    split at h2
    · cases h2
    · obtain ⟨x, hx, _⟩ := h2
      cases hx
  · unfold winAvg
    rw [(rows_exact S hg hge h).2 hr, Res.bind'_ok]
    have : (rowsFrame (windowOrder S flags rows p) b e i).map (valueAt rows)
        = ((rowsFrame (windowOrder S flags rows p) b e i).map (intAt rows)).map asVal := by
      rw [List.map_map]; exact List.map_congr_left fun j _ => valueAt_eq hv j
    rw [this]
    have hl : ((rowsFrame (windowOrder S flags rows p) b e i).map (intAt rows)).length < 2 ^ 51 := by
      rw [List.length_map]
      exact Nat.lt_of_le_of_lt (frame_length _ _ _ _) (Nat.lt_of_le_of_lt (order_length _ _ _ _) hn)
    rw [C173_iff text ht d _ hs hl]
    simp only [hr, not_false_eq_true, true_and, List.length_map]

/-- The mean of NULL, 2 and -2 is right, that of NULL and 2 is not. -/
example (text : Val → Res (List Char)) (ht : IntText text) :
    AvgSpec false [none, some 2, some (-2)] (avgFrame false text [.null, .int 2, .int (-2)]) ∧
    ¬ AvgSpec false [none, some 2] (avgFrame false text [.null, .int 2]) := by
  refine ⟨(C173_iff text ht false [none, some 2, some (-2)] (by simp [Small]) (by decide)).2 ?_, fun h => ?_⟩
  · intro us hu
    have hu : us = [2, -2] := hu
    exact .inl (by rw [hu]; rfl)
  · rcases (C173_iff text ht false [none, some 2] (by simp [Small]) (by decide)).1 h [2] rfl with h | h <;> revert h <;> decide

end Verif.WindowStat
