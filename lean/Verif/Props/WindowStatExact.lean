import Verif.Props.WindowStat
import Verif.Props.WindowRankExact

/-! # C172: exactly when PERCENT_RANK is right, for one INT64 key -/

namespace Verif.WindowStat

open Go Verif.Val Verif.Sql Verif.Window Verif.Aggregate
open Verif.Float (Near)

set_option exponentiation.threshold 3000

theorem one_split : (F64.one : Nat) = 2 ^ 53 * 2 ^ 1021 := by decide +kernel

/-- No FLOAT64 is nearest both to `-1 / d` and to a fraction that is not negative. -/
theorem near_sign {d b : Nat} (hd : 0 < d) (hd' : d < 2 ^ 53) {x : F64} {z : Int} (hz : z = -1) (h1 : Near (z * F64.one) d x) : ¬ Near ((b : Int) * F64.one) d x := by
  intro h2
  subst hz
  match x, h1, h2 with
  | .fin s k, h1, h2 =>
    have a := h1.2 true 1 1021 (by decide)
    have c := h2.2 false 0 0 (by decide)
    have e1 : F64.sval true (1 * 2 ^ 1021) = -((2 ^ 1021 : Nat) : Int) := by simp [F64.sval]
    have e2 : F64.sval false (0 * 2 ^ 0) = 0 := by simp [F64.sval]
    rw [e1] at a
    rw [e2] at c
    generalize hv : F64.sval s k = v at a c
    have hone : ((F64.one : Nat) : Int) = ((2 ^ 53 : Nat) : Int) * ((2 ^ 1021 : Nat) : Int) := by rw [one_split, Int.natCast_mul]
    generalize hq : (2 ^ 1021 : Nat) = q at a hone
    have hqp : 0 < q := by rw [← hq]; exact Nat.two_pow_pos _
    generalize ((F64.one : Nat) : Int) = o at a c hone
    have hdq : (d : Int) * q < o := by
      rw [hone]
      exact Int.mul_lt_mul_of_pos_right (Int.ofNat_lt.2 hd') (by exact_mod_cast hqp)
    have hdq0 : 0 < (d : Int) * q := Int.mul_pos (by exact_mod_cast hd) (by exact_mod_cast hqp)
    have hneg : (d : Int) * -(q : Int) = -((d : Int) * q) := by rw [Int.mul_neg]
    rw [hneg] at a
    rw [Int.mul_zero] at c
    have hb : 0 ≤ (b : Int) * o := Int.mul_nonneg (by omega) (by omega)
    generalize (b : Int) * o = bo at c hb
    generalize (d : Int) * (q : Int) = dq at *
    generalize (d : Int) * v = dv at *
    omega

/-- C172, exact over one INT64 key within 2^53: the row is alone in its partition, or the order is
descending, or its key is positive. -/
theorem C172_iff (S : Sorter) (text : Val → Res (List Char)) (asc : Bool) (rows : List SRow) (hn : rows.length ≤ 2 ^ 53)
    (hg : GoodParts text rows) (hk : IntKeyed rows) (j : Nat) (r : SRow) (hj : rows[j]? = some r) :
    PercentSpec [asc] rows r (percentRank S text (input [asc] rows) ((j : Int) + 1)) ↔
      (asc = true → (∀ m s, rows[m]? = some s → s.parts = r.parts → m = j) ∨ 0 < keyOf r) := by
  have hmem : j ∈ windowOrder S [asc] rows r.parts := mem_windowOrder.mpr ⟨r, hj, rfl⟩
  obtain ⟨i, hi⟩ := List.getElem?_of_mem hmem
  have hlen := (List.getElem?_eq_some_iff.mp hi).1
  have hl := order_length S [asc] rows r.parts
  have hnd := windowOrder_nodup S [asc] rows r.parts
  have hone : (windowOrder S [asc] rows r.parts).length = 1 ↔ ∀ m s, rows[m]? = some s → s.parts = r.parts → m = j := by
    constructor
    · intro h1 m s hs hp
      obtain ⟨a, ha⟩ := List.length_eq_one_iff.1 h1
      have h2 : m ∈ windowOrder S [asc] rows r.parts := mem_windowOrder.mpr ⟨s, hs, hp⟩
      rw [ha, List.mem_singleton] at h2 hmem
      rw [h2, hmem]
    · intro h1
      have := perm_of_mem hnd (by simp : [j].Nodup) (fun m => by
        rw [List.mem_singleton]
        constructor
        · intro hm
          obtain ⟨s, hs, hp⟩ := mem_windowOrder.mp hm
          exact h1 m s hs hp
        · rintro rfl
          exact hmem)
      simpa using this
  by_cases hc : asc = true → 0 < keyOf r
  · refine iff_of_true ?_ (fun ha => .inr (hc ha))
    obtain ⟨before, hb, hbm, hrank⟩ := (C40_rank_iff S text asc rows hg hk j r hj).2 hc
    have hble : before.length ≤ (windowOrder S [asc] rows r.parts).length := by
      rw [perm_of_mem hb (hnd.filter fun m => decide (m ∈ before)) (fun m => ?_)]
      · exact List.length_filter_le _ _
      · simp only [List.mem_filter, decide_eq_true_eq]
        refine ⟨fun hm => ⟨?_, hm⟩, fun hm => hm.2⟩
        obtain ⟨s, hs, hp, _⟩ := (hbm m).mp hm
        exact mem_windowOrder.mpr ⟨s, hs, hp⟩
    refine ⟨before, windowOrder S [asc] rows r.parts, hb, hnd, fun _ => mem_windowOrder, hbm, ?_⟩
    rw [percentRank_of_rank hg hj hi hrank]
    clear hone
    generalize (windowOrder S [asc] rows r.parts).length = n at *
    by_cases h1 : n = 1
    · simp [h1]
    · simp only [if_neg h1]
      refine ⟨_, rfl, ?_⟩
      have e1 : (1 + (before.length : Int)) - 1 = ((before.length : Nat) : Int) := by omega
      have e2 : (n : Int) - 1 = ((n - 1 : Nat) : Int) := by omega
      rw [e1, e2]
      exact F64.near_div (F64.is_ofInt (by omega)) (F64.is_ofInt (by omega)) (by omega) (by omega)
  · have ha : asc = true := Classical.byContradiction fun h => hc fun h' => absurd h' h
    subst ha
    have h0 : keyOf r ≤ 0 := by
      have : ¬ 0 < keyOf r := fun h => hc fun _ => h
      omega
    have hrank := C40_rank_zero S text rows hg hk j r hj h0
    rw [← hone]
    have hp := percentRank_of_rank hg hj hi hrank
    constructor
    · rintro ⟨before, part, hb, hpn, hpm, hbm, x, hx, hnear⟩ -
      have hpl : part.length = (windowOrder S [true] rows r.parts).length :=
        perm_of_mem hpn hnd fun m => by rw [hpm, mem_windowOrder]
      refine .inl (Classical.byContradiction fun h1 => ?_)
      rw [hp, if_neg h1] at hx
      rw [hpl, if_neg h1] at hnear
      injection hx with hx
      clear hone hpl hp
      generalize (windowOrder S [true] rows r.parts).length = n at *
      have e2 : (n : Int) - 1 = ((n - 1 : Nat) : Int) := by omega
      have e1 : (0 : Int) - 1 = -1 := rfl
      rw [e1, e2] at hx
      generalize hz : (-1 : Int) = z at hx
      rw [← hx] at hnear
      have hneg : Near (z * F64.one) (n - 1) ((F64.ofInt z).div (F64.ofInt ((n - 1 : Nat) : Int))) :=
        F64.near_div (F64.is_ofInt (by omega)) (F64.is_ofInt (by omega)) (by omega) (by omega)
      exact near_sign (d := n - 1) (b := before.length) (by omega) (by omega) hz.symm hneg hnear
    · intro h1
      have h1 : (windowOrder S [true] rows r.parts).length = 1 := (h1 rfl).resolve_right (by omega)
      refine ⟨[], windowOrder S [true] rows r.parts, List.nodup_nil, hnd, fun _ => mem_windowOrder, ?_, .fin false 0, by rw [hp, if_pos h1], by rw [if_pos h1]⟩
      intro m
      simp only [List.not_mem_nil, false_iff]
      rintro ⟨s, hs, hpp, hkb⟩
      have := hone.1 h1 m s hs hpp
      subst this
      rw [hj] at hs
      cases hs
      exact RowBefore_irrefl _ _ hkb

end Verif.WindowStat
