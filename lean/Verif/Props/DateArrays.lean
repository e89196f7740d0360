import Verif.Props.Arrays
import Verif.Props.DateArith

/-! # C88: GENERATE_DATE_ARRAY and GENERATE_TIMESTAMP_ARRAY -/

namespace Verif.Arrays

open Go Verif.Val Verif.Logic Verif.Sql Verif.Date Verif.Spec

/-- `f` goes strictly in the direction of the step. -/
def Strict (s : Int) (f : Nat → Int) : Prop := ∀ k, if s > 0 then f k < f (k + 1) else f (k + 1) < f k

theorem strict_steps (b s : Int) : ∀ (fuel : Nat) (f : Nat → Int), Strict s f → Within s b (f 0) → (b - f 0).natAbs < fuel →
    ∃ n : Nat, (∀ k : Nat, k ≤ n → Within s b (f k)) ∧ ¬ Within s b (f (n + 1))
  | 0, _, _, _, h => by omega
  | fuel + 1, f, hm, hw, hf => by
    by_cases hn : Within s b (f 1)
    · obtain ⟨n, h1, h2⟩ := strict_steps b s fuel (fun k => f (k + 1)) (fun k => hm (k + 1)) hn (by
        have := hm 0
        simp only [Nat.zero_add] at this ⊢
        unfold Within at hw hn
        split at hw
        · rename_i hp; rw [if_pos hp] at hn this; omega
        · rename_i hp; rw [if_neg hp] at hn this; omega)
      refine ⟨n + 1, fun k hk => ?_, h2⟩
      cases k with
      | zero => exact hw
      | succ k => exact h1 k (by omega)
    · exact ⟨0, fun k hk => by rw [show k = 0 by omega]; exact hw, hn⟩

/-- The loop computes a sequence that goes in the direction of the step, except for a single value with a negative
step. -/
theorem generates_iff {f : Nat → Int} {next : Int → Int} {a b s : Int} (h0 : f 0 = a) (hnext : ∀ n, next (f n) = f (n + 1))
    (hm : Strict s f) (hs : s ≠ 0) :
    (∃ r, Generates (decide (a ≤ b)) (decide (s > 0)) next (fun x => if a ≤ b then decide (x ≤ b) else decide (b ≤ x)) a (.value r) ∧
      Progression f (Within s b) r) ↔ ¬ (a = b ∧ s < 0) := by
  constructor
  · rintro ⟨r, hg, hp⟩ ⟨rfl, hneg⟩
    simp only [Generates] at hg
    rw [if_pos (by simp; omega)] at hg
    subst hg
    obtain ⟨n, e, _, h2⟩ := hp
    have : n = 0 := by cases n with | zero => rfl | succ n => simp [List.range_succ] at e
    subst this
    apply h2
    unfold Within
    rw [if_neg (by omega), h0]; omega
  · intro hne
    by_cases hup : decide (a ≤ b) = decide (s > 0)
    · have hw : Within s b (f 0) := by
        rw [h0]
        unfold Within
        by_cases hp : s > 0
        · rw [if_pos hp]; simpa [hp] using hup
        · rw [if_neg hp]
          have : ¬ a ≤ b := by simpa [hp] using hup
          omega
      obtain ⟨n, h1, h2⟩ := strict_steps b s _ f hm hw (Nat.lt_succ_self _)
      have hit : ∀ k : Nat, iter next a k = f k := by
        intro k
        induction k with
        | zero => exact h0.symm
        | succ k ih => rw [iter, ih, hnext]
      refine ⟨(List.range (n + 1)).map f, ?_, n + 1, rfl, fun k hk => h1 k (by omega), h2⟩
      simp only [Generates]
      rw [if_neg (by simp [hup])]
      refine ⟨n + 1, ?_⟩
      have := loop_ends next (fun x => if a ≤ b then decide (x ≤ b) else decide (b ≤ x)) n a []
        (fun k hk => by rw [keepEq hup, hit]; exact decide_eq_true (h1 (k + 1) (by omega)))
        (by rw [keepEq hup, hit]; exact decide_eq_false h2)
      rw [this, List.nil_append]
      congr 1
      exact List.map_congr_left fun k _ => hit k
    · refine ⟨[], ?_, 0, rfl, fun k hk => by omega, ?_⟩
      · simp only [Generates]
        simp [hup]
      · rw [h0]
        unfold Within
        by_cases hp : s > 0
        · rw [if_pos hp]; simpa [hp] using hup
        · rw [if_neg hp]
          have : a ≤ b := by simpa [hp] using hup
          omega

/-- The k-th date of the array is the first one moved by k steps. -/
def Nth (p : Date.Part) (a s : Int) (k : Nat) (x : Int) : Prop :=
  match p with
  | .day => x = a + k * s
  | .week _ => x = a + 7 * (k * s)
  | .month => Moved a (k * s) x
  | .quarter => Moved a (3 * (k * s)) x
  | .year => Moved a (12 * (k * s)) x
  | _ => False

/-- GENERATE_DATE_ARRAY(a, b, INTERVAL s p) returns the dates it should. -/
def DateArrayOk (a b s : Int) (p : Date.Part) : Prop :=
  ∃ r, generateDateArray (some a) (some b) s p (.value r) ∧ ∃ f : Nat → Int, (∀ k, Nth p a s k (f k)) ∧ Progression f (Within s b) r

/-- Full C88 for dates; steps beyond the whole range of dates are left out. -/
def C88_full : Prop :=
  ∀ (a b s : Int) (p : Date.Part), IsDate a → IsDate b → s ≠ 0 → s.natAbs ≤ 4000000 →
    (p = .day ∨ p = .week 0 ∨ p = .month ∨ p = .quarter ∨ p = .year) → DateArrayOk a b s p

theorem nth_unique {p a s} {k : Nat} {x y : Int} (hx : Nth p a s k x) (hy : Nth p a s k y) : x = y := by
  cases p <;> simp only [Nth] at hx hy <;> first | exact moved_unique hx hy | omega

/-- One right sequence: then the array is right exactly when it is that sequence. -/
theorem dateArrayOk_iff {a b s : Int} {p : Date.Part} {f : Nat → Int} (hs : s ≠ 0) (hf : ∀ k, Nth p a s k (f k)) (h0 : f 0 = a)
    (hnext : ∀ n, addInterval (f n) s p = f (n + 1)) (hm : Strict s f) : DateArrayOk a b s p ↔ ¬ (a = b ∧ s < 0) := by
  rw [← generates_iff (next := fun x => addInterval x s p) (b := b) h0 hnext hm hs]
  simp only [DateArrayOk, generateDateArray, if_neg hs]
  constructor
  · rintro ⟨r, hg, g, hgn, hp⟩
    have : g = f := funext fun k => nth_unique (hgn k) (hf k)
    subst this
    exact ⟨r, hg, hp⟩
  · rintro ⟨r, hg, hp⟩
    exact ⟨r, hg, f, hf, hp⟩

theorem strict_mul {s : Int} (hs : s ≠ 0) (a c : Int) (hc : 0 < c) : Strict s (fun k : Nat => a + c * (k * s)) := by
  intro k
  have : ((k + 1 : Nat) : Int) * s = k * s + s := by rw [Int.natCast_add, Int.add_mul]; omega
  simp only [this, Int.mul_add]
  split
  · have := Int.mul_pos hc (by assumption : s > 0); omega
  · have := Int.mul_neg_of_pos_of_neg hc (show s < 0 by omega); omega

theorem step_mul (s : Int) (n : Nat) : ((n + 1 : Nat) : Int) * s = n * s + s := by rw [Int.natCast_add, Int.add_mul]; omega

theorem addInterval_day (n v : Int) : addInterval n v .day = n + v := addDate_days n v
theorem addInterval_month (n v : Int) : addInterval n v .month = addDate n 0 v 0 := rfl

theorem addInterval_year (n v : Int) : addInterval n v .year = addDate n v 0 0 := rfl
theorem addInterval_week {v : Int} (h : InI64 (v * 7)) (n : Int) : addInterval n v (.week 0) = n + v * 7 := by
  show addDate n 0 0 (wrap64 (v * 7)) = _
  rw [wrap64_eq h, addDate_days]

/-- **C88** steps of days and weeks: right, except that a single date with a negative step is lost. -/
theorem C88_day_week_partial (a b s : Int) (hs : s ≠ 0) (hI : InI64 (s * 7)) :
    (DateArrayOk a b s .day ↔ ¬ (a = b ∧ s < 0)) ∧ (DateArrayOk a b s (.week 0) ↔ ¬ (a = b ∧ s < 0)) := by
  have hk := step_mul s
  constructor
  · apply dateArrayOk_iff (f := fun k : Nat => a + 1 * (k * s)) hs
    · intro k; simp [Nth]
    · simp
    · intro n
      rw [addInterval_day, hk]; omega
    · exact strict_mul hs a 1 (by decide)
  · apply dateArrayOk_iff (f := fun k : Nat => a + 7 * (k * s)) hs
    · intro k; simp [Nth]
    · simp only [Int.natCast_zero, Int.zero_mul, Int.mul_zero, Int.add_zero]
    · intro n
      rw [addInterval_week hI, hk]; omega
    · exact strict_mul hs a 7 (by decide)

theorem addMonths_eq {x m : Int} (h : dayOf x ≤ 28) : addDate x 0 m 0 = shifted x m := by
  have := lenOf_bound (monthNoOf x + m)
  rw [addDate_eq]
  unfold shifted
  rw [show monthNoOf x + 12 * 0 + m = monthNoOf x + m by omega]
  omega

theorem addYears_eq {x y : Int} (h : dayOf x ≤ 28) : addDate x y 0 0 = shifted x (12 * y) := by
  have := lenOf_bound (monthNoOf x + 12 * y)
  rw [addDate_eq]
  unfold shifted
  rw [show monthNoOf x + 12 * y + 0 = monthNoOf x + 12 * y by omega]
  omega

theorem shifted_day {x m : Int} (h : dayOf x ≤ 28) : dayOf (shifted x m) = dayOf x := by
  have := lenOf_bound (monthNoOf x + m)
  rw [(shifted_spec x m).2]; omega

theorem shifted_shifted {x m k : Int} (h : dayOf x ≤ 28) : shifted (shifted x m) k = shifted x (m + k) := by
  have e := (shifted_spec x m).1
  have d := shifted_day (m := m) h
  unfold shifted at *
  rw [e, d, Int.add_assoc]

theorem shifted_zero {x : Int} (h : dayOf x ≤ 28) : shifted x 0 = x := by
  rw [← addMonths_eq h, addDate_days]; omega

theorem shifted_strict {x : Int} (h : dayOf x ≤ 28) {m k : Int} (hmk : m < k) : shifted x m < shifted x k := by
  have h1 := firstOf_lt (show monthNoOf x + m < monthNoOf x + k by omega)
  have h2 := lenOf_bound (monthNoOf x + m)
  have h3 := lenOf_bound (monthNoOf x + k)
  unfold shifted; omega

/-- **C88** steps of months and years from a day up to the 28th. -/
theorem C88_month_year_partial (a b s : Int) (hs : s ≠ 0) (hd : (civil a).d ≤ 28) :
    (DateArrayOk a b s .month ↔ ¬ (a = b ∧ s < 0)) ∧ (DateArrayOk a b s .year ↔ ¬ (a = b ∧ s < 0)) := by
  have hd' : dayOf a ≤ 28 := hd
  have hk := step_mul s
  constructor
  · apply dateArrayOk_iff (f := fun k : Nat => shifted a (k * s)) hs
    · intro k; exact moved_shifted _ _
    · simpa using shifted_zero hd'
    · intro n
      rw [addInterval_month, hk, addMonths_eq (by rw [shifted_day hd']; exact hd'), shifted_shifted hd']
    · intro k
      simp only [hk]
      split
      · exact shifted_strict hd' (by omega)
      · exact shifted_strict hd' (by omega)
  · apply dateArrayOk_iff (f := fun k : Nat => shifted a (12 * (k * s))) hs
    · intro k; exact moved_shifted _ _
    · simpa using shifted_zero hd'
    · intro n
      rw [addInterval_year, hk, addYears_eq (by rw [shifted_day hd']; exact hd'), shifted_shifted hd']
      congr 1; omega
    · intro k
      simp only [hk]
      split
      · exact shifted_strict hd' (by omega)
      · exact shifted_strict hd' (by omega)

/-- Steps of quarters are steps of days. -/
theorem C88_quarter_is_day (a b : Option Int) (s : Int) (out : Gen (List Int)) :
    generateDateArray a b s .quarter out ↔ generateDateArray a b s .day out := Iff.rfl

/-- From 2024-01-31 in months to 2024-03-31: 2024-01-31, 2024-03-02. -/
theorem C88_month_end : generateDateArray (some (daysOf 2024 1 31)) (some (daysOf 2024 3 31)) 1 .month
    (.value [daysOf 2024 1 31, daysOf 2024 3 2]) ∧ ¬ DateArrayOk (daysOf 2024 1 31) (daysOf 2024 3 31) 1 .month := by
  have hg : generateDateArray (some (daysOf 2024 1 31)) (some (daysOf 2024 3 31)) 1 .month
      (.value [daysOf 2024 1 31, daysOf 2024 3 2]) := by
    simp only [generateDateArray, Generates]
    exact ⟨2, by decide +kernel⟩
  refine ⟨hg, ?_⟩
  rintro ⟨r, hr, f, hf, n, e, h1, h2⟩
  have hr' : r = [daysOf 2024 1 31, daysOf 2024 3 2] := by
    simp only [generateDateArray, Generates] at hr hg
    obtain ⟨x, hx⟩ := hr
    obtain ⟨y, hy⟩ := hg
    exact loop_unique hx hy
  have e1 : f 1 = daysOf 2024 2 29 := moved_unique (hf 1) (by unfold Moved; decide +kernel)
  have hn : n = 2 := by have := congrArg List.length e; rw [hr'] at this; simpa using this.symm
  subst hn
  rw [hr'] at e
  simp only [List.range_succ, List.range_zero, List.nil_append, List.map_cons, List.map_nil, List.cons_append,
    List.cons.injEq, and_true] at e
  have := e.2
  rw [e1] at this
  exact absurd this (by decide +kernel)

theorem C88_full_false : ¬ C88_full := by
  intro h
  exact C88_month_end.2 (h _ _ 1 .month (by unfold IsDate; decide +kernel) (by unfold IsDate; decide +kernel) (by decide) (by decide) (by simp))

example : (civil (daysOf 2024 1 28)).d ≤ 28 ∧ generateDateArray (some (daysOf 2024 1 28)) (some (daysOf 2024 3 31)) 1 .month
    (.value [daysOf 2024 1 28, daysOf 2024 2 28, daysOf 2024 3 28]) := by
  refine ⟨by decide +kernel, ?_⟩
  simp only [generateDateArray, Generates]
  exact ⟨3, by decide +kernel⟩

/-- The length of a part of a timestamp in nanoseconds. -/
def unit : Date.Part → Option Int
  | .microsecond => some 1000
  | .millisecond => some 1000000
  | .second => some 1000000000
  | .minute => some 60000000000
  | .hour => some 3600000000000
  | .day => some 86400000000000
  | _ => none

/-- **C88** GENERATE_TIMESTAMP_ARRAY is right for steps below 2^63 nanoseconds (292 years), except for a single value with
a negative step. -/
theorem C88_timestamp_partial (a b s u : Int) (p : Date.Part) (hu : unit p = some u) (hs : s ≠ 0) (hI : InI64 (s * u)) :
    (∃ r, generateTimestampArray (some a) (some b) s p (.value r) ∧ Progression (fun k : Nat => a + k * (s * u)) (Within s b) r) ↔
      ¬ (a = b ∧ s < 0) := by
  have hd : partNs s p = some (s * u) := by
    cases p <;> simp only [unit, Option.some.injEq, reduceCtorEq] at hu <;> subst hu <;>
      simp only [partNs, us, ms, sec, minute, hour, wrap64_eq hI]
    rw [wrap64_eq (x := s * 3600000000000) (by unfold InI64 at *; omega), Int.mul_assoc]
    exact congrArg some (wrap64_eq hI)
  have hpos : 0 < u := by
    cases p <;> simp only [unit, Option.some.injEq, reduceCtorEq] at hu <;> subst hu <;> decide
  have hk : ∀ n : Nat, ((n + 1 : Nat) : Int) * (s * u) = n * (s * u) + s * u := fun n => by rw [Int.natCast_add, Int.add_mul]; omega
  simp only [generateTimestampArray, if_neg hs, hd]
  apply generates_iff (f := fun k : Nat => a + k * (s * u)) (by simp) (fun n => by simp only [hk]; omega) ?_ hs
  intro k
  simp only [hk]
  split
  · have := Int.mul_pos (by assumption : s > 0) hpos; omega
  · have := Int.mul_neg_of_neg_of_pos (show s < 0 by omega) hpos; omega

example : unit .hour = some 3600000000000 ∧ InI64 (12 * 3600000000000) ∧
    generateTimestampArray (some 0) (some 86400000000000) 12 .hour (.value [0, 43200000000000, 86400000000000]) := by
  refine ⟨rfl, by decide, ?_⟩
  have : partNs 12 .hour = some 43200000000000 := by decide
  simp only [generateTimestampArray, this, Generates]
  exact ⟨3, by decide⟩

/-- **C88** Parts that timestamps cannot be moved by are errors, unless the step leads away from the end, which gives the empty array without looking at the part. -/
theorem C88_timestamp_part (a b s : Int) (p : Date.Part) (hu : unit p = none) (hs : s ≠ 0) (out : Gen (List Int)) :
    generateTimestampArray (some a) (some b) s p out ↔ out = if (a ≤ b ↔ 0 < s) then .error else .value [] := by
  have hd : partNs s p = none := by
    cases p <;> simp only [unit, reduceCtorEq] at hu <;> rfl
  simp only [generateTimestampArray, if_neg hs, hd]
  by_cases h : (a ≤ b ↔ 0 < s)
  · rw [if_pos h, if_pos (decide_eq_decide.mpr h)]
  · rw [if_neg h, if_neg (fun e => h (decide_eq_decide.mp e))]

example : generateTimestampArray (some 0) (some 1) 1 .month .error := (C88_timestamp_part 0 1 1 .month rfl (by decide) _).2 (by decide)

/-- **C88** NULL bounds give NULL. -/
theorem C88_null (a b : Option Int) (s : Int) (p : Date.Part) (h : a = none ∨ b = none) (out : Gen (List Int)) :
    (generateDateArray a b s p out ↔ out = .null) ∧ (generateTimestampArray a b s p out ↔ out = .null) := by
  rcases h with rfl | rfl
  · exact ⟨Iff.rfl, Iff.rfl⟩
  · cases a <;> exact ⟨Iff.rfl, Iff.rfl⟩

end Verif.Arrays
