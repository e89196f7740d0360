import Verif.Model.Aggregate
import Verif.Lemmas.Value

/-! # C33, C34, C35: aggregates over a group -/

namespace Verif.Aggregate

open Go Verif.Val Verif.Sql

/-! ## Rows of the SQL types involved -/

/-- A nullable INT64 column value as the aggregate receives it. -/
def ofInt : Option Int → Val
  | none => .null
  | some i => .int i

/-- A nullable NUMERIC/BIGNUMERIC column value. -/
def ofNum (big : Bool) : Option Rat → Val
  | none => .null
  | some r => .num r big

/-- A nullable BOOL column value: SQLite integers. -/
def ofBool : Option Bool → Val
  | none => .null
  | some b => .int (if b then 1 else 0)

/-! ## The accumulator only sees the non-NULL rows -/

theorem feed_append {σ ρ : Type} (st : σ → ρ → Res σ) (s : σ) (xs ys : List ρ) :
    feed st s (xs ++ ys) = (feed st s xs).bind fun s' => feed st s' ys := by
  induction xs generalizing s with
  | nil => rfl
  | cons x xs ih =>
    simp only [List.cons_append, feed]
    cases st s x <;> simp [ih]

theorem feed_filter (f : Fn) (s : Val) (rows : List Val) :
    feed (step f) s rows = feed (stepNN f) s (rows.filter fun v => !v.isNull) := by
  induction rows generalizing s with
  | nil => rfl
  | cons r rows ih =>
    simp only [feed, step]
    cases h : r.isNull
    · simp only [h, Bool.not_false, List.filter_cons_of_pos, feed]
      simp only [Bool.false_eq_true, if_false]
      congr 1; funext s'; exact ih s'
    · simp [h, ih]

/-- NULL rows make no difference to any of these aggregates. -/
theorem run_filter (f : Fn) (rows : List Val) : run f rows = run f (rows.filter fun v => !v.isNull) := by
  unfold run
  rw [feed_filter, feed_filter]
  congr 2
  simp [List.filter_filter]

/-! ## COUNT, COUNTIF -/

theorem wrap64_small {n : Int} (h : 0 ≤ n) (h' : n < 9223372036854775808) : wrap64 n = n :=
  wrap64_eq ⟨by omega, by omega⟩

theorem feed_count (k : Nat) (rows : List Val) (hk : 0 < k) (h : k + rows.length < 9223372036854775808) :
    feed (stepNN .count) (.int k) rows = .ok (.int (k + rows.length)) := by
  induction rows generalizing k with
  | nil => simp [feed]
  | cons r rows ih =>
    simp only [List.length_cons] at h
    have : wrap64 ((k : Int) + 1) = ((k + 1 : Nat) : Int) := by rw [wrap64_small] <;> omega
    simp only [feed, stepNN, Val.isNull, addVal, toInt64, Res.bind'_ok, this, Bool.false_eq_true, if_false]
    rw [ih (k + 1) (by omega) (by omega)]
    simp; omega

/-- C34, COUNT: the number of non-NULL rows, whatever their type. -/
theorem C34_count (rows : List Val) (h : rows.length < 9223372036854775808) :
    run .count rows = .ok (.int (rows.countP fun v => !v.isNull)) := by
  rw [run_filter, List.countP_eq_length_filter]
  have hl : (rows.filter fun v => !v.isNull).length ≤ rows.length := List.length_filter_le _ _
  unfold run
  rw [feed_filter]
  simp only [List.filter_filter, Bool.and_self]
  generalize (rows.filter fun v => !v.isNull) = ns at hl
  cases ns with
  | nil => rfl
  | cons r ns =>
    simp only [List.length_cons] at hl
    simp only [feed, init, stepNN, Val.isNull_null, if_true, Res.bind'_ok]
    rw [show (1 : Int) = ((1 : Nat) : Int) from rfl, feed_count 1 ns (by omega) (by omega)]
    simp [done, Val.isNull]; omega

example : run .count [.int 5, .null, .str ['a']] = .ok (.int 2) := rfl

theorem toBool_tri {v : Val} {b : Bool} (h : ArgTri v (some b)) : toBool v = .ok b := by
  cases h <;> rfl

theorem countIf_feed (rows : List Val) (ts : List Tri) (h : Logic.All2 ArgTri rows ts) :
    ∀ (k : Nat), k + rows.length < 9223372036854775808 →
    feed (step .countIf) (if k = 0 then .null else .int k) rows
      = .ok (if k + ts.countP (· = some true) = 0 then .null else .int ((k + ts.countP (· = some true) : Nat) : Int)) := by
  induction h with
  | nil => intro k _; by_cases h : k = 0 <;> simp [feed, h]
  | @cons r t rows ts hr _ ih =>
    intro k hk
    simp only [List.length_cons] at hk
    cases t with
    | none =>
      cases hr
      simp only [feed, step, Val.isNull_null, if_true, Res.bind'_ok]
      rw [ih k (by omega)]
      simp
    | some b =>
      have hn : r.isNull = false := by cases hr <;> rfl
      simp only [feed, step, hn, Bool.false_eq_true, if_false, stepNN, toBool_tri hr, Res.bind'_ok]
      cases b with
      | false => simp only [Bool.false_eq_true, if_false, Res.bind'_ok]; rw [ih k (by omega)]; simp
      | true =>
        simp only [if_true]
        have hs : (if (if k = 0 then Val.null else Val.int k).isNull = true then Res.ok (Val.int 1)
            else addVal (if k = 0 then Val.null else Val.int k) (.int 1)) = .ok (if k + 1 = 0 then Val.null else .int ((k + 1 : Nat) : Int)) := by
          by_cases h0 : k = 0
          · subst h0; simp
          · simp only [h0, if_false, Val.isNull, Bool.false_eq_true, addVal, toInt64, Res.bind'_ok]
            rw [wrap64_small (by omega) (by omega)]; simp
        rw [hs]
        simp only [Res.bind'_ok]
        rw [ih (k + 1) (by omega)]
        simp; omega

/-- C34, COUNTIF: the number of TRUE rows. -/
theorem C34_countif (rows : List Val) (ts : List Tri) (h : Logic.All2 ArgTri rows ts)
    (hl : rows.length < 9223372036854775808) :
    run .countIf rows = .ok (.int (ts.countP (· = some true))) := by
  have := countIf_feed rows ts h 0 (by omega)
  simp only [if_true] at this
  unfold run init
  rw [this]
  by_cases h0 : ts.countP (· = some true) = 0
  · simp [h0, done]
  · simp [h0, done, Val.isNull]

example : run .countIf [.int 1, .null, .int 0, .bool true] = .ok (.int 2) := rfl

/-! ## SUM and AVG -/

/-- The non-NULL values. -/
def nn {α : Type} (xs : List (Option α)) : List α := xs.filterMap id

@[simp] theorem nn_nil {α : Type} : nn ([] : List (Option α)) = [] := rfl
@[simp] theorem nn_none {α : Type} (xs : List (Option α)) : nn (none :: xs) = nn xs := rfl
@[simp] theorem nn_some {α : Type} (x : α) (xs : List (Option α)) : nn (some x :: xs) = x :: nn xs := rfl

theorem filter_ofInt (xs : List (Option Int)) :
    (xs.map ofInt).filter (fun v => !v.isNull) = (nn xs).map .int := by
  induction xs with
  | nil => rfl
  | cons x xs ih => cases x <;> simp_all [ofInt, Val.isNull]

theorem feed_sum_int (a : Int) (xs : List Int) :
    feed (stepNN .sum) (.int (wrap64 a)) (xs.map .int) = .ok (.int (wrap64 (a + xs.sum))) := by
  induction xs generalizing a with
  | nil => simp [feed]
  | cons x xs ih =>
    simp only [List.map_cons, feed, stepNN, Val.isNull, Bool.false_eq_true, if_false, addVal, toInt64, Res.bind'_ok]
    have : wrap64 (wrap64 a + x) = wrap64 (a + x) := by unfold wrap64; omega
    rw [this, ih]
    simp [Int.add_assoc]

/-- SUM over INT64 rows is the sum reduced to 64 bits, and NULL without rows. -/
theorem sum_int (xs : List (Option Int)) (hr : ∀ i ∈ nn xs, InI64 i) :
    run .sum (xs.map ofInt) = .ok (if nn xs = [] then .null else .int (wrap64 (nn xs).sum)) := by
  rw [run_filter, filter_ofInt]
  unfold run
  rw [feed_filter]
  have : ((nn xs).map Val.int).filter (fun v => !v.isNull) = (nn xs).map .int := by
    rw [List.filter_eq_self]; intro v hv; simp only [List.mem_map] at hv
    obtain ⟨i, _, rfl⟩ := hv; rfl
  rw [this]
  generalize hns : nn xs = ns at hr
  cases ns with
  | nil => rfl
  | cons x ns =>
    simp only [List.map_cons, feed, init, stepNN, Val.isNull_null, if_true, Res.bind'_ok]
    have hx := feed_sum_int x ns
    rw [wrap64_eq (hr x (by simp))] at hx
    rw [hx]
    simp [done]

/-- C34, SUM over INT64: exact sum, NULL if there is no non-NULL row. -/
def C34_sum_full : Prop :=
  ∀ xs : List (Option Int), (∀ i ∈ nn xs, InI64 i) →
    run .sum (xs.map ofInt) = .ok (if nn xs = [] then .null else .int (nn xs).sum)
    ∨ (run .sum (xs.map ofInt) = .err ∧ ¬ InI64 (nn xs).sum)

/-- SUM overflows silently. -/
theorem C34_sum_full_false : ¬ C34_sum_full := by
  intro h
  have := h [some 9223372036854775807, some 1] (by decide)
  rw [sum_int _ (by decide)] at this
  revert this
  simp [nn, wrap64]

/-- C34, SUM over INT64 is exact whenever the sum is an INT64, even if a partial sum
is not. Missing: an error (not a wrapped value) when it is not. -/
theorem C34_sum_int_partial (xs : List (Option Int)) (hr : ∀ i ∈ nn xs, InI64 i) (ht : InI64 (nn xs).sum) :
    run .sum (xs.map ofInt) = .ok (if nn xs = [] then .null else .int (nn xs).sum) := by
  rw [sum_int xs hr, wrap64_eq ht]

/-- C34, SUM over INT64 does what is expected exactly if the sum is an INT64: a sum that is not is never reported. -/
theorem C34_sum_iff (xs : List (Option Int)) (hr : ∀ i ∈ nn xs, InI64 i) :
    (run .sum (xs.map ofInt) = .ok (if nn xs = [] then .null else .int (nn xs).sum)
      ∨ (run .sum (xs.map ofInt) = .err ∧ ¬ InI64 (nn xs).sum)) ↔ InI64 (nn xs).sum := by
  constructor
  · rw [sum_int xs hr]
    rintro (h | ⟨h, _⟩)
    · split at h
      · rename_i h0; rw [h0]; decide
      · simp only [Res.ok.injEq, Val.int.injEq] at h
        rw [← h]
        unfold InI64 wrap64; omega
    · simp at h
  · exact fun ht => .inl (C34_sum_int_partial xs hr ht)

example : run .sum ([some 9223372036854775807, none, some 1, some (-5)].map ofInt) = .ok (.int 9223372036854775803) := rfl

theorem filter_ofNum (big : Bool) (xs : List (Option Rat)) :
    (xs.map (ofNum big)).filter (fun v => !v.isNull) = (nn xs).map (.num · big) := by
  induction xs with
  | nil => rfl
  | cons x xs ih => cases x <;> simp_all [ofNum, Val.isNull]

theorem feed_sum_num (big : Bool) (a : Rat) (xs : List Rat) :
    feed (stepNN .sum) (.num a big) (xs.map (.num · big)) = .ok (.num (a + xs.sum) big) := by
  induction xs generalizing a with
  | nil => simp [feed, Rat.add_zero]
  | cons x xs ih =>
    simp only [List.map_cons, feed, stepNN, Val.isNull, Bool.false_eq_true, if_false, addVal, Res.bind'_ok]
    rw [ih]
    simp [Rat.add_assoc]

/-- C34, SUM over NUMERIC or BIGNUMERIC is the exact sum. -/
theorem C34_sum_numeric (big : Bool) (xs : List (Option Rat)) :
    run .sum (xs.map (ofNum big)) = .ok (if nn xs = [] then .null else .num (nn xs).sum big) := by
  unfold run
  rw [feed_filter, filter_ofNum]
  generalize nn xs = ns
  cases ns with
  | nil => rfl
  | cons x ns =>
    simp only [List.map_cons, feed, init, stepNN, Val.isNull_null, if_true, Res.bind'_ok]
    rw [feed_sum_num]
    simp [done]

example : run .sum ([some (1/2 : Rat), none, some (1/3)].map (ofNum false)) = .ok (.num (5/6) false) := by
  rw [C34_sum_numeric]; simp [nn]; grind

theorem feed_avg (a : Int) (k : Nat) (xs : List (Option Int)) (h : k + xs.length < 9223372036854775808) (hk : 0 < k) :
    feed avgStep (.int (wrap64 a), k) (xs.map ofInt) = .ok (.int (wrap64 (a + (nn xs).sum)), ((k + (nn xs).length : Nat) : Int)) := by
  induction xs generalizing a k with
  | nil => simp [feed]
  | cons x xs ih =>
    simp only [List.length_cons] at h
    cases x with
    | none =>
      simp only [List.map_cons, feed, ofInt, avgStep, Val.isNull_null, if_true, Res.bind'_ok]
      rw [ih a k (by omega) hk]; simp
    | some x =>
      simp only [List.map_cons, feed, ofInt, avgStep, Val.isNull, Bool.false_eq_true, if_false, addVal, toInt64, Res.bind'_ok]
      have h1 : wrap64 (wrap64 a + x) = wrap64 (a + x) := by unfold wrap64; omega
      have h2 : wrap64 ((k : Int) + 1) = ((k + 1 : Nat) : Int) := by rw [wrap64_small] <;> omega
      rw [h1, h2, ih (a + x) (k + 1) (by omega) (by omega)]
      simp [Int.add_assoc]; omega

/-- AVG divides the (64-bit) sum by the number of non-NULL rows, in float64. -/
theorem avg_int (xs : List (Option Int)) (hr : ∀ i ∈ nn xs, InI64 i) (hl : xs.length < 9223372036854775808) :
    avg (xs.map ofInt) = .ok (if nn xs = [] then none else some (f64 (wrap64 (nn xs).sum), f64 (nn xs).length)) := by
  induction xs with
  | nil => rfl
  | cons x xs ih =>
    simp only [List.length_cons] at hl
    cases x with
    | none =>
      have := ih hr (by omega)
      unfold avg at this ⊢
      simp only [List.map_cons, feed, ofInt, avgStep, Val.isNull_null, if_true, Res.bind'_ok]
      rw [this]; by_cases h : nn xs = [] <;> simp [h]
    | some x =>
      unfold avg
      have hw : wrap64 (0 + 1) = ((1 : Nat) : Int) := rfl
      simp only [List.map_cons, feed, ofInt, avgStep, Val.isNull, Bool.false_eq_true, if_false, if_true, Res.bind'_ok, hw]
      have hx := feed_avg x 1 xs (by omega) (by omega)
      rw [wrap64_eq (hr x (by simp))] at hx
      rw [hx]
      simp [toInt64, Int.add_comm]

/-- C34, AVG over INT64: `sum / count` with the exact operands as long as both are
exactly representable; NULL without rows. Missing: the float division itself, and sums
beyond 2^53 (rounded) or beyond INT64 (wrapped, `C34_avg_overflow`). -/
theorem C34_avg_partial (xs : List (Option Int)) (hr : ∀ i ∈ nn xs, InI64 i) (hl : xs.length < 9007199254740992)
    (ht : -9007199254740992 < (nn xs).sum ∧ (nn xs).sum < 9007199254740992) :
    avg (xs.map ofInt) = .ok (if nn xs = [] then none else some ((nn xs).sum, ((nn xs).length : Int))) := by
  have hle : (nn xs).length ≤ xs.length := List.length_filterMap_le _ _
  rw [avg_int xs hr (by omega), wrap64_eq ⟨by omega, by omega⟩, f64_exact ht.1 ht.2, f64_exact (by omega) (by omega)]

example : avg ([some 1, none, some 2].map ofInt) = .ok (some (3, 2)) := rfl

/-- AVG of two large positive numbers is negative. -/
theorem C34_avg_overflow : avg ([some 9223372036854775807, some 9223372036854775807].map ofInt) = .ok (some (-2, 2)) := by
  rfl

/-! ## MIN and MAX -/

/-- `x` is not after (MAX: not before) any other value. -/
def Extreme (isMax : Bool) (x : Scalar) (ys : List Scalar) : Prop :=
  ∀ y ∈ ys, if isMax then ¬ Lt x y else ¬ Lt y x

def mm (isMax : Bool) : Fn := if isMax then .max else .min

theorem feed_mm (isMax : Bool) (rows : List Val) (ys : List Scalar) (h : Logic.All2 Arg1 rows ys) :
    ∀ (s : Val) (x : Scalar), Arg1 s x → (∀ y ∈ ys, SameTy y x) → (∀ y ∈ ys, ∀ z ∈ ys, SameTy y z) →
    ∃ s' x', feed (stepNN (mm isMax)) s rows = .ok s' ∧ Arg1 s' x' ∧ x' ∈ x :: ys ∧ Extreme isMax x' (x :: ys) := by
  induction h with
  | nil =>
    intro s x hs _ _
    refine ⟨s, x, rfl, hs, by simp, ?_⟩
    intro y hy
    simp only [List.mem_singleton] at hy
    subst hy
    cases isMax <;> simp [Lt_irrefl]
  | @cons r y rows ys hr _ ih =>
    intro s x hs hty hall
    have hyx : SameTy y x := hty y (by simp)
    have hnn : s.isNull = false := hs.not_null
    -- one comparison
    have hstep : ∃ s1 x1, stepNN (mm isMax) s r = .ok s1 ∧ Arg1 s1 x1 ∧ (x1 = x ∨ x1 = y) ∧ Extreme isMax x1 [x, y] := by
      cases isMax with
      | true =>
        obtain ⟨c, hc, hi⟩ := cmp_scalar .gt hr hs hyx
        simp only [mm, if_true, stepNN, hnn, Bool.false_eq_true, if_false, hc, Res.bind'_ok]
        cases c with
        | true =>
          refine ⟨r, y, rfl, hr, .inr rfl, ?_⟩
          have hl : Lt x y := hi.mp rfl
          intro z hz; simp only [List.mem_cons, List.not_mem_nil, or_false] at hz
          rcases hz with rfl | rfl
          · simp only [if_true]; exact fun h => Lt_irrefl _ (Lt_trans hl h)
          · simp only [if_true]; exact Lt_irrefl _
        | false =>
          refine ⟨s, x, rfl, hs, .inl rfl, ?_⟩
          have hl : ¬ Lt x y := fun h => by simpa using hi.mpr h
          intro z hz; simp only [List.mem_cons, List.not_mem_nil, or_false] at hz
          rcases hz with rfl | rfl
          · simp only [if_true]; exact Lt_irrefl _
          · simp only [if_true]; exact hl
      | false =>
        obtain ⟨c, hc, hi⟩ := cmp_scalar .lt hr hs hyx
        simp only [mm, Bool.false_eq_true, if_false, stepNN, hnn, hc, Res.bind'_ok]
        cases c with
        | true =>
          refine ⟨r, y, rfl, hr, .inr rfl, ?_⟩
          have hl : Lt y x := hi.mp rfl
          intro z hz; simp only [List.mem_cons, List.not_mem_nil, or_false] at hz
          rcases hz with rfl | rfl
          · simp only [Bool.false_eq_true, if_false]; exact fun h => Lt_irrefl _ (Lt_trans hl h)
          · simp only [Bool.false_eq_true, if_false]; exact Lt_irrefl _
        | false =>
          refine ⟨s, x, rfl, hs, .inl rfl, ?_⟩
          have hl : ¬ Lt y x := fun h => by simpa using hi.mpr h
          intro z hz; simp only [List.mem_cons, List.not_mem_nil, or_false] at hz
          rcases hz with rfl | rfl
          · simp only [Bool.false_eq_true, if_false]; exact Lt_irrefl _
          · simp only [Bool.false_eq_true, if_false]; exact hl
    obtain ⟨s1, x1, he, ha1, hmem, hext⟩ := hstep
    have hx1 : ∀ z ∈ ys, SameTy z x1 := by
      intro z hz
      rcases hmem with rfl | rfl
      · exact hty z (by simp [hz])
      · exact hall z (by simp [hz]) _ (by simp)
    obtain ⟨s', x', hf, ha', hm', hext'⟩ := ih s1 x1 ha1 hx1 (fun a ha b hb => hall a (by simp [ha]) b (by simp [hb]))
    refine ⟨s', x', ?_, ha', ?_, ?_⟩
    · simp only [feed, he, Res.bind'_ok, hf]
    · simp only [List.mem_cons] at hm' ⊢
      rcases hm' with rfl | h
      · rcases hmem with rfl | rfl <;> simp
      · simp [h]
    · have key : ∀ w, (w = x ∨ w = y) → if isMax then ¬ Lt x' w else ¬ Lt w x' := by
        intro w hw
        have h1 := hext w (by simpa using hw)
        have h2 := hext' x1 (by simp)
        have ht : SameTy w x1 ∧ SameTy x' x1 := by
          constructor
          · rcases hw with rfl | rfl <;> rcases hmem with rfl | rfl
            · exact SameTy_refl _
            · exact SameTy_symm hyx
            · exact hyx
            · exact SameTy_refl _
          · rcases List.mem_cons.mp hm' with rfl | h
            · exact SameTy_refl _
            · exact hx1 _ h
        cases isMax with
        | true =>
          simp only [if_true] at h1 h2 ⊢
          intro hlt
          rcases Lt_total ht.1 with h | h | h
          · exact h2 (Lt_trans hlt h)
          · exact h2 (h ▸ hlt)
          · exact h1 h
        | false =>
          simp only [Bool.false_eq_true, if_false] at h1 h2 ⊢
          intro hlt
          rcases Lt_total ht.1 with h | h | h
          · exact h1 h
          · exact h2 (h ▸ hlt)
          · exact h2 (Lt_trans h hlt)
      intro w hw
      simp only [List.mem_cons] at hw
      rcases hw with h | h | h
      · exact key w (.inl h)
      · exact key w (.inr h)
      · exact hext' w (by simp [h])

theorem All2_filter {rows : List Val} {xs : List (Option Scalar)} (h : Logic.All2 Arg rows xs) :
    Logic.All2 Arg1 (rows.filter fun v => !v.isNull) (nn xs) := by
  induction h with
  | nil => exact .nil
  | @cons r x rows xs hr _ ih =>
    cases hr with
    | null => simpa using ih
    | @some v x hv =>
      have := hv.not_null
      simp only [List.filter_cons, this, Bool.not_false, if_true, nn_some]
      exact .cons hv ih

/-- C34, MIN and MAX over any scalar type: one of the non-NULL inputs, with none below
(above) it in the order of the type; NULL without non-NULL input. -/
theorem C34_min_max (isMax : Bool) (rows : List Val) (xs : List (Option Scalar)) (h : Logic.All2 Arg rows xs)
    (hty : ∀ y ∈ nn xs, ∀ z ∈ nn xs, SameTy y z) :
    (nn xs = [] ∧ run (mm isMax) rows = .ok .null) ∨
    ∃ v x, run (mm isMax) rows = .ok v ∧ Arg1 v x ∧ x ∈ nn xs ∧ Extreme isMax x (nn xs) := by
  have h2 := All2_filter h
  have hd : ∀ s, done (mm isMax) s = s := by intro s; cases isMax <;> rfl
  unfold run
  rw [feed_filter]
  generalize hr : rows.filter (fun v => !v.isNull) = rs at h2
  generalize nn xs = ys at h2 hty
  cases h2 with
  | nil =>
    left; refine ⟨rfl, ?_⟩
    cases isMax <;> rfl
  | @cons r y rs ys hr1 hrs =>
    right
    obtain ⟨s', x', hf, ha, hm, he⟩ := feed_mm isMax rs ys hrs r y hr1
      (fun z hz => hty z (by simp [hz]) y (by simp)) (fun a ha b hb => hty a (by simp [ha]) b (by simp [hb]))
    refine ⟨s', x', ?_, ha, hm, he⟩
    have h1 : feed (stepNN (mm isMax)) (init (mm isMax)) (r :: rs) = feed (stepNN (mm isMax)) r rs := by
      cases isMax <;> rfl
    rw [h1, hf, Res.bind'_ok, hd]

example : run .max [.str ['b'], .null, .str ['c'], .str ['a']] = .ok (.str ['c']) := rfl

/-- C34, COUNT(*): the number of rows, whatever they hold. -/
theorem C34_count_star (rows : List (List Val)) (h : rows.length < 9223372036854775808) : countStar rows = rows.length := by
  have key : ∀ (rows : List (List Val)) (k : Nat), k + rows.length < 9223372036854775808 →
      rows.foldl (fun n _ => wrap64 (n + 1)) (k : Int) = k + rows.length := by
    intro rows
    induction rows with
    | nil => intro k _; simp
    | cons r rows ih =>
      intro k hk
      simp only [List.length_cons] at hk
      rw [List.foldl_cons, wrap64_small (by omega) (by omega)]
      have := ih (k + 1) (by omega)
      simp only [Int.natCast_add, Int.natCast_one, List.length_cons] at this ⊢
      rw [this]; omega
  have := key rows 0 (by omega)
  simpa [countStar] using this

example : countStar [[], [.null], [.int 1]] = 3 := rfl

/-- C34, ANY_VALUE: the first non-NULL input, NULL if there is none. -/
theorem C34_any_value (rows : List Val) : run .anyValue rows = .ok (((rows.filter fun v => !v.isNull).head?).getD .null) := by
  unfold run
  rw [feed_filter]
  have hkeep : ∀ (s : Val) (vs : List Val), s.isNull = false → feed (stepNN .anyValue) s vs = .ok s := by
    intro s vs hs
    induction vs with
    | nil => rfl
    | cons v vs ih => simpa [feed, stepNN, hs] using ih
  have hall : ∀ v ∈ rows.filter (fun v => !v.isNull), v.isNull = false := by
    intro v hv; simpa using (List.mem_filter.mp hv).2
  cases hr : rows.filter (fun v => !v.isNull) with
  | nil => rfl
  | cons v vs =>
    have hv := hall v (by rw [hr]; simp)
    simp only [feed, stepNN, init, Val.isNull, if_true, Res.bind'_ok, hkeep v vs hv]
    rfl

example : run .anyValue [.null, .str ['a'], .str ['b']] = .ok (.str ['a']) := rfl

/-! ## Bitwise and logical aggregates -/

/-- C35 as stated: definitions over the non-NULL inputs, NULL on empty input. -/
def C35_full : Prop :=
  (∀ xs : List (Option Int), (∀ i ∈ nn xs, InI64 i) →
    run .bitAnd (xs.map ofInt) = .ok (if nn xs = [] then .null else .int ((nn xs).foldl Arith.bitAnd (-1))) ∧
    run .bitOr (xs.map ofInt) = .ok (if nn xs = [] then .null else .int ((nn xs).foldl Arith.bitOr 0)) ∧
    run .bitXor (xs.map ofInt) = .ok (if nn xs = [] then .null else .int ((nn xs).foldl Arith.bitXor 0))) ∧
  (∀ bs : List (Option Bool),
    run .logicalAnd (bs.map ofBool) = .ok (if nn bs = [] then .null else .bool ((nn bs).all id)) ∧
    run .logicalOr (bs.map ofBool) = .ok (if nn bs = [] then .null else .bool ((nn bs).any id)))

/-- All five give a value on empty input; BIT_OR forgets everything when the running
value is -1, BIT_XOR when it is 1. -/
theorem C35_counterexamples :
    run .bitAnd [] = .ok (.int (-1)) ∧ run .bitOr [] = .ok (.int (-1)) ∧ run .bitXor [] = .ok (.int 1) ∧
    run .logicalAnd [] = .ok (.bool true) ∧ run .logicalOr [] = .ok (.bool false) ∧
    run .bitOr ([some (-1), some 5].map ofInt) = .ok (.int 5) ∧
    run .bitXor ([some 1, some 2].map ofInt) = .ok (.int 2) :=
  ⟨rfl, rfl, rfl, rfl, rfl, rfl, rfl⟩

theorem C35_full_false : ¬ C35_full := by
  intro h
  have := (h.1 [] (by simp)).1
  simp [run, feed, init, done] at this

theorem filter_int (xs : List Int) : (xs.map Val.int).filter (fun v => !v.isNull) = xs.map .int := by
  rw [List.filter_eq_self]; intro v hv; simp only [List.mem_map] at hv
  obtain ⟨i, _, rfl⟩ := hv; rfl

theorem feed_bitAnd (a : Int) (xs : List Int) :
    feed (stepNN .bitAnd) (.int a) (xs.map .int) = .ok (.int (xs.foldl Arith.bitAnd a)) := by
  induction xs generalizing a with
  | nil => rfl
  | cons x xs ih => simp [feed, stepNN, toInt64, Val.isNull, ih]

/-- C35, BIT_AND: right on every input, except that no input gives -1. -/
theorem C35_bit_and_partial (xs : List (Option Int)) :
    run .bitAnd (xs.map ofInt) = .ok (.int ((nn xs).foldl Arith.bitAnd (-1))) := by
  unfold run
  rw [feed_filter, filter_ofInt]
  show (feed _ (Val.int (-1)) _).bind _ = _
  rw [feed_bitAnd]; rfl

theorem bits_toInt {a : Int} (h : InI64 a) : (Arith.toBits a).toInt = a := by
  have h1 := h.1
  have h2 := h.2
  unfold Arith.toBits
  rw [BitVec.toInt_ofInt, Int.bmod_eq_of_le] <;> omega

theorem bitOr_zero {a : Int} (h : InI64 a) : Arith.bitOr 0 a = a := by
  have : Arith.toBits 0 = 0#64 := rfl
  rw [Arith.bitOr, this, BitVec.zero_or, bits_toInt h]

theorem bitXor_zero {a : Int} (h : InI64 a) : Arith.bitXor 0 a = a := by
  have : Arith.toBits 0 = 0#64 := rfl
  rw [Arith.bitXor, this, BitVec.zero_xor, bits_toInt h]

/-- The BIT_OR loop is right as long as the running value is never -1. -/
theorem feed_bitOr (a : Int) (xs : List Int) (h : ∀ n, n < xs.length → (xs.take n).foldl Arith.bitOr a ≠ -1) :
    feed (stepNN .bitOr) (.int a) (xs.map .int) = .ok (.int (xs.foldl Arith.bitOr a)) := by
  induction xs generalizing a with
  | nil => rfl
  | cons x xs ih =>
    have h0 : a ≠ -1 := h 0 (by simp)
    simp only [List.map_cons, feed, stepNN, toInt64, Res.bind'_ok, h0, if_false, List.foldl_cons]
    apply ih
    intro n hn
    exact h (n + 1) (by simp; omega)

/-- C35, BIT_OR: right when there is an input and no proper non-empty prefix of the
non-NULL inputs already has all bits set. -/
theorem C35_bit_or_partial (xs : List (Option Int)) (hr : ∀ i ∈ nn xs, InI64 i) (hne : nn xs ≠ [])
    (h : ∀ n, 0 < n → n < (nn xs).length → ((nn xs).take n).foldl Arith.bitOr 0 ≠ -1) :
    run .bitOr (xs.map ofInt) = .ok (.int ((nn xs).foldl Arith.bitOr 0)) := by
  unfold run
  rw [feed_filter, filter_ofInt]
  generalize nn xs = ys at *
  cases ys with
  | nil => exact absurd rfl hne
  | cons y ys =>
    have hy := bitOr_zero (hr y (by simp))
    simp only [List.map_cons, feed, init, stepNN, toInt64, Res.bind'_ok, if_true, List.foldl_cons, hy]
    rw [feed_bitOr]
    · rfl
    · intro n hn
      have := h (n + 1) (by omega) (by simp; omega)
      simpa [hy] using this

example : run .bitOr ([some 4, none, some 1].map ofInt) = .ok (.int 5) := rfl

theorem feed_bitXor (a : Int) (xs : List Int) (h : ∀ n, n < xs.length → (xs.take n).foldl Arith.bitXor a ≠ 1) :
    feed (stepNN .bitXor) (.int a) (xs.map .int) = .ok (.int (xs.foldl Arith.bitXor a)) := by
  induction xs generalizing a with
  | nil => rfl
  | cons x xs ih =>
    have h0 : a ≠ 1 := h 0 (by simp)
    simp only [List.map_cons, feed, stepNN, toInt64, Res.bind'_ok, h0, if_false, List.foldl_cons]
    apply ih
    intro n hn
    exact h (n + 1) (by simp; omega)

/-- C35, BIT_XOR: right when there is an input and no proper non-empty prefix of the
non-NULL inputs has exclusive or 1. -/
theorem C35_bit_xor_partial (xs : List (Option Int)) (hr : ∀ i ∈ nn xs, InI64 i) (hne : nn xs ≠ [])
    (h : ∀ n, 0 < n → n < (nn xs).length → ((nn xs).take n).foldl Arith.bitXor 0 ≠ 1) :
    run .bitXor (xs.map ofInt) = .ok (.int ((nn xs).foldl Arith.bitXor 0)) := by
  unfold run
  rw [feed_filter, filter_ofInt]
  generalize nn xs = ys at *
  cases ys with
  | nil => exact absurd rfl hne
  | cons y ys =>
    have hy := bitXor_zero (hr y (by simp))
    simp only [List.map_cons, feed, init, stepNN, toInt64, Res.bind'_ok, if_true, List.foldl_cons, hy]
    rw [feed_bitXor]
    · rfl
    · intro n hn
      have := h (n + 1) (by omega) (by simp; omega)
      simpa [hy] using this

example : run .bitXor ([some 4, none, some 6].map ofInt) = .ok (.int 2) := rfl

theorem feed_logicalAnd (bs : List (Option Bool)) :
    ∀ c, feed (step .logicalAnd) (.bool c) (bs.map ofBool) = .ok (.bool (c && (nn bs).all id)) := by
  induction bs with
  | nil => intro c; simp [feed]
  | cons b bs ih =>
    intro c
    cases b with
    | none => simp [feed, ofBool, step, ih]
    | some b => cases b <;> simp [feed, ofBool, step, stepNN, Val.isNull, Val.toBool, ih]

theorem feed_logicalOr (bs : List (Option Bool)) :
    ∀ c, feed (step .logicalOr) (.bool c) (bs.map ofBool) = .ok (.bool (c || (nn bs).any id)) := by
  induction bs with
  | nil => intro c; simp [feed]
  | cons b bs ih =>
    intro c
    cases b with
    | none => simp [feed, ofBool, step, ih]
    | some b => cases b <;> simp [feed, ofBool, step, stepNN, Val.isNull, Val.toBool, ih]

/-- C35, LOGICAL_AND and LOGICAL_OR: right on every input, except that no input gives
TRUE and FALSE respectively. -/
theorem C35_logical_partial (bs : List (Option Bool)) :
    run .logicalAnd (bs.map ofBool) = .ok (.bool ((nn bs).all id)) ∧
    run .logicalOr (bs.map ofBool) = .ok (.bool ((nn bs).any id)) := by
  constructor
  · have := feed_logicalAnd bs true
    unfold run
    show (feed _ (Val.bool true) _).bind _ = _
    rw [this]; simp [done]
  · have := feed_logicalOr bs false
    unfold run
    show (feed _ (Val.bool false) _).bind _ = _
    rw [this]; simp [done]

example : run .logicalAnd ([some true, none, some false].map ofBool) = .ok (.bool false) := rfl

/-! ## C33: row order -/

/-- C33 over INT64 columns. -/
def C33_full : Prop :=
  ∀ (f : Fn), f ≠ .anyValue → ∀ xs ys : List (Option Int), (∀ i ∈ nn xs, InI64 i) → xs.Perm ys →
    run f (xs.map ofInt) = run f (ys.map ofInt)

/-- BIT_OR of 5 and -1 depends on which comes first. -/
theorem C33_full_false : ¬ C33_full := by
  intro h
  have := h .bitOr (by decide) [some (-1), some 5] [some 5, some (-1)] (by decide) (List.Perm.swap _ _ _)
  simp [run, feed, step, stepNN, init, done, ofInt, Val.isNull, toInt64] at this
  revert this; decide

/-- Steps that commute give order-independent results, failures included, provided the
two orders fail in the same way. -/
theorem feed_perm {σ ρ : Type} (st : σ → ρ → Res σ) {xs ys : List ρ} (hp : xs.Perm ys)
    (hc : ∀ a ∈ xs, ∀ b ∈ xs, ∀ s, (st s a).bind (fun s' => st s' b) = (st s b).bind (fun s' => st s' a)) :
    ∀ s, feed st s xs = feed st s ys := by
  induction hp with
  | nil => intro s; rfl
  | cons x _ ih =>
    intro s
    simp only [feed]
    congr 1; funext s'
    exact ih (fun a ha b hb => hc a (by simp [ha]) b (by simp [hb])) s'
  | swap x y l =>
    intro s
    have := hc y (by simp) x (by simp) s
    simp only [feed]
    cases h1 : st s y <;> cases h2 : st s x <;> simp_all
    all_goals
      first
        | (rw [← this]; done)
        | (rename_i a b; cases h3 : st a x <;> cases h4 : st b y <;> simp_all)
        | (rename_i a; cases h3 : st a x <;> simp_all)
        | (rename_i a; cases h3 : st a y <;> simp_all)
  | trans h1 _ ih1 ih2 =>
    intro s
    rw [ih1 hc s]
    exact ih2 (fun a ha b hb => hc a (h1.mem_iff.mpr ha) b (h1.mem_iff.mpr hb)) s

theorem nn_perm {α : Type} {xs ys : List (Option α)} (h : xs.Perm ys) : (nn xs).Perm (nn ys) := h.filterMap id

theorem perm_nil_iff {α : Type} {xs ys : List α} (h : xs.Perm ys) : xs = [] ↔ ys = [] :=
  ⟨fun e => by subst e; exact h.nil_eq.symm, fun e => by subst e; exact h.eq_nil⟩

theorem sum_perm {xs ys : List Int} (h : xs.Perm ys) : xs.sum = ys.sum := by
  induction h with
  | nil => rfl
  | cons x _ ih => simp [ih]
  | swap x y l => simp; omega
  | trans _ _ a b => exact a.trans b

/-- COUNT (any type), SUM, AVG, BIT_AND over INT64 and the logical aggregates ignore the order
of the rows, overflow included. -/
theorem C33_partial :
    (∀ rows rows' : List Val, rows.length < 9223372036854775808 → rows.Perm rows' → run .count rows = run .count rows') ∧
    (∀ xs ys : List (Option Int), (∀ i ∈ nn xs, InI64 i) → xs.Perm ys →
      run .sum (xs.map ofInt) = run .sum (ys.map ofInt) ∧
      (xs.length < 9223372036854775808 → avg (xs.map ofInt) = avg (ys.map ofInt)) ∧
      run .bitAnd (xs.map ofInt) = run .bitAnd (ys.map ofInt)) ∧
    (∀ bs cs : List (Option Bool), bs.Perm cs →
      run .logicalAnd (bs.map ofBool) = run .logicalAnd (cs.map ofBool) ∧
      run .logicalOr (bs.map ofBool) = run .logicalOr (cs.map ofBool)) := by
  refine ⟨?_, ?_, ?_⟩
  · intro rows rows' hl hp
    rw [C34_count rows hl, C34_count rows' (by rw [← hp.length_eq]; exact hl), hp.countP_eq]
  · intro xs ys hr hp
    have hq := nn_perm hp
    have hr' : ∀ i ∈ nn ys, InI64 i := fun i hi => hr i (hq.mem_iff.mpr hi)
    refine ⟨?_, ?_, ?_⟩
    · rw [sum_int xs hr, sum_int ys hr', sum_perm hq]
      simp only [perm_nil_iff hq]
    · intro hl
      rw [avg_int xs hr hl, avg_int ys hr' (by rw [← hp.length_eq]; exact hl), sum_perm hq, hq.length_eq]
      simp only [perm_nil_iff hq]
    · rw [C35_bit_and_partial, C35_bit_and_partial]
      congr 2
      apply hq.foldl_eq'
      intro a _ b _ z
      unfold Arith.bitAnd
      have e : ∀ c : BitVec 64, Arith.toBits c.toInt = c := by intro c; simp [Arith.toBits]
      rw [e, e, BitVec.and_assoc, BitVec.and_assoc, BitVec.and_comm (Arith.toBits b)]
  · intro bs cs hp
    have hq := nn_perm hp
    rw [(C35_logical_partial bs).1, (C35_logical_partial cs).1, (C35_logical_partial bs).2, (C35_logical_partial cs).2]
    have ha : (nn bs).all id = (nn cs).all id := by
      rw [Bool.eq_iff_iff, List.all_eq_true, List.all_eq_true]
      exact ⟨fun h x hx => h x (hq.mem_iff.mpr hx), fun h x hx => h x (hq.mem_iff.mp hx)⟩
    have ho : (nn bs).any id = (nn cs).any id := by
      rw [Bool.eq_iff_iff, List.any_eq_true, List.any_eq_true]
      exact ⟨fun ⟨x, hx, h⟩ => ⟨x, hq.mem_iff.mp hx, h⟩, fun ⟨x, hx, h⟩ => ⟨x, hq.mem_iff.mpr hx, h⟩⟩
    rw [ha, ho]
    exact ⟨rfl, rfl⟩

example : run .sum ([some 3, none, some 4].map ofInt) = run .sum ([none, some 4, some 3].map ofInt) := rfl

/-- The value a registered function receives for a nullable scalar. -/
def ofScalar : Option Scalar → Val
  | none => .null
  | some (.int i) => .int i
  | some (.bool b) => .int (if b then 1 else 0)
  | some (.str s) => .str s
  | some (.bytes b) => .bytes b
  | some (.num r g) => .num r g
  | some (.time k n) => .time k n

theorem ofScalar_arg (x : Option Scalar) : Arg (ofScalar x) x := by
  cases x with
  | none => exact .null
  | some x =>
    refine .some ?_
    cases x with
    | bool b => cases b <;> constructor
    | _ => constructor

theorem Arg1_unique {v w : Val} {x : Scalar} (h : Arg1 v x) (h' : Arg1 w x) : v = w := by
  cases h <;> cases h' <;> rfl

theorem All2_map (xs : List (Option Scalar)) : Logic.All2 Arg (xs.map ofScalar) xs := by
  induction xs with
  | nil => exact .nil
  | cons x xs ih => exact .cons (ofScalar_arg x) ih

/-- C33, MIN and MAX over any scalar type do not depend on the order of the rows. -/
theorem C33_min_max (isMax : Bool) (xs ys : List (Option Scalar)) (hty : ∀ y ∈ nn xs, ∀ z ∈ nn xs, SameTy y z)
    (hp : xs.Perm ys) : run (mm isMax) (xs.map ofScalar) = run (mm isMax) (ys.map ofScalar) := by
  have hq := nn_perm hp
  have hty' : ∀ y ∈ nn ys, ∀ z ∈ nn ys, SameTy y z :=
    fun y hy z hz => hty y (hq.mem_iff.mpr hy) z (hq.mem_iff.mpr hz)
  rcases C34_min_max isMax _ xs (All2_map xs) hty with ⟨h1, h2⟩ | ⟨v, x, h1, h2, h3, h4⟩ <;>
    rcases C34_min_max isMax _ ys (All2_map ys) hty' with ⟨k1, k2⟩ | ⟨w, y, k1, k2, k3, k4⟩
  · rw [h2, k2]
  · rw [h1] at hq; rw [hq.nil_eq.symm] at k3; simp at k3
  · rw [k1] at hq; rw [hq.eq_nil] at h3; simp at h3
  · have hxy : x = y := by
      have a := h4 y (hq.mem_iff.mpr k3)
      have b := k4 x (hq.mem_iff.mp h3)
      rcases Lt_total (hty x h3 y (hq.mem_iff.mpr k3)) with h | h | h
      · cases isMax <;> simp at a b <;> contradiction
      · exact h
      · cases isMax <;> simp at a b <;> contradiction
    subst hxy
    rw [h1, k1, Arg1_unique h2 k2]

example : run .min ([some (.str ['b']), none, some (.str ['a'])].map ofScalar)
    = run .min ([some (.str ['a']), some (.str ['b']), none].map ofScalar) := rfl

/-- C33, COUNTIF. -/
theorem C33_countif (bs cs : List (Option Bool)) (hp : bs.Perm cs) (hl : bs.length < 9223372036854775808) :
    run .countIf (bs.map ofBool) = run .countIf (cs.map ofBool) := by
  have h : ∀ ts : List (Option Bool), Logic.All2 ArgTri (ts.map ofBool) ts := by
    intro ts
    induction ts with
    | nil => exact .nil
    | cons t ts ih =>
      refine .cons ?_ ih
      cases t with
      | none => exact .null
      | some b => cases b <;> constructor
  rw [C34_countif _ bs (h bs) (by simpa using hl),
    C34_countif _ cs (h cs) (by simpa [← hp.length_eq] using hl), hp.countP_eq]

end Verif.Aggregate
