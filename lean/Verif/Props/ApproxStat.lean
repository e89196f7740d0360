import Verif.Model.Approx

/-! # Variance, covariance and HyperLogLog aggregates -/

namespace Verif.Approx

open Go Verif.Val Verif.Aggregate

/-! ## Textbook formulas -/

/-- `Σ x` over the rows. -/
def sumX (ps : List (Rat × Rat)) : Rat := (ps.map (·.1)).sum
/-- `Σ y` over the rows. -/
def sumY (ps : List (Rat × Rat)) : Rat := (ps.map (·.2)).sum
/-- `Σ x·y` over the rows. -/
def sumXY (ps : List (Rat × Rat)) : Rat := (ps.map fun p => p.1 * p.2).sum

/-- The rows in which neither argument is NULL. -/
def complete (rows : List (Option Rat × Option Rat)) : List (Rat × Rat) :=
  rows.filterMap fun r => r.1.bind fun x => r.2.map fun y => (x, y)

/-- The population covariance `E[xy] − E[x]·E[y]`, NULL without rows. -/
def popCov (ps : List (Rat × Rat)) : Option Rat :=
  if ps.length = 0 then none
  else some (sumXY ps / ps.length - sumX ps / ps.length * (sumY ps / ps.length))

/-- The sample covariance `(Σxy − ΣxΣy/n) / (n − 1)`, NULL for fewer than two rows. -/
def sampCov (ps : List (Rat × Rat)) : Option Rat :=
  if ps.length < 2 then none
  else some ((sumXY ps - sumX ps * sumY ps / ps.length) / ((ps.length : Rat) - 1))

theorem total_sum (xs : List Rat) : total xs = xs.sum := by
  induction xs with
  | nil => rfl
  | cons x xs ih => simp only [total, List.foldr_cons, List.sum_cons] at ih ⊢; rw [ih]

theorem pairs_complete (rows : List (Option Rat × Option Rat)) : pairs rows = complete rows := by
  induction rows with
  | nil => rfl
  | cons r rows ih =>
    obtain ⟨x, y⟩ := r
    cases x <;> cases y <;> simp_all [pairs, complete]

theorem devs_expand (ps : List (Rat × Rat)) (a b : Rat) :
    (ps.map fun p => (p.1 - a) * (p.2 - b)).sum = sumXY ps - b * sumX ps - a * sumY ps + ps.length * (a * b) := by
  induction ps with
  | nil => simp [sumXY, sumX, sumY]; grind
  | cons p ps ih =>
    simp only [sumXY, sumX, sumY, List.map_cons, List.sum_cons, List.length_cons] at ih ⊢
    rw [ih]
    have : ((ps.length + 1 : Nat) : Rat) = (ps.length : Rat) + 1 := by exact_mod_cast rfl
    rw [this]
    grind

theorem natCast_ne {n : Nat} (h : n ≠ 0) : (n : Rat) ≠ 0 := by exact_mod_cast h

theorem devs_eq (ps : List (Rat × Rat)) (h : ps ≠ []) : devs ps = sumXY ps - sumX ps * sumY ps / ps.length := by
  have hn : (ps.length : Rat) ≠ 0 := natCast_ne (by simpa using h)
  simp only [devs, mean, total_sum, devs_expand, List.length_map]
  have hx : (ps.map (·.1)).sum = sumX ps := rfl
  have hy : (ps.map (·.2)).sum = sumY ps := rfl
  rw [hx, hy]
  grind

/-! ## C185: COVAR_POP -/

/-- **C185** as a user expects it: COVAR_POP is the population covariance of the rows without NULL. -/
def C185_full : Prop := ∀ rows : List (Option Rat × Option Rat), covarPop rows = popCov (complete rows)

theorem length_ge_two {ps : List (Rat × Rat)} (h0 : ps ≠ []) (h1 : ps.length ≠ 1) : 2 ≤ ps.length := by
  have : ps.length ≠ 0 := by simpa using h0
  omega

theorem sub_one_ne {n : Nat} (h : 2 ≤ n) : (n : Rat) - 1 ≠ 0 := by
  intro e
  have h1 : (n : Rat) = ((1 : Nat) : Rat) := by
    have : ((1 : Nat) : Rat) = 1 := rfl
    rw [this]; grind
  have : n = 1 := by exact_mod_cast h1
  omega

/-- It is the sample covariance: too large by the factor n / (n − 1) when there are two or more
rows, and NULL rather than 0 for a single row. -/
theorem C185_value (rows : List (Option Rat × Option Rat)) (c : Rat) (hc : popCov (complete rows) = some c) :
    covarPop rows = if (complete rows).length = 1 then none
      else some (c * (complete rows).length / ((complete rows).length - 1)) := by
  have hne : complete rows ≠ [] := by
    intro e; simp [popCov, e] at hc
  simp only [covarPop, pairs_complete, if_neg hne, covariance, quot]
  generalize complete rows = ps at *
  by_cases h1 : ps.length = 1
  · have : (ps.length : Rat) - 1 = 0 := by
      rw [h1]
      have : ((1 : Nat) : Rat) = 1 := rfl
      rw [this]; grind
    rw [if_pos this, if_pos h1]
  · have hn : (ps.length : Rat) ≠ 0 := natCast_ne (by simpa using hne)
    have hn1 := sub_one_ne (length_ge_two hne h1)
    rw [if_neg hn1, if_neg h1, devs_eq ps hne]
    simp only [popCov, if_neg (show ps.length ≠ 0 by simpa using hne), Option.some.injEq] at hc
    subst hc
    congr 1
    congr 1
    generalize (ps.length : Rat) = n at *
    grind

/-- **C185**, the part that holds: exactly when there are no rows, or two or more whose
covariance is 0. -/
theorem C185_partial (rows : List (Option Rat × Option Rat)) :
    covarPop rows = popCov (complete rows) ↔
      complete rows = [] ∨ 2 ≤ (complete rows).length ∧ popCov (complete rows) = some 0 := by
  by_cases hne : complete rows = []
  · simp [covarPop, pairs_complete, hne, popCov]
  · have h0 : (complete rows).length ≠ 0 := by simpa using hne
    have hc : ∃ c, popCov (complete rows) = some c := by simp [popCov, h0]
    obtain ⟨c, hc⟩ := hc
    rw [C185_value rows c hc, hc]
    by_cases h1 : (complete rows).length = 1
    · simp [h1, hne]
    · have h2 := length_ge_two hne h1
      have hn1 := sub_one_ne h2
      rw [if_neg h1]
      simp only [Option.some.injEq, hne, false_or, h2, true_and]
      generalize ((complete rows).length : Rat) = n at *
      constructor
      · intro h
        have : c * n = c * (n - 1) := by
          have : c * n / (n - 1) * (n - 1) = c * (n - 1) := by rw [h]
          rwa [Rat.div_mul_cancel hn1] at this
        grind
      · rintro rfl
        grind

theorem C185_full_false : ¬ C185_full := by
  intro h
  have := (C185_partial [(some 1, some 1)]).1 (h _)
  simp [complete] at this

/-! ## C186: COVAR_SAMP, VAR_SAMP and VAR_POP -/

theorem covariance_eq {ps : List (Rat × Rat)} (h : ps ≠ []) : covariance ps = sampCov ps := by
  simp only [covariance, quot, sampCov]
  have h0 : ps.length ≠ 0 := by simpa using h
  by_cases h1 : ps.length = 1
  · have : (ps.length : Rat) - 1 = 0 := by
      rw [h1]
      have : ((1 : Nat) : Rat) = 1 := rfl
      rw [this]; grind
    rw [if_pos this, if_pos (by omega)]
  · have h2 := length_ge_two h h1
    rw [if_neg (sub_one_ne h2), if_neg (by omega), devs_eq ps h]

/-- **C186**: in exact arithmetic, NULLs skipped, COVAR_SAMP is the sample covariance, VAR_SAMP
the sample variance and VAR_POP the population variance. -/
theorem C186 (rows : List (Option Rat × Option Rat)) (xs : List (Option Rat)) :
    covarSamp rows = sampCov (complete rows) ∧
    varSamp xs = sampCov ((xs.filterMap id).map fun x => (x, x)) ∧
    varPop xs = popCov ((xs.filterMap id).map fun x => (x, x)) := by
  refine ⟨?_, ?_, ?_⟩
  · simp only [covarSamp, pairs_complete]
    by_cases h : complete rows = []
    · simp [h, sampCov]
    · rw [if_neg h, covariance_eq h]
  · simp only [varSamp]
    by_cases h : xs.filterMap id = []
    · simp [h, sampCov]
    · have h' : (xs.filterMap id).map (fun x => (x, x)) ≠ [] := by simpa using h
      rw [if_neg h, ← covariance_eq h']
      simp [variance, covariance]
  · simp only [varPop]
    by_cases h : xs.filterMap id = []
    · simp [h, popCov]
    · have h' : (xs.filterMap id).map (fun x => (x, x)) ≠ [] := by simpa using h
      have h0 : ((xs.filterMap id).map (fun x => (x, x))).length ≠ 0 := by simpa using h
      rw [if_neg h]
      simp only [popVariance, quot, popCov, if_neg h0, devs_eq _ h']
      have hl : (xs.filterMap id).length = ((xs.filterMap id).map (fun x => (x, x))).length := by simp
      rw [hl]
      generalize (xs.filterMap id).map (fun x => (x, x)) = ps at *
      have hn := natCast_ne h0
      rw [if_neg hn]
      congr 1
      generalize (ps.length : Rat) = n at *
      grind

example : varSamp [some 1, none, some 3] = some 2 := by decide +kernel
example : varPop [some 1, none, some 3] = some 1 := by decide +kernel
example : covarSamp [(some 1, some 2), (none, some 9), (some 3, some 6)] = some 4 := by decide +kernel

/-! ## C187: sketches -/

theorem foldl_init (H : Hll) (p : Nat) (rows : List Val) (s : Sketch) :
    rows.foldl (initStep H p) (some s) = some (s.1, s.2 ++ rows.map fun v => if v.isNull then 0 else H.hash v) := by
  induction rows generalizing s with
  | nil => simp
  | cons v rows ih => simp only [List.foldl_cons, initStep, Option.getD_some, ih, List.map_cons]; simp

theorem init_eq (H : Hll) (p : Nat) {rows : List Val} (h : rows ≠ []) :
    hllInit H p rows = some (p, rows.map fun v => if v.isNull then 0 else H.hash v) := by
  cases rows with
  | nil => exact absurd rfl h
  | cons v rows => simp only [hllInit, List.foldl_cons, initStep, Option.getD_none, foldl_init]; simp

theorem foldl_merge (p : Nat) (ss : List (Option Sketch)) (l : List Nat) (hp : ∀ s, some s ∈ ss → s.1 = p) :
    ss.foldl mergeStep (some (p, l)) = some (p, l ++ (ss.filterMap id).flatMap (·.2)) := by
  induction ss generalizing l with
  | nil => simp
  | cons s ss ih =>
    have hp' := fun x hx => hp x (List.mem_cons_of_mem _ hx)
    cases s with
    | none => simp only [List.foldl_cons, mergeStep, ih _ hp']; simp
    | some s => simp only [List.foldl_cons, mergeStep, ih _ hp']; simp

/-- The sketches merged, if any. -/
theorem merge_eq (p : Nat) (ss : List (Option Sketch)) (hp : ∀ s, some s ∈ ss → s.1 = p) :
    ss.foldl mergeStep none = if ss.filterMap id = [] then none else some (p, (ss.filterMap id).flatMap (·.2)) := by
  induction ss with
  | nil => rfl
  | cons s ss ih =>
    have hp' := fun x hx => hp x (List.mem_cons_of_mem _ hx)
    cases s with
    | none => rw [List.foldl_cons]; exact ih hp'
    | some s =>
      have hs : s = (p, s.2) := by rw [← hp s List.mem_cons_self]
      rw [List.foldl_cons]
      simp only [mergeStep]
      rw [hs, foldl_merge p ss _ hp']
      simp

/-- **C187**: (1) the estimate depends only on which values occur, not on their order or number;
(2) merging the sketches of several groups estimates as the sketch of all their rows; (3) merging
partial merges estimates as merging everything at once; (4) merging NULLs only, or nothing, estimates 0. -/
theorem C187 (H : Hll) (p : Nat) :
    (∀ a b : List Val, a ≠ [] → b ≠ [] → (∀ v, v ∈ a ↔ v ∈ b) → hllExtract H (hllInit H p a) = hllExtract H (hllInit H p b)) ∧
    (∀ groups : List (List Val), groups.flatten ≠ [] →
      some (hllMerge H (groups.map (hllInit H p))) = hllExtract H (hllInit H p groups.flatten)) ∧
    (∀ parts : List (List (Option Sketch)), (∀ ss ∈ parts, ∀ s, some s ∈ ss → s.1 = p) →
      hllMerge H (parts.map hllMergePartial) = hllMerge H parts.flatten) ∧
    (∀ ss : List (Option Sketch), (∀ s ∈ ss, s = none) → hllMerge H ss = 0) := by
  refine ⟨?_, ?_, ?_, ?_⟩
  · intro a b ha hb h
    rw [init_eq H p ha, init_eq H p hb]
    simp only [hllExtract, Option.map_some, Option.some.injEq]
    refine H.card_set _ _ _ fun x => ?_
    simp only [List.mem_map, h]
  · intro groups hne
    have hp : ∀ s, some s ∈ groups.map (hllInit H p) → s.1 = p := by
      intro s hs
      obtain ⟨g, _, hg⟩ := List.mem_map.1 hs
      cases g with
      | nil => cases hg
      | cons v g => rw [init_eq H p (by simp)] at hg; cases hg; rfl
    have hall : ((groups.map (hllInit H p)).filterMap id).flatMap (·.2) =
        groups.flatten.map fun v => if v.isNull then 0 else H.hash v := by
      clear hne hp
      induction groups with
      | nil => rfl
      | cons g groups ih =>
        cases g with
        | nil => simpa [hllInit] using ih
        | cons v g =>
          simp only [List.map_cons, List.filterMap_cons, init_eq H p (List.cons_ne_nil v g), id, List.flatMap_cons, ih,
            List.flatten_cons, List.map_append]
    have hsome : (groups.map (hllInit H p)).filterMap id ≠ [] := by
      intro e; rw [e] at hall
      exact hne (by simpa using hall.symm)
    rw [init_eq H p hne]
    simp only [hllMerge, merge_eq p _ hp, if_neg hsome, hall, hllExtract, Option.map_some]
  · intro parts hp
    have hp1 : ∀ s, some s ∈ parts.map hllMergePartial → s.1 = p := by
      intro s hs
      obtain ⟨ss, h1, h2⟩ := List.mem_map.1 hs
      rw [hllMergePartial, merge_eq p ss (hp ss h1)] at h2
      split at h2
      · cases h2
      · cases h2; rfl
    have hp2 : ∀ s, some s ∈ parts.flatten → s.1 = p := by
      intro s hs
      obtain ⟨ss, h1, h2⟩ := List.mem_flatten.1 hs
      exact hp ss h1 s h2
    have key : ((parts.map hllMergePartial).filterMap id).flatMap (·.2) = (parts.flatten.filterMap id).flatMap (·.2) ∧
        ((parts.map hllMergePartial).filterMap id = [] ↔ parts.flatten.filterMap id = []) := by
      clear hp1 hp2
      induction parts with
      | nil => simp
      | cons ss parts ih =>
        have ih := ih fun s hs => hp s (List.mem_cons_of_mem _ hs)
        have he := merge_eq p ss (hp ss List.mem_cons_self)
        simp only [List.map_cons, List.filterMap_cons, hllMergePartial, he, List.flatten_cons, List.filterMap_append, List.flatMap_append,
          List.append_eq_nil_iff]
        by_cases h : ss.filterMap id = []
        · simp only [h, if_true, id, List.flatMap_nil, List.nil_append, true_and]; exact ih
        · simp only [h, if_false, id, List.flatMap_cons, ih.1, reduceCtorEq, false_and, and_true]
    simp only [hllMerge, merge_eq p _ hp1, merge_eq p _ hp2, key.1]
    by_cases h : parts.flatten.filterMap id = []
    · rw [if_pos h, if_pos (key.2.2 h)]
    · rw [if_neg h, if_neg (fun h' => h (key.2.1 h'))]
  · intro ss hs
    have hp : ∀ s, some s ∈ ss → s.1 = p := fun s h => by cases hs _ h
    have hn : ss.filterMap id = [] := List.filterMap_eq_nil_iff.2 fun s h => hs s h
    simp only [hllMerge, merge_eq p _ hp, hn, if_true]

/-! ## C188: NULL in HLL_COUNT.INIT -/

/-- A sketch library that keeps the hashes and counts the distinct ones. -/
def exactHll (hash : Val → Nat) (card : List Nat → Int) (h : ∀ l l', (∀ x, x ∈ l ↔ x ∈ l') → card l = card l') : Hll where
  hash := hash
  card := fun _ l => card l
  card_set := fun _ l l' => h l l'

/-- **C188** as a user expects it: HLL_COUNT.INIT ignores NULLs; over NULLs alone it is NULL. -/
def C188_full : Prop := ∀ (H : Hll) (p : Nat) (rows : List Val),
  hllExtract H (hllInit H p rows) = hllExtract H (hllInit H p (rows.filter fun v => !v.isNull))

/-- Over a single NULL it is a sketch, not NULL. -/
theorem C188_full_false : ¬ C188_full := by
  intro h
  have := h (exactHll (fun _ => 1) (fun _ => 0) fun _ _ _ => rfl) 15 [.null]
  simp [hllInit, initStep, hllExtract, Val.isNull] at this

/-- **C188**, what holds: the NULLs together count as one more value, of hash 0; without NULLs
the sketch is that of the values' hashes. -/
theorem C188_partial (H : Hll) (p : Nat) (rows : List Val) (hne : rows ≠ []) :
    hllExtract H (hllInit H p rows) = some (H.card p
      ((if rows.any Val.isNull then [0] else []) ++ (rows.filter fun v => !v.isNull).map H.hash)) := by
  rw [init_eq H p hne]
  simp only [hllExtract, Option.map_some, Option.some.injEq]
  refine H.card_set _ _ _ fun x => ?_
  simp only [List.mem_map, List.mem_append, List.mem_filter]
  constructor
  · rintro ⟨v, hv, rfl⟩
    by_cases hn : v.isNull = true
    · left
      have : rows.any Val.isNull = true := List.any_eq_true.2 ⟨v, hv, hn⟩
      simp [hn, this]
    · right; exact ⟨v, ⟨hv, by simpa using hn⟩, by simp [hn]⟩
  · rintro (h | ⟨v, ⟨hv, hn⟩, rfl⟩)
    · split at h
      · rename_i ha
        obtain ⟨v, hv, hn⟩ := List.any_eq_true.1 ha
        exact ⟨v, hv, by simp only [hn, if_true]; exact (List.mem_singleton.1 h).symm⟩
      · simp at h
    · exact ⟨v, hv, by simp at hn; simp [hn]⟩

end Verif.Approx
