import Verif.Props.Approx

/-! # C182: APPROX_QUANTILES on sorted rows -/

namespace Verif.Approx

open Go Verif.Val Verif.Aggregate

set_option exponentiation.threshold 3000

/-- Rounding to float64 keeps the order. -/
theorem roundQ_mono {n m d : Nat} (hd : 0 < d) (h : n ≤ m) : F64.roundQ n d ≤ F64.roundQ m d := by
  rcases Nat.lt_or_eq_of_le h with h | rfl
  · rcases Nat.lt_or_ge (F64.roundQ m d) (F64.roundQ n d) with hlt | hge
    · have h1 := F64.roundQ_nearest (n := n) hd (F64.roundQ_rep m d)
      have h2 := F64.roundQ_nearest (n := m) hd (F64.roundQ_rep n d)
      unfold F64.dist at h1 h2
      have h3 : (d : Int) * (F64.roundQ m d : Int) < (d : Int) * (F64.roundQ n d : Int) := by
        exact_mod_cast Nat.mul_lt_mul_of_pos_left hlt hd
      generalize (d : Int) * (F64.roundQ m d : Int) = a at *
      generalize (d : Int) * (F64.roundQ n d : Int) = b at *
      omega
    · exact hge
  · exact Nat.le_refl _

/-- The number of the element for position `k` units of 100 in `n` rows: the product rounded, upwards to a whole number, less one. -/
def quantPos (n k : Nat) : Nat :=
  let f := F64.roundQ (n * F64.one * F64.roundQ (k * F64.one) (100 * F64.one)) F64.one
  (if f / F64.one * F64.one < f then f / F64.one + 1 else f / F64.one) - 1

theorem f100_eq : f100 = .fin false (100 * F64.one) := by
  obtain ⟨k, e, h⟩ := ofInt_fin (n := 100) (by decide)
  subst h
  unfold f100
  exact e

theorem ceil_mono {L f g : Nat} (h : f ≤ g) :
    (if f / L * L < f then f / L + 1 else f / L) ≤ (if g / L * L < g then g / L + 1 else g / L) := by
  have hd : f / L ≤ g / L := Nat.div_le_div_right h
  have e1 := Nat.div_add_mod f L
  have e2 := Nat.div_add_mod g L
  rw [Nat.mul_comm] at e1 e2
  rcases Nat.lt_or_eq_of_le hd with hd | hd
  · split <;> split <;> omega
  · rw [← hd] at e2 ⊢
    split <;> split <;> omega

theorem quantPos_mono (n : Nat) {k k' : Nat} (h : k ≤ k') : quantPos n k ≤ quantPos n k' := by
  have hp := Float.one_pos
  unfold quantPos
  dsimp only
  refine Nat.sub_le_sub_right (ceil_mono (roundQ_mono hp (Nat.mul_le_mul_left _ (roundQ_mono (by omega) (Nat.mul_le_mul_right _ h))))) 1

theorem quantIdx_eq {n k : Nat} (hn : n ≤ 2 ^ 53) (hk : k ≤ 100 * F64.one) : quantIdx (F64.ofInt n) (.fin false k) = quantPos n k := by
  have hp := Float.one_pos
  obtain ⟨_, e, rfl⟩ := ofInt_fin hn
  have rep : F64.Rep (n * F64.one) := F64.rep_le hn
  have rep1 : F64.Rep F64.one := by have := F64.rep_le (m := 1) (e := 1074) (by decide); simpa [F64.one] using this
  have lim : ∀ m : Nat, m ≤ 2 ^ 53 → m * F64.one < F64.limit := by
    intro m hm
    have := (F64.fit_int (z := m) (by omega)).2
    rwa [Int.natAbs_mul, Int.natAbs_natCast, Int.natAbs_natCast] at this
  have hq : F64.roundQ (k * F64.one) (100 * F64.one) ≤ F64.one := by
    have := roundQ_mono (d := 100 * F64.one) (by omega) (show k * F64.one ≤ F64.one * (100 * F64.one) by
      rw [Nat.mul_comm F64.one]; exact Nat.mul_le_mul_right _ hk)
    rwa [F64.roundQ_exact (by omega) rep1] at this
  have hf : F64.roundQ (n * F64.one * F64.roundQ (k * F64.one) (100 * F64.one)) F64.one ≤ n * F64.one := by
    have := roundQ_mono (d := F64.one) hp (Nat.mul_le_mul_left (n * F64.one) hq)
    rwa [F64.roundQ_exact hp rep] at this
  have h1 : F64.div (.fin false k) f100 = .fin false (F64.roundQ (k * F64.one) (100 * F64.one)) := by
    rw [f100_eq]
    have : F64.roundQ (k * F64.one) (100 * F64.one) < F64.limit := by have := lim 1 (by decide); omega
    simp only [F64.div, F64.round, F64.pack, if_neg (show ¬ 100 * F64.one = 0 by omega), if_pos this]
    rfl
  have h2 : F64.mul (.fin false (n * F64.one)) (.fin false (F64.roundQ (k * F64.one) (100 * F64.one))) =
      .fin false (F64.roundQ (n * F64.one * F64.roundQ (k * F64.one) (100 * F64.one)) F64.one) := by
    simp only [F64.mul, F64.round, F64.pack, if_pos (Nat.lt_of_le_of_lt hf (lim n hn))]
    rfl
  unfold quantIdx quantPos
  dsimp only
  rw [e, h1, h2]
  generalize F64.roundQ (n * F64.one * F64.roundQ (k * F64.one) (100 * F64.one)) F64.one = f at hf ⊢
  have hz : f / F64.one ≤ n := by
    have := Nat.div_le_div_right (c := F64.one) hf
    rwa [Nat.mul_div_cancel _ hp] at this
  have h3 : F64.toInt64 (.fin false f) = (f / F64.one : Nat) := by
    simp only [F64.toInt64, F64.sval, Bool.false_eq_true, if_false]
    generalize f / F64.one = z at hz ⊢
    rw [if_pos (by omega)]
  generalize f / F64.one = z at h3 hz ⊢
  obtain ⟨_, e', rfl⟩ := ofInt_fin (n := z) (by omega)
  rw [h3, e']
  simp only [F64.lt, F64.sval, Bool.false_eq_true, if_false, decide_eq_true_eq]
  by_cases hlt : z * F64.one < f
  · have hlt' : ((z * F64.one : Nat) : Int) < (f : Int) := by exact_mod_cast hlt
    simp only [if_pos hlt, if_pos hlt']
    rw [if_pos (by omega)]; omega
  · have hlt' : ¬ ((z * F64.one : Nat) : Int) < (f : Int) := by exact_mod_cast hlt
    simp only [if_neg hlt, if_neg hlt']
    split <;> omega

/-- The next position is not before this one. -/
theorem next_pos {k : Nat} (hk : F64.Rep k) (num : Int) (hn : 1 ≤ num) :
    (∃ k', F64.add (.fin false k) (f100.div (F64.ofInt num)) = .fin false k' ∧ k ≤ k' ∧ F64.Rep k') ∨
      F64.add (.fin false k) (f100.div (F64.ofInt num)) = .inf false := by
  have hp := Float.one_pos
  have hr : (∃ r, f100.div (F64.ofInt num) = .fin false r) ∨ f100.div (F64.ofInt num) = .inf false := by
    have hs : decide (num < 0) = false := by simp; omega
    rw [f100_eq]
    unfold F64.ofInt F64.round F64.pack
    rw [hs]
    split
    · simp only [F64.div]
      split
      · rw [if_neg (by omega)]; exact .inr rfl
      · unfold F64.round F64.pack
        split
        · exact .inl ⟨_, rfl⟩
        · exact .inr rfl
    · exact .inl ⟨0, rfl⟩
  rcases hr with ⟨r, hr⟩ | hr
  · rw [hr]
    simp only [F64.add, F64.sval, Bool.false_eq_true, if_false]
    split
    · exact .inl ⟨0, rfl, by omega, 0, 0, by decide, by decide⟩
    · have e : ((k : Int) + r).natAbs = k + r := by omega
      have hneg : decide ((k : Int) + r < 0) = false := by simp; omega
      rw [e, hneg]
      unfold F64.round F64.pack
      split
      · refine .inl ⟨_, rfl, ?_, F64.roundQ_rep _ _⟩
        have := roundQ_mono (n := k) (m := k + r) (d := 1) (by decide) (by omega)
        rwa [F64.roundQ_one hk] at this
      · exact .inr rfl
  · rw [hr]; exact .inr rfl

/-- What a loop collects from sorted rows is sorted if its positions and the indices of these ascend. -/
theorem loop_sorted {xs : List Int} (hs : xs.Pairwise (· ≤ ·)) {more : F64 → Bool} {idx : F64 → Int} {next : F64 → F64} {pos : Nat → Nat}
    (hmore : more (.inf false) = false) (hidx : ∀ k, more (.fin false k) = true → idx (.fin false k) = pos k)
    (hmono : ∀ k k', k ≤ k' → pos k ≤ pos k')
    (hnext : ∀ k, F64.Rep k → (∃ k', next (.fin false k) = .fin false k' ∧ k ≤ k' ∧ F64.Rep k') ∨ next (.fin false k) = .inf false)
    (fuel : Nat) : ∀ (k : Nat) (qs : List Val), F64.Rep k →
    quantLoop (xs.map .int) more idx next fuel (.fin false k) = some (.ok qs) →
    ∃ ys : List Int, qs = ys.map .int ∧ ys.Pairwise (· ≤ ·) ∧ ∀ y ∈ ys, ∃ j : Nat, pos k ≤ j ∧ xs[j]? = some y := by
  induction fuel with
  | zero => intro k qs _ h; simp [quantLoop] at h
  | succ fuel ih =>
    intro k qs hk h
    simp only [quantLoop] at h
    split at h
    · rename_i hlt
      rw [hidx k hlt] at h
      split at h
      · rename_i v hv
        obtain ⟨r, hr, e⟩ := Option.map_eq_some_iff.1 h
        cases r with
        | ok vs =>
          simp only [Res.bind, Res.ok.injEq] at e
          subst e
          have hx : ∃ x, v = .int x ∧ xs[pos k]? = some x := by
            simp only [at?] at hv
            rw [if_neg (by omega), Int.toNat_natCast, List.getElem?_map] at hv
            cases e : xs[pos k]? with
            | none => rw [e] at hv; cases hv
            | some x => rw [e] at hv; cases hv; exact ⟨x, rfl, rfl⟩
          obtain ⟨x, rfl, hx⟩ := hx
          have hrest : ∃ ys : List Int, vs = ys.map .int ∧ ys.Pairwise (· ≤ ·) ∧ ∀ y ∈ ys, ∃ j : Nat, pos k ≤ j ∧ xs[j]? = some y := by
            rcases hnext k hk with ⟨k', e', hle, hk'⟩ | e'
            · rw [e'] at hr
              obtain ⟨ys, a, b, c⟩ := ih k' vs hk' hr
              refine ⟨ys, a, b, fun y hy => ?_⟩
              obtain ⟨j, hj, hy⟩ := c y hy
              exact ⟨j, Nat.le_trans (hmono _ _ hle) hj, hy⟩
            · rw [e'] at hr
              cases fuel with
              | zero => simp [quantLoop] at hr
              | succ fuel =>
                simp only [quantLoop, hmore, Bool.false_eq_true, if_false, Option.some.injEq, Res.ok.injEq] at hr
                subst hr
                exact ⟨[], rfl, .nil, fun y hy => by cases hy⟩
          obtain ⟨ys, rfl, b, c⟩ := hrest
          refine ⟨x :: ys, rfl, List.pairwise_cons.2 ⟨fun y hy => ?_, b⟩, fun y hy => ?_⟩
          · obtain ⟨j, hj, hjy⟩ := c y hy
            rcases Nat.lt_or_eq_of_le hj with hj | hj
            · obtain ⟨h1, e1⟩ := List.getElem?_eq_some_iff.1 hx
              obtain ⟨h2, e2⟩ := List.getElem?_eq_some_iff.1 hjy
              rw [← e1, ← e2]
              exact List.pairwise_iff_getElem.1 hs _ _ h1 h2 hj
            · rw [← hj, hx] at hjy; cases hjy; exact Int.le_refl _
          · rcases List.mem_cons.1 hy with rfl | hy
            · exact ⟨_, Nat.le_refl _, hx⟩
            · exact c y hy
        | err => simp [Res.bind] at e
        | panic => simp [Res.bind] at e
      · simp at h
      · simp at h
    · simp only [Option.some.injEq, Res.ok.injEq] at h; subst h
      exact ⟨[], rfl, .nil, fun y hy => by cases hy⟩

theorem le_getLast {xs : List Int} (hs : xs.Pairwise (· ≤ ·)) (h : xs ≠ []) : ∀ x ∈ xs, x ≤ xs.getLast h := by
  intro x hx
  have e := List.dropLast_concat_getLast h
  rw [← e] at hs hx
  rcases List.mem_append.1 hx with hx | hx
  · exact (List.pairwise_append.1 hs).2.2 x hx _ (List.mem_singleton.2 rfl)
  · exact Int.le_of_eq (List.mem_singleton.1 hx)

/-- **C182** holds but for the number of elements if the rows arrive in ascending order and without NULLs: the result is in ascending order,
from the least to the greatest value, and has only values of the rows. -/
theorem C182_sorted_partial (fuel : Nat) (num : Int) (xs : List Int) (v : Val) (hn : 1 ≤ num) (hx : xs ≠ [])
    (hl : xs.length ≤ 2 ^ 53) (hs : xs.Pairwise (· ≤ ·)) (h : quantiles fuel num (xs.map .int) = some (.ok v)) :
    ∃ qs : List Int, v = .arr (qs.map .int) ∧ qs.Pairwise (· ≤ ·) ∧ (∀ q ∈ qs, q ∈ xs) ∧
      ∀ i ∈ xs, (∀ q, qs.head? = some q → q ≤ i) ∧ (∀ q, qs.getLast? = some q → i ≤ q) := by
  obtain ⟨vs, e, hhead, hlast, _, _⟩ := C182_partial fuel num (xs.map .int) v (by simpa using hl) (by omega) (by simpa using hx) h
  have main : ∃ qs : List Int, v = .arr (qs.map .int) ∧ qs.Pairwise (· ≤ ·) ∧ (∀ q ∈ qs, q ∈ xs) := by
    match xs, hx with
    | x :: xs, hx =>
      have hlst : ((x :: xs).map Val.int).getLast (by simp) = .int ((x :: xs).getLast hx) := by rw [List.getLast_map]
      simp only [quantiles, List.map_cons, if_neg (show ¬ num = 0 by omega)] at h
      by_cases h1 : num = 1
      · simp only [if_pos h1, Option.some.injEq, Res.ok.injEq] at h
        refine ⟨[x, (x :: xs).getLast hx], ?_, ?_, ?_⟩
        · rw [← h]; simp only [List.map_cons, List.map_nil]; rw [← hlst]; rfl
        · simpa using le_getLast hs hx x List.mem_cons_self
        · intro q hq
          simp only [List.mem_cons, List.not_mem_nil, or_false] at hq
          rcases hq with rfl | rfl
          · exact List.mem_cons_self
          · exact List.getLast_mem hx
      · simp only [if_neg h1] at h
        obtain ⟨r, hr, er⟩ := Option.map_eq_some_iff.1 h
        cases r with
        | ok ws =>
          simp only [Res.bind, Res.ok.injEq] at er
          have hlen : (Val.int x :: xs.map Val.int).length = (x :: xs).length := by simp
          rw [hlen] at hr
          obtain ⟨ys, rfl, b, c⟩ := loop_sorted (xs := x :: xs) hs (pos := quantPos (x :: xs).length) (by rw [f100_eq]; rfl)
            (fun k hk => quantIdx_eq hl (by
              rw [f100_eq] at hk
              simp only [F64.lt, F64.sval, Bool.false_eq_true, if_false, decide_eq_true_eq] at hk
              omega))
            (fun k k' hk => quantPos_mono _ hk) (fun k hk => next_pos hk num hn) fuel 0 ws ⟨0, 0, by decide, by decide⟩ hr
          refine ⟨ys ++ [(x :: xs).getLast hx], ?_, ?_, ?_⟩
          · rw [← er, List.map_append, List.map_singleton, ← hlst]; rfl
          · refine List.pairwise_append.2 ⟨b, by simp, fun y hy z hz => ?_⟩
            rw [List.mem_singleton.1 hz]
            obtain ⟨j, _, hj⟩ := c y hy
            exact le_getLast hs hx y (List.mem_of_getElem? hj)
          · intro q hq
            rcases List.mem_append.1 hq with hq | hq
            · obtain ⟨j, _, hj⟩ := c q hq
              exact List.mem_of_getElem? hj
            · rw [List.mem_singleton.1 hq]; exact List.getLast_mem hx
        | err => simp [Res.bind] at er
        | panic => simp [Res.bind] at er
  obtain ⟨qs, rfl, b, c⟩ := main
  cases e
  refine ⟨qs, rfl, b, c, fun i hi => ⟨fun q hq => ?_, fun q hq => ?_⟩⟩
  · rw [List.head?_map, List.head?_map, hq] at hhead
    cases hxs : xs with
    | nil => exact absurd hxs hx
    | cons a as =>
      rw [hxs] at hhead hi hs
      simp only [List.head?_cons, Option.map_some, Option.some.injEq, Val.int.injEq] at hhead
      subst hhead
      rcases List.mem_cons.1 hi with rfl | hi
      · exact Int.le_refl _
      · exact (List.pairwise_cons.1 hs).1 i hi
  · rw [List.getLast?_map, List.getLast?_map, hq, List.getLast?_eq_some_getLast hx] at hlast
    simp only [Option.map_some, Option.some.injEq, Val.int.injEq] at hlast
    rw [hlast]; exact le_getLast hs hx i hi

/-- Four sorted rows. -/
example : [1, 4, 5, 9].Pairwise (· ≤ ·) ∧ arrInts (quantiles 9 4 ([1, 4, 5, 9].map .int)) = some [1, 1, 4, 5, 9] := by
  constructor
  · decide
  · decide +kernel

end Verif.Approx
