import Verif.Props.Percentile

/-! PERCENTILE_DISC over a window (C175). -/

namespace Verif.WindowStat

open Go Verif.Val Verif.Sql Verif.Window Verif.Aggregate Verif.Logic
open Verif.Float (Near)
open Go.F64 (Is)

set_option exponentiation.threshold 3000

/-! ### C175: PERCENTILE_DISC -/

/-- The value at the fraction of `P` units of the sorted values: the `⌈P⌉`-th, at least the first. -/
def DiscAt (P : Nat) (xs : List Scalar) (out : Res Val) : Prop :=
  ∃ (ys : List Scalar) (v : Val) (y : Scalar), ys.Perm xs ∧ ys.Pairwise (fun a b => ¬ Lt b a) ∧
    ys[max 1 ((P + (F64.one - 1)) / F64.one) - 1]? = some y ∧ out = .ok v ∧ Arg1 v y

/-- PERCENTILE_DISC(x, p) for `p` of `k` units: NULL without values; otherwise the first value whose share
of the values up to it is at least `p` (`p · n` in FLOAT64 arithmetic). -/
def DiscSpec (k : Nat) (xs : List Scalar) (out : Res Val) : Prop :=
  if xs = [] then out = .ok .null
  else ∃ P, Near ((k * xs.length : Nat) : Int) 1 (.fin false P) ∧ DiscAt P xs out

/-- The non-NULL values are of one type. -/
def OneType (ms : List (Option Scalar)) : Prop := ∀ x y, some x ∈ ms → some y ∈ ms → SameTy x y

/-- C175 in full: NULLs are ignored. -/
def C175_full (S : Sorter) : Prop :=
  ∀ (k : Nat) (vs : List Val) (ms : List (Option Scalar)), F64.Ok (.fin false k) → k ≤ F64.one → All2 Arg vs ms → OneType ms →
    vs.length ≤ 2 ^ 53 → DiscSpec k (ms.filterMap id) (percentileDisc S true (.fin false k) vs)

theorem navFilter_args {vs : List Val} {ms : List (Option Scalar)} (h : All2 Arg vs ms) : All2 Arg1 (navFilter true vs) (ms.filterMap id) := by
  unfold navFilter
  simp only [if_true]
  induction h with
  | nil => exact .nil
  | cons h _ ih =>
    cases h with
    | null => simpa [List.filter_cons] using ih
    | some h => simpa [List.filter_cons, h.not_null] using All2.cons h ih

theorem all2_mem {α β} {R : α → β → Prop} {vs : List α} {xs : List β} (h : All2 R vs xs) : ∀ v ∈ vs, ∃ x ∈ xs, R v x := by
  induction h with
  | nil => simp
  | cons h _ ih =>
    intro v hv
    rcases List.mem_cons.mp hv with rfl | hv
    · exact ⟨_, by simp, h⟩
    · obtain ⟨x, hx, hr⟩ := ih v hv; exact ⟨x, by simp [hx], hr⟩

theorem all2_get {α β} {R : α → β → Prop} {vs : List α} {xs : List β} (h : All2 R vs xs) : ∀ (i : Nat) (v : α), vs[i]? = some v → ∃ x, xs[i]? = some x ∧ R v x := by
  induction h with
  | nil => simp
  | cons h _ ih =>
    intro i v hv
    cases i with
    | zero => simp at hv; subst hv; exact ⟨_, rfl, h⟩
    | succ i => simpa using ih i v (by simpa using hv)

theorem all2_length {α β} {R : α → β → Prop} {vs : List α} {xs : List β} (h : All2 R vs xs) : vs.length = xs.length := by
  induction h with
  | nil => rfl
  | cons _ _ ih => simp [ih]

theorem lessDisc_iff {a b : Val} {x y : Scalar} (ha : Arg1 a x) (hb : Arg1 b y) (h : SameTy x y) : lessDisc a b = true ↔ Lt x y := by
  obtain ⟨r, hr, hi⟩ := cmp_scalar .lt ha hb h
  unfold lessDisc
  rw [ha.not_null, hb.not_null, hr]
  simpa [okTrue, OpHolds] using hi

theorem lessDisc_weak {vs : List Val} {xs : List Scalar} (h : All2 Arg1 vs xs) (ht : ∀ x ∈ xs, ∀ y ∈ xs, SameTy x y) :
    StrictWeakOn lessDisc vs := by
  have hm := all2_mem h
  refine ⟨?_, ?_, ?_⟩
  · intro a ha
    obtain ⟨x, hx, hax⟩ := hm a ha
    cases hb : lessDisc a a with
    | false => rfl
    | true => exact absurd ((lessDisc_iff hax hax (ht x hx x hx)).mp hb) (Lt_irrefl x)
  · intro a ha b hb c hc h1 h2
    obtain ⟨x, hx, hax⟩ := hm a ha
    obtain ⟨y, hy, hby⟩ := hm b hb
    obtain ⟨z, hz, hcz⟩ := hm c hc
    rw [lessDisc_iff hax hby (ht x hx y hy)] at h1
    rw [lessDisc_iff hby hcz (ht y hy z hz)] at h2
    rw [lessDisc_iff hax hcz (ht x hx z hz)]
    exact Lt_trans h1 h2
  · intro a ha b hb c hc h1
    obtain ⟨x, hx, hax⟩ := hm a ha
    obtain ⟨y, hy, hby⟩ := hm b hb
    obtain ⟨z, hz, hcz⟩ := hm c hc
    rw [lessDisc_iff hax hby (ht x hx y hy)] at h1
    rw [lessDisc_iff hax hcz (ht x hx z hz), lessDisc_iff hcz hby (ht z hz y hy)]
    rcases Lt_total (ht x hx z hz) with h2 | rfl | h2
    · exact .inl h2
    · exact .inr h1
    · exact .inr (Lt_trans h2 h1)

theorem all2_pairwise {vs : List Val} {xs : List Scalar} (h : All2 Arg1 vs xs) (ht : ∀ x ∈ xs, ∀ y ∈ xs, SameTy x y)
    (hp : vs.Pairwise fun a b => lessDisc b a = false) : xs.Pairwise fun a b => ¬ Lt b a := by
  rw [List.pairwise_iff_getElem] at hp ⊢
  intro i j hi hj hij hlt
  have hl := all2_length h
  obtain ⟨x, hx, ax⟩ := all2_get h i _ (List.getElem?_eq_getElem (by omega))
  obtain ⟨y, hy, ay⟩ := all2_get h j _ (List.getElem?_eq_getElem (by omega))
  rw [List.getElem?_eq_getElem hi] at hx
  rw [List.getElem?_eq_getElem hj] at hy
  cases hx; cases hy
  have := hp i j (by omega) (by omega) hij
  rw [(lessDisc_iff ay ax (ht _ (List.getElem_mem hj) _ (List.getElem_mem hi))).mpr hlt] at this
  cases this

/-- Without values: an index panic. -/
theorem C175_empty (S : Sorter) (k : Nat) (hk : k ≤ F64.one) (vs : List Val) (hv : ∀ v ∈ vs, v.isNull = true) :
    percentileDisc S true (.fin false k) vs = .panic := by
  have h0 : navFilter true vs = [] := by
    unfold navFilter
    simp only [if_true, List.filter_eq_nil_iff]
    intro v h; simp [hv v h]
  have hs : S.sort lessDisc [] = [] := by have := S.perm lessDisc []; simpa using this
  have ip : Is (.fin false k) (k : Int) := ⟨_, _, rfl, rfl⟩
  have i1 : Is (F64.ofInt 1) F64.one := by have := F64.is_ofInt (z := 1) (by decide); rwa [Int.one_mul] at this
  have h1 : Float.lt (.fin false k) (.fin false 0) = false := by
    unfold Float.lt; rw [F64.is_lt ip F64.is_zero, decide_eq_false_iff_not]; omega
  have h2 : Float.gt (.fin false k) (F64.ofInt 1) = false := by
    unfold Float.gt; rw [F64.is_lt i1 ip, decide_eq_false_iff_not]; omega
  have h3 : Is ((F64.fin false k).mul (F64.ofInt (0 : Nat))) 0 :=
    F64.is_mul ip (F64.is_ofInt (z := 0) (by decide)) (by simp) ⟨⟨0, 0, by decide, by decide⟩, by decide +kernel⟩
  have h4 : Float.eq ((F64.fin false k).mul (F64.ofInt (0 : Nat))) (F64.ofInt 0) = true := by
    unfold Float.eq; rw [F64.is_eq h3 (F64.is_ofInt (z := 0) (by decide))]; simp
  unfold percentileDisc
  simp only [h1, h2, h0, hs, Bool.false_eq_true, if_false, Float.mul, Res.bind'_ok, List.length_nil, h4, if_true]
  rfl

theorem disc_unfold (S : Sorter) (p x : F64) (vs sv : List Val) (b b' : Bool) (i : Int) (h1 : Float.lt p (.fin false 0) = false)
    (h2 : Float.gt p (F64.ofInt 1) = false) (hs : S.sort lessDisc (navFilter true vs) = sv)
    (hm : p.mul (F64.ofInt (sv.length : Int)) = x) (h3 : Float.eq x (F64.ofInt 0) = b) (h4 : x.toInt64 = i)
    (h5 : (F64.ofInt i).lt x = b') :
    percentileDisc S true p vs = if b then at? sv 0 else if (if b' then i + 1 else i) - 1 > 0 then at? sv ((if b' then i + 1 else i) - 1)
      else .ok .null := by
  subst hm h3 h4 h5
  unfold percentileDisc
  simp only [h1, h2, hs, Bool.false_eq_true, if_false, Float.mul, Res.bind'_ok]

theorem toInt64_div {P n : Nat} (hq : P / F64.one ≤ n) (hn : n ≤ 2 ^ 53) : (F64.fin false P).toInt64 = ((P / F64.one : Nat) : Int) := by
  generalize hd : P / F64.one = q at *
  simp only [F64.toInt64, F64.sval, Bool.false_eq_true, if_false, hd]
  rw [if_pos ⟨by omega, by omega⟩]

theorem disc_finish {P C n L : Nat} {sv : List Val} {ys xs : List Scalar} {out : Res Val} (hL : 0 < L) (hys : ys.Perm xs)
    (hpw : ys.Pairwise fun a b => ¬ Lt b a) (hay : All2 Arg1 sv ys) (hsl : sv.length = n) (hnpos : 0 < n) (hcn : C ≤ n)
    (hc1 : 1 < C ↔ L < P) (hc0 : P = 0 → C = 0)
    (hout : out = if P = 0 then at? sv 0 else if ((C : Int) - 1) > 0 then at? sv ((C : Int) - 1) else .ok .null) :
    ((∃ (ys : List Scalar) (v : Val) (y : Scalar), ys.Perm xs ∧ ys.Pairwise (fun a b => ¬ Lt b a) ∧
      ys[max 1 C - 1]? = some y ∧ out = .ok v ∧ Arg1 v y) ↔ P = 0 ∨ L < P) ∧ (0 < P → P ≤ L → out = .ok .null) := by
  -- element `i` of the sorted values
  have elem : ∀ i : Nat, i < n → ∃ v y, at? sv (i : Int) = .ok v ∧ ys[i]? = some y ∧ Arg1 v y := by
    intro i hi
    obtain ⟨v, hv'⟩ : ∃ v, sv[i]? = some v := ⟨_, List.getElem?_eq_getElem (by omega)⟩
    obtain ⟨y, hy, ha⟩ := all2_get hay i v hv'
    exact ⟨v, y, at_ok hv', hy, ha⟩
  constructor
  · constructor
    · rintro ⟨ys', v, y, _, _, _, ho, ha⟩
      rw [hout] at ho
      by_cases hP : P = 0
      · exact .inl hP
      · right
        rw [if_neg hP] at ho
        rcases Nat.lt_or_ge L P with h | h
        · exact h
        · exfalso
          have : ¬ 1 < C := fun h' => by have := hc1.mp h'; omega
          rw [if_neg (by omega)] at ho
          injection ho with ho
          subst ho
          cases ha
    · intro h
      rcases h with hP | hP
      · obtain ⟨v, y, hv', hy, ha⟩ := elem 0 hnpos
        refine ⟨ys, v, y, hys, hpw, ?_, ?_, ha⟩
        · rw [hc0 hP]; exact hy
        · rw [hout, if_pos hP]; exact hv'
      · have hC1 := hc1.mpr hP
        obtain ⟨v, y, hv', hy, ha⟩ := elem (C - 1) (by omega)
        refine ⟨ys, v, y, hys, hpw, ?_, ?_, ha⟩
        · rw [Nat.max_eq_right (by omega)]; exact hy
        · have e : (C : Int) - 1 = ((C - 1 : Nat) : Int) := by omega
          rw [hout, if_neg (by rintro rfl; omega), if_pos (by omega), e]; exact hv'
  · intro hp0 hp1
    have : ¬ 1 < C := fun h' => by have := hc1.mp h'; omega
    rw [hout, if_neg (by omega), if_neg (by omega)]

/-- C175, part: with at least one value, `P` being `p · n` in FLOAT64 arithmetic, the answer is right exactly if
`P` is 0 or more than 1; otherwise it is NULL. -/
theorem C175_partial (S : Sorter) (k : Nat) (hk : k ≤ F64.one) (vs : List Val) (ms : List (Option Scalar))
    (hv : All2 Arg vs ms) (ht : OneType ms) (hl : vs.length ≤ 2 ^ 53) (h0 : ms.filterMap id ≠ []) :
    ∃ P, Near ((k * (ms.filterMap id).length : Nat) : Int) 1 (.fin false P) ∧
      (DiscAt P (ms.filterMap id) (percentileDisc S true (.fin false k) vs) ↔ P = 0 ∨ F64.one < P) ∧
      (0 < P → P ≤ F64.one → percentileDisc S true (.fin false k) vs = .ok .null) := by
  have hn := navFilter_args hv
  have hxt : ∀ x ∈ ms.filterMap id, ∀ y ∈ ms.filterMap id, SameTy x y := by
    intro x hx y hy
    exact ht x y (by simpa [List.mem_filterMap] using hx) (by simpa [List.mem_filterMap] using hy)
  have hlen : (navFilter true vs).length ≤ vs.length := by
    unfold navFilter; simp only [if_true]; exact List.length_filter_le _ _
  have hsp := S.perm lessDisc (navFilter true vs)
  have hss := S.sorted _ _ (lessDisc_weak hn hxt)
  obtain ⟨ys, hys', hay⟩ := All2.perm hsp.symm hn
  have hys := hys'.symm
  have hpw : ys.Pairwise fun a b => ¬ Lt b a := by
    refine all2_pairwise hay ?_ hss
    intro x hx y hy; exact hxt x (hys.mem_iff.mp hx) y (hys.mem_iff.mp hy)
  generalize hsv : S.sort lessDisc (navFilter true vs) = sv at *
  have hsl : sv.length = (ms.filterMap id).length := by rw [all2_length hay, hys.length_eq]
  have hyl : ys.length = (ms.filterMap id).length := hys.length_eq
  have hnb : (ms.filterMap id).length ≤ 2 ^ 53 := by rw [← all2_length hn]; omega
  have hnpos : 0 < (ms.filterMap id).length := List.length_pos_iff.mpr h0
  generalize ms.filterMap id = xs at *
  generalize hnn : xs.length = n at *
  have hp := Float.one_pos
  -- the row number
  have hprod : (F64.fin false k).mul (F64.ofInt (n : Int)) = F64.round false (k * (n * F64.one)) F64.one := by
    obtain ⟨s, m, hsm, hval⟩ := F64.is_ofInt (z := (n : Int)) (by omega)
    have hm : m = n * F64.one := by
      have h2 := congrArg Int.natAbs hval
      rwa [Float.natAbs_sval, Int.natAbs_mul, Int.natAbs_natCast, Int.natAbs_natCast] at h2
    have hs : s = false := by
      cases s with
      | false => rfl
      | true =>
        exfalso
        simp only [F64.sval, if_true] at hval
        have h1 : (0 : Int) < m := by rw [hm]; exact_mod_cast Nat.mul_pos hnpos hp
        have h2 : (0 : Int) ≤ n * F64.one := by exact_mod_cast Nat.zero_le _
        omega
    rw [hsm, hm, hs]; rfl
  have hbound : k * (n * F64.one) ≤ F64.one * Float.maxFin := by
    have h1 : k * (n * F64.one) ≤ F64.one * (2 ^ 53 * F64.one) := Nat.mul_le_mul hk (Nat.mul_le_mul_right _ hnb)
    have h2 : F64.one * (2 ^ 53 * F64.one) ≤ F64.one * Float.maxFin := by decide +kernel
    exact Nat.le_trans h1 h2
  have hlt := Float.round_in hp hbound
  have hround : F64.round false (k * (n * F64.one)) F64.one = .fin false (F64.roundQ (k * (n * F64.one)) F64.one) := by
    unfold F64.round F64.pack; rw [if_pos hlt]
  have hnear : Near ((k * n : Nat) : Int) 1 (.fin false (F64.roundQ (k * (n * F64.one)) F64.one)) := by
    rw [← hround]
    apply F64.near_scale (c := F64.one) hp
    rw [Nat.one_mul]
    refine Float.round_near hp ?_ hbound
    simp only [Bool.false_eq_true, if_false]
    push_cast
    generalize (F64.one : Int) = L
    ac_rfl
  have hPn : F64.roundQ (k * (n * F64.one)) F64.one ≤ n * F64.one := by
    have h1 := F64.roundQ_nearest (n := k * (n * F64.one)) hp (z := n * F64.one) (F64.rep_le (e := 1074) hnb)
    unfold F64.dist at h1
    rw [Float.cast_dist 0, Float.cast_dist 0] at h1
    have h2 : k * (n * F64.one) ≤ F64.one * (n * F64.one) := Nat.mul_le_mul_right _ hk
    generalize F64.roundQ (k * (n * F64.one)) F64.one = P at *
    rcases Nat.lt_or_ge (n * F64.one) P with h | h
    · have h3 : F64.one * (n * F64.one + 1) ≤ F64.one * P := Nat.mul_le_mul_left _ h
      rw [Nat.mul_add, Nat.mul_one] at h3
      generalize F64.one * P = A at *
      generalize F64.one * (n * F64.one) = B at *
      generalize k * (n * F64.one) = C at *
      generalize F64.one = L at *
      omega
    · exact h
  refine ⟨F64.roundQ (k * (n * F64.one)) F64.one, hnear, ?_⟩
  generalize F64.roundQ (k * (n * F64.one)) F64.one = P at *
  -- the code
  have ip : Is (.fin false k) (k : Int) := ⟨_, _, rfl, rfl⟩
  have iP : Is (.fin false P) (P : Int) := ⟨_, _, rfl, rfl⟩
  have i1 : Is (F64.ofInt 1) F64.one := by have := F64.is_ofInt (z := 1) (by decide); rwa [Int.one_mul] at this
  have h1 : Float.lt (.fin false k) (.fin false 0) = false := by
    unfold Float.lt; rw [F64.is_lt ip F64.is_zero, decide_eq_false_iff_not]; omega
  have h2 : Float.gt (.fin false k) (F64.ofInt 1) = false := by
    unfold Float.gt; rw [F64.is_lt i1 ip, decide_eq_false_iff_not]; omega
  have h3 : Float.eq (.fin false P) (F64.ofInt 0) = decide (P = 0) := by
    unfold Float.eq; rw [F64.is_eq iP (F64.is_ofInt (z := 0) (by decide)), Int.zero_mul]
    rw [decide_eq_decide]; omega
  have hq : P / F64.one ≤ n := by
    have := Nat.div_le_div_right (c := F64.one) hPn
    rwa [Nat.mul_div_cancel _ hp] at this
  have h4 : (F64.fin false P).toInt64 = ((P / F64.one : Nat) : Int) := by
    exact toInt64_div hq hnb
  have h5 : (F64.ofInt ((P / F64.one : Nat) : Int)).lt (.fin false P) = decide (P / F64.one * F64.one < P) := by
    rw [F64.is_lt (F64.is_ofInt (z := ((P / F64.one : Nat) : Int)) (by rw [Int.natAbs_natCast]; exact Nat.le_trans hq hnb)) iP]
    rw [decide_eq_decide]
    have : (((P / F64.one : Nat) : Int)) * (F64.one : Int) = ((P / F64.one * F64.one : Nat) : Int) := by push_cast; rfl
    rw [this]; omega
  -- the rounded up row number
  have hceil : (if P / F64.one * F64.one < P then ((P / F64.one : Nat) : Int) + 1 else ((P / F64.one : Nat) : Int))
      = (((P + (F64.one - 1)) / F64.one : Nat) : Int) := by
    have hd := Nat.div_add_mod P F64.one
    have hm := Nat.mod_lt P hp
    have hcm : P / F64.one * F64.one = F64.one * (P / F64.one) := Nat.mul_comm _ _
    generalize P / F64.one = q at *
    generalize F64.one = L at *
    split
    · have : (P + (L - 1)) / L = q + 1 := by
        apply Nat.div_eq_of_lt_le
        · rw [Nat.add_mul]; omega
        · rw [Nat.succ_mul, Nat.add_mul]; omega
      rw [this]; push_cast; rfl
    · have : (P + (L - 1)) / L = q := by
        apply Nat.div_eq_of_lt_le
        · omega
        · rw [Nat.succ_mul]; omega
      rw [this]
  have hcn : (P + (F64.one - 1)) / F64.one ≤ n := by
    apply Nat.le_of_lt_succ
    rw [Nat.div_lt_iff_lt_mul hp, Nat.succ_mul]
    generalize n * F64.one = B at *
    generalize F64.one = L at *
    omega
  have hc1 : 1 < (P + (F64.one - 1)) / F64.one ↔ F64.one < P := by
    rw [← Nat.succ_le_iff, Nat.le_div_iff_mul_le hp]
    generalize F64.one = L at *
    omega
  have hc0 : P = 0 → (P + (F64.one - 1)) / F64.one = 0 := by
    rintro rfl
    apply Nat.div_eq_of_lt
    generalize F64.one = L at *
    omega
  have hout : percentileDisc S true (.fin false k) vs =
      if P = 0 then at? sv 0
      else if ((((P + (F64.one - 1)) / F64.one : Nat) : Int) - 1) > 0 then at? sv ((((P + (F64.one - 1)) / F64.one : Nat) : Int) - 1)
      else .ok .null := by
    have hx : (F64.fin false k).mul (F64.ofInt (sv.length : Int)) = .fin false P := by rw [hsl, hprod, hround]
    have := disc_unfold S _ _ vs sv _ _ _ h1 h2 hsv hx h3 h4 h5
    rw [this]
    simp only [decide_eq_true_eq, hceil]
  exact disc_finish hp hys hpw hay hsl hnpos hcn hc1 hc0 hout

/-- The only row of a partition: every percentile above 0 is NULL. -/
theorem C175_full_false (S : Sorter) : ¬ C175_full S := by
  intro h
  have hv : All2 Arg [.int 7] [some (.int 7)] := .cons (.some (.int 7)) .nil
  have ht : OneType [some (.int 7)] := by intro x y hx hy; simp at hx hy; subst hx hy; trivial
  have h1 := h F64.one [.int 7] [some (.int 7)] ⟨by decide +kernel, 1, 1074, by decide, rfl⟩ (Nat.le_refl _) hv ht (by decide)
  obtain ⟨P, hn, _, hnull⟩ := C175_partial S F64.one (Nat.le_refl _) _ _ hv ht (by decide) (by simp)
  have hP : P = F64.one := by
    have := hn.2 false 1 1074 (by decide)
    have e : ((((F64.one * (List.filterMap id [some (Scalar.int 7)]).length : Nat)) : Int) - ((1 : Nat) : Int) * F64.sval false (1 * 2 ^ 1074)).natAbs = 0 := by
      decide +kernel
    rw [e] at this
    simp only [List.filterMap_cons, id, List.filterMap_nil, List.length_singleton, Nat.mul_one, F64.sval, Bool.false_eq_true, if_false] at this
    generalize F64.one = L at *
    omega
  have hnull := hnull (by rw [hP]; exact Float.one_pos) (by rw [hP]; exact Nat.le_refl _)
  unfold DiscSpec at h1
  rw [if_neg (by simp)] at h1
  obtain ⟨P', _, ys, v, y, _, _, _, ho, ha⟩ := h1
  rw [hnull] at ho
  injection ho with ho
  subst ho
  cases ha

/-- Hypotheses met by three values and a NULL. -/
example : All2 Arg [.int 5, .null, .int 2, .int 9] [some (.int 5), none, some (.int 2), some (.int 9)] ∧
    OneType [some (.int 5), none, some (.int 2), some (.int 9)] :=
  ⟨.cons (.some (.int 5)) (.cons .null (.cons (.some (.int 2)) (.cons (.some (.int 9)) .nil))), by
    intro x y hx hy; simp at hx hy; rcases hx with rfl | rfl | rfl <;> rcases hy with rfl | rfl | rfl <;> trivial⟩

end Verif.WindowStat
