import Verif.Props.WindowStat

/-! # C174 and C175: PERCENTILE_CONT and PERCENTILE_DISC -/

namespace Verif.WindowStat

open Go Verif.Val Verif.Sql Verif.Window Verif.Aggregate
open Verif.Float (Near)
open Go.F64 (Is)

set_option exponentiation.threshold 3000

/-! ### C174: PERCENTILE_CONT -/

/-- `z` is the `g`-th smallest of `zs`, counting from 0. -/
def IsKth (zs : List Int) (g : Nat) (z : Int) : Prop :=
  z ∈ zs ∧ zs.countP (fun x => decide (x < z)) ≤ g ∧ g < zs.countP (fun x => decide (x ≤ z))

/-- The values of the finite FLOAT64 in the list, in units. -/
def units (vs : List (Option F64)) : List Int := vs.filterMap fun v => match v with
  | some (.fin s k) => some (F64.sval s k)
  | _ => none

/-- PERCENTILE_CONT(x, p) for `p` of `k` units: NULL without values; otherwise a value between the two
neighbours of row `p · (n − 1)`, and exactly that row's value if it is a whole number. -/
def ContSpec (k : Nat) (zs : List Int) (out : Res (Option F64)) : Prop :=
  if zs = [] then out = .ok none
  else ∃ s m a b, out = .ok (some (.fin s m)) ∧
    IsKth zs (k * (zs.length - 1) / F64.one) a ∧ IsKth zs (min (k * (zs.length - 1) / F64.one + 1) (zs.length - 1)) b ∧
    a ≤ F64.sval s m ∧ F64.sval s m ≤ b ∧ (k * (zs.length - 1) % F64.one = 0 → F64.sval s m = a)

/-- C174 in full: finite FLOAT64 values and NULLs, which are ignored. -/
def C174_full (S : Sorter) : Prop :=
  ∀ (k : Nat) (vs : List (Option F64)), F64.Ok (.fin false k) → k ≤ F64.one → (∀ v ∈ vs, v = none ∨ ∃ s a, v = some (.fin s a) ∧ F64.Ok (.fin s a)) →
    vs.length ≤ 2 ^ 53 → ContSpec k (units vs) (percentileCont S true (.fin false k) vs)

theorem intLess_weak (zs : List Int) : StrictWeakOn (fun a b : Int => decide (a < b)) zs := by
  refine ⟨?_, ?_, ?_⟩
  · intro x _; simp
  · intro x _ y _ z _; simp; omega
  · intro x _ y _ z _; simp; omega

theorem isKth_sorted {zs s : List Int} (hp : s.Perm zs) (hs : s.Pairwise fun a b => decide (b < a) = false) {g : Nat} {z : Int}
    (hg : s[g]? = some z) : IsKth zs g z := by
  have hs' : s.Pairwise fun a b => a ≤ b := hs.imp (by intro a b h; simp at h; omega)
  obtain ⟨hlt, hz⟩ := List.getElem?_eq_some_iff.mp hg
  refine ⟨hp.mem_iff.mp (List.mem_of_getElem? hg), ?_, ?_⟩
  · rw [← hp.countP_eq, ← List.take_append_drop g s, List.countP_append]
    have h0 : (s.drop g).countP (fun x => decide (x < z)) = 0 := by
      rw [List.countP_eq_zero]
      intro x hx
      obtain ⟨m, hm, rfl⟩ := List.getElem_of_mem hx
      simp only [List.length_drop] at hm
      rw [List.getElem_drop]
      simp only [decide_eq_true_eq]
      rcases Nat.eq_zero_or_pos m with rfl | h
      · simp [hz]
      · have := List.pairwise_iff_getElem.mp hs' g (g + m) hlt (by omega) (by omega)
        rw [hz] at this; omega
    rw [h0, Nat.add_zero]
    exact Nat.le_trans List.countP_le_length (by rw [List.length_take]; omega)
  · rw [← hp.countP_eq, ← List.take_append_drop (g + 1) s, List.countP_append]
    have h0 : (s.take (g + 1)).countP (fun x => decide (x ≤ z)) = (s.take (g + 1)).length := by
      rw [List.countP_eq_length]
      intro x hx
      obtain ⟨m, hm, rfl⟩ := List.getElem_of_mem hx
      simp only [List.length_take] at hm
      rw [List.getElem_take]
      simp only [decide_eq_true_eq]
      rcases Nat.lt_or_ge m g with h | h
      · have := List.pairwise_iff_getElem.mp hs' m g (by omega) hlt h
        rw [hz] at this; exact this
      · have : m = g := by omega
        subst this; omega
    rw [h0, List.length_take]
    omega

theorem contValues_ints (vs : List (Option Int)) (h : ∀ z, some z ∈ vs → z.natAbs ≤ 2 ^ 53) :
    contValues true (vs.map (Option.map F64.ofInt)) = .ok (vs.filterMap id, (vs.filterMap id).map F64.ofInt) := by
  induction vs with
  | nil => rfl
  | cons v vs ih =>
    have ih := ih (fun z hz => h z (by simp [hz]))
    cases v with
    | none => simpa [contValues] using ih
    | some z =>
      have hz := h z (by simp)
      simp only [List.map_cons, Option.map_some, contValues, Float.toInt64, ih, Res.bind'_ok, List.filterMap_cons, id]
      rw [F64.is_toInt64 (F64.is_ofInt hz) (by omega) (by omega)]

theorem maxLoop_ints (zs : List Int) : ∀ a : Int, a.natAbs ≤ 2 ^ 53 → (∀ z ∈ zs, z.natAbs ≤ 2 ^ 53) →
    ∃ M, maxLoop (F64.ofInt a) (zs.map F64.ofInt) = F64.ofInt M ∧ M ∈ a :: zs ∧ ∀ z ∈ a :: zs, z ≤ M := by
  induction zs with
  | nil => intro a _ _; exact ⟨a, rfl, by simp, by simp⟩
  | cons z zs ih =>
    intro a ha hz
    have hz0 := hz z (by simp)
    have hp : (0 : Int) < F64.one := by exact_mod_cast Float.one_pos
    simp only [List.map_cons, maxLoop, Float.gt, F64.is_lt (F64.is_ofInt ha) (F64.is_ofInt hz0)]
    have hiff : (a * (F64.one : Int) < z * F64.one) ↔ a < z := by
      generalize (F64.one : Int) = L at *
      exact ⟨fun h => Int.lt_of_mul_lt_mul_right h (Int.le_of_lt hp), fun h => Int.mul_lt_mul_of_pos_right h hp⟩
    simp only [hiff]
    by_cases h : a < z
    · simp only [h, decide_true, if_true]
      obtain ⟨M, h1, h2, h3⟩ := ih z hz0 (fun y hy => hz y (by simp [hy]))
      refine ⟨M, h1, by simp at h2 ⊢; rcases h2 with h2 | h2 <;> simp [h2], ?_⟩
      intro y hy
      rcases List.mem_cons.mp hy with rfl | hy
      · have := h3 z (by simp); omega
      · exact h3 y hy
    · simp only [h, decide_false, Bool.false_eq_true, if_false]
      obtain ⟨M, h1, h2, h3⟩ := ih a ha (fun y hy => hz y (by simp [hy]))
      refine ⟨M, h1, by simp at h2 ⊢; rcases h2 with h2 | h2 <;> simp [h2], ?_⟩
      intro y hy
      simp only [List.mem_cons] at hy
      rcases hy with rfl | rfl | hy
      · exact h3 _ (by simp)
      · have := h3 a (by simp); omega
      · exact h3 y (by simp [hy])

theorem at_ok {α : Type} {xs : List α} {g : Nat} {x : α} (h : xs[g]? = some x) : at? xs (g : Int) = .ok x := by
  unfold at?
  rw [if_neg (by omega), Int.toNat_natCast, h]

/-- PERCENTILE_CONT after the checks. -/
theorem cont_unfold (S : Sorter) {p : F64} {vs : List (Option F64)} {is ss : List Int} {x : F64} {xs : List F64}
    (h1 : Float.lt p (.fin false 0) = false) (h2 : Float.gt p (F64.ofInt 1) = false) (h3 : contValues true vs = .ok (is, x :: xs))
    (h4 : S.sort (fun a b : Int => decide (a < b)) is = ss) (h5 : Float.eq (maxLoop x (x :: xs)) (F64.ofInt 0) = false)
    {R : F64} (hR : (F64.ofInt 1).add (p.mul (F64.ofInt ((ss.length : Int) - 1))) = R) {a b : Int}
    (ha : at? ss (R.floor.sub (F64.ofInt 1)).toInt64 = .ok a) (hb : at? ss (R.ceil.sub (F64.ofInt 1)).toInt64 = .ok b) :
    percentileCont S true p vs =
      if R.ceil.eq R.floor && R.ceil.eq R then .ok (some (F64.ofInt a))
      else .ok (some (((F64.ofInt b).mul (R.sub R.floor)).add ((F64.ofInt a).mul (R.ceil.sub R)))) := by
  unfold percentileCont
  simp only [h1, h2, h3, h4, h5, hR, ha, hb, Bool.false_eq_true, if_false, Res.bind'_ok, Float.mul, Float.add]

theorem cont_exact (S : Sorter) (vs : List (Option Int)) (c Q U : Nat) (hQ : 0 < Q) (hup : 0 < U) (hu : F64.one = Q * U)
    (fitU : ∀ z : Int, z.natAbs ≤ 2 ^ 53 → F64.Fit (z * U)) (hc : c ≤ Q) (h0 : vs.filterMap id ≠ [])
    (hn : (vs.filterMap id).length * Q ≤ 2 ^ 53) (hz : ∀ z, some z ∈ vs → z.natAbs * Q ≤ 2 ^ 53)
    (hm : ¬ (some 0 ∈ vs ∧ ∀ z, some z ∈ vs → z ≤ 0)) :
    ∃ s m a b, percentileCont S true (.fin false (c * U)) (vs.map (Option.map F64.ofInt)) = .ok (some (.fin s m)) ∧
      IsKth (vs.filterMap id) (c * ((vs.filterMap id).length - 1) / Q) a ∧
      (c * ((vs.filterMap id).length - 1) % Q ≠ 0 → IsKth (vs.filterMap id) (c * ((vs.filterMap id).length - 1) / Q + 1) b) ∧
      F64.sval s m * Q =
        (a * (Q - c * ((vs.filterMap id).length - 1) % Q : Nat) + b * (c * ((vs.filterMap id).length - 1) % Q : Nat)) * F64.one := by
  have hz' : ∀ z, some z ∈ vs → z.natAbs ≤ 2 ^ 53 := fun z h => Nat.le_trans (Nat.le_mul_of_pos_right _ hQ) (hz z h)
  have hmem : ∀ z, z ∈ vs.filterMap id ↔ some z ∈ vs := by intro z; simp [List.mem_filterMap]
  have hcont := contValues_ints vs hz'
  generalize hzs : vs.filterMap id = zs at *
  obtain ⟨z0, zt, rfl⟩ : ∃ z0 zt, zs = z0 :: zt := by
    cases zs with
    | nil => exact absurd rfl h0
    | cons a b => exact ⟨a, b, rfl⟩
  obtain ⟨M, hM, hMm, hMx⟩ := maxLoop_ints (z0 :: zt) z0 (hz' z0 ((hmem _).mp (by simp)))
    (fun z hzm => hz' z ((hmem z).mp hzm))
  have hM0 : M ≠ 0 := by
    rintro rfl
    refine hm ⟨(hmem 0).mp (by simpa using hMm), fun z hzm => hMx z ?_⟩
    have := (hmem z).mpr hzm
    exact List.mem_cons_of_mem _ this
  have hMb : M.natAbs ≤ 2 ^ 53 := hz' M ((hmem M).mp (by simpa using hMm))
  have hsp := S.perm (fun a b : Int => decide (a < b)) (z0 :: zt)
  have hss := S.sorted _ _ (intLess_weak (z0 :: zt))
  generalize hs : S.sort (fun a b : Int => decide (a < b)) (z0 :: zt) = ss at *
  have hsl : ss.length = (z0 :: zt).length := hsp.length_eq
  have hnpos : 1 ≤ (z0 :: zt).length := by simp
  generalize hnn : (z0 :: zt).length = n at *
  generalize hNN : c * (n - 1) = N at *
  have hN : N ≤ Q * (n - 1) := by rw [← hNN]; exact Nat.mul_le_mul_right _ hc
  have hNle : Q + N ≤ n * Q := by
    have : n * Q = Q + Q * (n - 1) := by
      obtain ⟨w, rfl⟩ : ∃ w, n = w + 1 := ⟨n - 1, by omega⟩
      rw [Nat.add_sub_cancel, Nat.add_mul, Nat.one_mul, Nat.mul_comm, Nat.add_comm]
    omega
  have hdm := Nat.div_add_mod N (Q)
  have hfl := Nat.mod_lt N hQ
  generalize hg : N / Q = g at *
  generalize hf : N % Q = f at *
  have hgn : g < n := by
    have : Q * g ≤ Q * (n - 1) := by omega
    have := Nat.le_of_mul_le_mul_left this hQ
    omega
  obtain ⟨a, ha⟩ : ∃ a, ss[g]? = some a := ⟨_, List.getElem?_eq_getElem (by omega)⟩
  have haK := isKth_sorted hsp hss ha
  have hab := hz a ((hmem a).mp haK.1)
  -- the floats
  have hone : (F64.one : Int) = (Q : Int) * (U : Int) := by rw [hu]; push_cast; rfl
  have i1 : Is (F64.ofInt 1) F64.one := by have := F64.is_ofInt (z := 1) (by decide); rwa [Int.one_mul] at this
  have ip : Is (.fin false (c * U)) ((c : Int) * (U : Int)) := ⟨_, _, rfl, by simp [F64.sval]⟩
  have hcb : c ≤ 2 ^ 53 := by
    have : 1 * Q ≤ n * Q := Nat.mul_le_mul_right _ hnpos
    omega
  have hnb : n ≤ 2 ^ 53 := Nat.le_trans (Nat.le_mul_of_pos_right _ hQ) hn
  have iN : Is (F64.mul (.fin false (c * U)) (F64.ofInt ((ss.length : Int) - 1))) ((N : Int) * (U : Int)) := by
    rw [hsl]
    refine F64.is_mul ip (F64.is_ofInt (by omega)) ?_ (fitU _ (by omega))
    rw [← hNN]
    have : ((n : Int) - 1) = ((n - 1 : Nat) : Int) := by omega
    rw [this]
    push_cast
    generalize (F64.one : Int) = L
    ac_rfl
  have iR : Is ((F64.ofInt 1).add (F64.mul (.fin false (c * U)) (F64.ofInt ((ss.length : Int) - 1))))
      (((Q + N : Nat) : Int) * (U : Int)) := by
    have e : (F64.one : Int) + (N : Int) * (U : Int) = ((Q + N : Nat) : Int) * (U : Int) := by
      rw [hone]; push_cast; rw [Int.add_mul]
    rw [← e]
    refine F64.is_add i1 iN ?_
    rw [e]
    exact fitU _ (by omega)
  have hlt0 : Float.lt (.fin false (c * U)) (.fin false 0) = false := by
    unfold Float.lt
    rw [F64.is_lt ip F64.is_zero, decide_eq_false_iff_not]
    have : (0 : Int) ≤ (c : Int) * (U : Int) := by exact_mod_cast Nat.zero_le _
    omega
  have hgt1 : Float.gt (.fin false (c * U)) (F64.ofInt 1) = false := by
    unfold Float.gt
    rw [F64.is_lt i1 ip, decide_eq_false_iff_not, hone]
    have : (c : Int) * (U : Int) ≤ (Q : Int) * (U : Int) := by exact_mod_cast Nat.mul_le_mul_right _ hc
    omega
  have hmax : Float.eq (maxLoop (F64.ofInt z0) (F64.ofInt z0 :: zt.map F64.ofInt)) (F64.ofInt 0) = false := by
    rw [List.map_cons] at hM
    rw [hM]
    unfold Float.eq
    rw [F64.is_eq (F64.is_ofInt hMb) (F64.is_ofInt (by decide)), decide_eq_false_iff_not]
    have hp : (F64.one : Int) ≠ 0 := by exact_mod_cast Nat.pos_iff_ne_zero.mp Float.one_pos
    generalize (F64.one : Int) = L at *
    intro h
    rw [Int.zero_mul] at h
    exact (Int.mul_ne_zero hM0 hp) h
  obtain ⟨R, hR⟩ : ∃ R, (F64.ofInt 1).add (F64.mul (.fin false (c * U)) (F64.ofInt ((ss.length : Int) - 1))) = R := ⟨_, rfl⟩
  rw [hR] at iR
  have hQg : Q * (g + 1) = Q + Q * g := by rw [Nat.mul_add, Nat.mul_one, Nat.add_comm]
  have iF : Is R.floor (((g + 1 : Nat) : Int) * F64.one) := by
    refine F64.is_floor iR ?_ ?_
    · rw [hone]
      have : (g + 1) * (Q * U) ≤ (Q + N) * U := by
        rw [← Nat.mul_assoc]; exact Nat.mul_le_mul_right _ (by rw [Nat.mul_comm]; omega)
      exact_mod_cast this
    · rw [hone]
      have : (Q + N) * U < (g + 1 + 1) * (Q * U) := by
        rw [← Nat.mul_assoc]
        refine Nat.mul_lt_mul_of_pos_right ?_ hup
        rw [Nat.mul_comm (g + 1 + 1), Nat.mul_add Q (g + 1) 1, Nat.mul_one]; omega
      exact_mod_cast this
  have iA : (R.floor.sub (F64.ofInt 1)).toInt64 = (g : Int) := by
    refine F64.is_toInt64 ?_ (by omega) (by omega)
    have e : ((g + 1 : Nat) : Int) * (F64.one : Int) - F64.one = (g : Int) * F64.one := by
      generalize (F64.one : Int) = L; push_cast; rw [Int.add_mul]; omega
    rw [← e]
    exact F64.is_sub iF i1 (by rw [e]; exact F64.fit_int (by omega))
  have hA : at? ss (R.floor.sub (F64.ofInt 1)).toInt64 = .ok a := by rw [iA, at_ok ha]
  by_cases hf0 : f = 0
  · -- a whole row number
    have iC : Is R.ceil (((g + 1 : Nat) : Int) * F64.one) := by
      refine F64.is_ceil iR ?_ ?_
      · rw [hone]
        have : (((g + 1 : Nat) : Int) - 1) = (g : Int) := by omega
        rw [this]
        have : g * (Q * U) < (Q + N) * U := by
          rw [← Nat.mul_assoc]; exact Nat.mul_lt_mul_of_pos_right (by rw [Nat.mul_comm]; omega) hup
        exact_mod_cast this
      · rw [hone]
        have : (Q + N) * U ≤ (g + 1) * (Q * U) := by
          rw [← Nat.mul_assoc]; exact Nat.mul_le_mul_right _ (by rw [Nat.mul_comm]; omega)
        exact_mod_cast this
    have iB : (R.ceil.sub (F64.ofInt 1)).toInt64 = (g : Int) := by
      refine F64.is_toInt64 ?_ (by omega) (by omega)
      have e : ((g + 1 : Nat) : Int) * (F64.one : Int) - F64.one = (g : Int) * F64.one := by
        generalize (F64.one : Int) = L; push_cast; rw [Int.add_mul]; omega
      rw [← e]
      exact F64.is_sub iC i1 (by rw [e]; exact F64.fit_int (by omega))
    have e1 : R.ceil.eq R.floor = true := by rw [F64.is_eq iC iF]; simp
    have e2 : R.ceil.eq R = true := by
      rw [F64.is_eq iC iR]
      have : (g + 1) * (Q * U) = (Q + N) * U := by
        rw [← Nat.mul_assoc]; refine congrArg (· * U) ?_; rw [Nat.mul_comm]; omega
      rw [decide_eq_true_eq, hone]; exact_mod_cast this
    have hun := cont_unfold S hlt0 hgt1 hcont hs hmax hR hA (by rw [iB, at_ok ha])
    rw [e1, e2] at hun
    simp only [Bool.and_self, if_true] at hun
    rw [hun]
    obtain ⟨s, m, hsm, hv⟩ := F64.is_ofInt (z := a) (hz' a ((hmem a).mp haK.1))
    refine ⟨s, m, a, 0, by simp [hsm], haK, fun h => absurd hf0 h, ?_⟩
    rw [hv, hf0]
    generalize (F64.one : Int) = L
    rw [Nat.sub_zero, Int.zero_mul, Int.add_zero]
    ac_rfl
  · -- between two rows
    have hg1 : g + 1 < n := by
      have : Q * g < Q * (n - 1) := by omega
      have := Nat.lt_of_mul_lt_mul_left this
      omega
    obtain ⟨b, hb⟩ : ∃ b, ss[g + 1]? = some b := ⟨_, List.getElem?_eq_getElem (by omega)⟩
    have hbK := isKth_sorted hsp hss hb
    have hbb := hz b ((hmem b).mp hbK.1)
    have iC : Is R.ceil (((g + 2 : Nat) : Int) * F64.one) := by
      refine F64.is_ceil iR ?_ ?_
      · rw [hone]
        have : (((g + 2 : Nat) : Int) - 1) = ((g + 1 : Nat) : Int) := by omega
        rw [this]
        have : (g + 1) * (Q * U) < (Q + N) * U := by
          rw [← Nat.mul_assoc]; exact Nat.mul_lt_mul_of_pos_right (by rw [Nat.mul_comm]; omega) hup
        exact_mod_cast this
      · rw [hone]
        have : (Q + N) * U ≤ (g + 2) * (Q * U) := by
          rw [← Nat.mul_assoc]; exact Nat.mul_le_mul_right _ (by rw [Nat.mul_comm, Nat.mul_add]; omega)
        exact_mod_cast this
    have iB : (R.ceil.sub (F64.ofInt 1)).toInt64 = ((g + 1 : Nat) : Int) := by
      refine F64.is_toInt64 ?_ (by omega) (by omega)
      have e : ((g + 2 : Nat) : Int) * (F64.one : Int) - F64.one = ((g + 1 : Nat) : Int) * F64.one := by
        generalize (F64.one : Int) = L; push_cast; rw [Int.add_mul, Int.add_mul]; omega
      rw [← e]
      exact F64.is_sub iC i1 (by rw [e]; exact F64.fit_int (by omega))
    have e1 : R.ceil.eq R.floor = false := by
      rw [F64.is_eq iC iF, decide_eq_false_iff_not]
      have hp : (0 : Int) < F64.one := by exact_mod_cast Float.one_pos
      generalize (F64.one : Int) = L at *
      push_cast
      rw [Int.add_mul, Int.add_mul]
      omega
    have hun := cont_unfold S hlt0 hgt1 hcont hs hmax hR hA (by rw [iB, at_ok hb])
    rw [e1] at hun
    simp only [Bool.false_and, Bool.false_eq_true, if_false] at hun
    rw [hun]
    -- the two weights are exact
    have iw1 : Is (R.sub R.floor) ((f : Int) * (U : Int)) := by
      have e : ((Q + N : Nat) : Int) * (U : Int) - ((g + 1 : Nat) : Int) * F64.one = (f : Int) * (U : Int) := by
        rw [hone, ← Int.mul_assoc, ← Int.sub_mul]
        refine congrArg (· * (U : Int)) ?_
        have : ((g + 1 : Nat) : Int) * (Q : Int) = ((Q * (g + 1) : Nat) : Int) := by push_cast; rw [Int.mul_comm]
        rw [this]; omega
      rw [← e]
      exact F64.is_sub iR iF (by rw [e]; exact fitU _ (by omega))
    have iw2 : Is (R.ceil.sub R) (((Q - f : Nat) : Int) * (U : Int)) := by
      have e : ((g + 2 : Nat) : Int) * F64.one - ((Q + N : Nat) : Int) * (U : Int) = ((Q - f : Nat) : Int) * (U : Int) := by
        rw [hone, ← Int.mul_assoc, ← Int.sub_mul]
        refine congrArg (· * (U : Int)) ?_
        have : ((g + 2 : Nat) : Int) * (Q : Int) = ((Q * (g + 1) + Q : Nat) : Int) := by
          have e : Q * (g + 1) + Q = (g + 2) * Q := by rw [Nat.add_mul, Nat.mul_add, Nat.mul_comm Q g]; omega
          rw [e]; push_cast; rfl
        rw [this]; omega
      rw [← e]
      exact F64.is_sub iC iR (by rw [e]; exact fitU _ (by omega))
    have bf : (b * (f : Int)).natAbs ≤ 2 ^ 53 := by
      rw [Int.natAbs_mul, Int.natAbs_natCast]
      exact Nat.le_trans (Nat.mul_le_mul_left _ (Nat.le_of_lt hfl)) hbb
    have af : (a * ((Q - f : Nat) : Int)).natAbs ≤ 2 ^ 53 := by
      rw [Int.natAbs_mul, Int.natAbs_natCast]
      exact Nat.le_trans (Nat.mul_le_mul_left _ (Nat.sub_le _ _)) hab
    have iL : Is ((F64.ofInt b).mul (R.sub R.floor)) ((b * f) * (U : Int)) := by
      refine F64.is_mul (F64.is_ofInt (hz' b ((hmem b).mp hbK.1))) iw1 ?_ (fitU _ bf)
      generalize (F64.one : Int) = L
      ac_rfl
    have iRt : Is ((F64.ofInt a).mul (R.ceil.sub R)) ((a * (Q - f : Nat)) * (U : Int)) := by
      refine F64.is_mul (F64.is_ofInt (hz' a ((hmem a).mp haK.1))) iw2 ?_ (fitU _ af)
      generalize (F64.one : Int) = L
      ac_rfl
    have hsum : (b * (f : Int) + a * ((Q - f : Nat) : Int)).natAbs ≤ 2 ^ 53 := by
      refine Nat.le_trans (Int.natAbs_add_le _ _) ?_
      rw [Int.natAbs_mul, Int.natAbs_mul, Int.natAbs_natCast, Int.natAbs_natCast]
      have hB : b.natAbs * f ≤ (max a.natAbs b.natAbs) * f := Nat.mul_le_mul_right _ (Nat.le_max_right _ _)
      have hA : a.natAbs * (Q - f) ≤ (max a.natAbs b.natAbs) * (Q - f) := Nat.mul_le_mul_right _ (Nat.le_max_left _ _)
      have hT : (max a.natAbs b.natAbs) * f + (max a.natAbs b.natAbs) * (Q - f) = (max a.natAbs b.natAbs) * Q := by
        rw [← Nat.mul_add, Nat.add_sub_cancel' (Nat.le_of_lt hfl)]
      have hX : (max a.natAbs b.natAbs) * Q ≤ 2 ^ 53 := by
        rcases Nat.le_total a.natAbs b.natAbs with h | h
        · rw [Nat.max_eq_right h]; exact hbb
        · rw [Nat.max_eq_left h]; exact hab
      omega
    obtain ⟨s, m, hsm, hv⟩ := F64.is_add iL iRt (by rw [← Int.add_mul]; exact fitU _ hsum)
    refine ⟨s, m, a, b, by rw [hsm], haK, fun _ => hbK, ?_⟩
    rw [hv, hone, ← Int.add_mul, Int.add_comm (b * (f : Int))]
    ac_rfl

/-- C174, part: integral values, `p = c / 2^q` with few enough digits that no step rounds, and a maximum
other than 0.  The answer is then exact: `a + (b − a) · f` for the fraction `f` of the row number. -/
theorem C174_partial (S : Sorter) (vs : List (Option Int)) (c q : Nat) (hq : q ≤ 1000) (hc : c ≤ 2 ^ q) (h0 : vs.filterMap id ≠ [])
    (hn : (vs.filterMap id).length * 2 ^ q ≤ 2 ^ 53) (hz : ∀ z, some z ∈ vs → z.natAbs * 2 ^ q ≤ 2 ^ 53)
    (hm : ¬ (some 0 ∈ vs ∧ ∀ z, some z ∈ vs → z ≤ 0)) :
    ∃ s m a b, percentileCont S true (.fin false (c * 2 ^ (1074 - q))) (vs.map (Option.map F64.ofInt)) = .ok (some (.fin s m)) ∧
      IsKth (vs.filterMap id) (c * ((vs.filterMap id).length - 1) / 2 ^ q) a ∧
      (c * ((vs.filterMap id).length - 1) % 2 ^ q ≠ 0 → IsKth (vs.filterMap id) (c * ((vs.filterMap id).length - 1) / 2 ^ q + 1) b) ∧
      F64.sval s m * (2 ^ q : Nat) =
        (a * (2 ^ q - c * ((vs.filterMap id).length - 1) % 2 ^ q : Nat) + b * (c * ((vs.filterMap id).length - 1) % 2 ^ q : Nat)) * F64.one := by
  have hu : F64.one = 2 ^ q * 2 ^ (1074 - q) := by rw [← Nat.pow_add, F64.one_eq]; congr 1; omega
  exact cont_exact S vs c (2 ^ q) (2 ^ (1074 - q)) (Nat.pow_pos (by decide)) (Nat.pow_pos (by decide)) hu
    (fun z h => F64.fit_mul h (by omega)) hc h0 hn hz hm

/-- The median of 1, 2, NULL, 4 and 9: `c = 1`, `q = 1`. -/
example : (1 : Nat) ≤ 2 ^ 1 ∧ [some 1, some 9, none, some 2, some (4 : Int)].filterMap id ≠ [] ∧
    ([some 1, some 9, none, some 2, some (4 : Int)].filterMap id).length * 2 ^ 1 ≤ 2 ^ 53 ∧
    (∀ z, some z ∈ [some 1, some 9, none, some 2, some (4 : Int)] → z.natAbs * 2 ^ 1 ≤ 2 ^ 53) ∧
    ¬ (some 0 ∈ [some 1, some 9, none, some 2, some (4 : Int)] ∧ ∀ z, some z ∈ [some 1, some 9, none, some 2, some (4 : Int)] → z ≤ 0) := by
  refine ⟨by decide, by decide, by decide +kernel, ?_, by simp⟩
  intro z hz; simp at hz; omega

/-- A single 1.5 comes back as 1.0. -/
theorem C174_truncates (S : Sorter) : percentileCont S true (.fin false 0) [some (.fin false (3 * 2 ^ 1073))] = .ok (some (.fin false F64.one)) := by
  have h0 := S.perm (fun a b : Int => decide (a < b)) [1]
  rw [List.perm_singleton] at h0
  have hR : (F64.ofInt 1).add ((F64.fin false 0).mul (F64.ofInt ((([1] : List Int).length : Int) - 1))) = .fin false F64.one := by decide +kernel
  have h3 : contValues true [some (.fin false (3 * 2 ^ 1073))] = .ok ([(F64.fin false (3 * 2 ^ 1073)).toInt64], [.fin false (3 * 2 ^ 1073)]) := rfl
  have h3' : (F64.fin false (3 * 2 ^ 1073)).toInt64 = 1 := by decide +kernel
  rw [h3'] at h3
  have h5 : Float.eq (maxLoop (.fin false (3 * 2 ^ 1073)) [.fin false (3 * 2 ^ 1073)]) (F64.ofInt 0) = false := by decide +kernel
  have i : ((F64.fin false F64.one).floor.sub (F64.ofInt 1)).toInt64 = 0 := by decide +kernel
  have i' : ((F64.fin false F64.one).ceil.sub (F64.ofInt 1)).toInt64 = 0 := by decide +kernel
  have := cont_unfold S (by decide +kernel) (by decide +kernel) h3 h0 h5 hR (by rw [i]; rfl) (by rw [i']; rfl)
  rw [this]
  have e : ((F64.fin false F64.one).ceil.eq (F64.fin false F64.one).floor && (F64.fin false F64.one).ceil.eq (F64.fin false F64.one)) = true := by decide +kernel
  have e' : F64.ofInt 1 = .fin false F64.one := by decide +kernel
  rw [e, e']; rfl

theorem C174_full_false (S : Sorter) : ¬ C174_full S := by
  intro h
  have h1 := h 0 [some (.fin false (3 * 2 ^ 1073))] ⟨by decide +kernel, 0, 0, by decide, by decide⟩ (Nat.zero_le _)
    (by intro v hv; simp only [List.mem_singleton] at hv; subst hv
        exact .inr ⟨_, _, rfl, by decide +kernel, 3, 1073, by decide, rfl⟩) (by decide)
  rw [C174_truncates] at h1
  unfold ContSpec at h1
  have hu : units [some (.fin false (3 * 2 ^ 1073))] = [((3 * 2 ^ 1073 : Nat) : Int)] := rfl
  rw [hu, if_neg (List.cons_ne_nil _ _)] at h1
  obtain ⟨s, m, a, b, ho, ha, _, h3, _⟩ := h1
  injection ho with ho; injection ho with ho; injection ho with hs hm
  subst hs hm
  have : a = ((3 * 2 ^ 1073 : Nat) : Int) := by have := ha.1; simpa using this
  rw [this] at h3
  revert h3
  decide +kernel

/-- If the largest value is 0, the answer is 0 whatever the percentile. -/
theorem C174_max_zero (S : Sorter) (vs : List (Option Int)) (p : F64) (hp1 : Float.lt p (.fin false 0) = false)
    (hp2 : Float.gt p (F64.ofInt 1) = false) (hz : ∀ z, some z ∈ vs → z.natAbs ≤ 2 ^ 53) (hm : some 0 ∈ vs) (hx : ∀ z, some z ∈ vs → z ≤ 0)
    {r : Option F64} (h : percentileCont S true p (vs.map (Option.map F64.ofInt)) = .ok r) : r = some (.fin false 0) := by
  have hcont := contValues_ints vs hz
  have hmem : ∀ z, z ∈ vs.filterMap id ↔ some z ∈ vs := by intro z; simp [List.mem_filterMap]
  generalize vs.filterMap id = zs at *
  cases zs with
  | nil => exact absurd ((hmem 0).mpr hm) (by simp)
  | cons z0 zt =>
    obtain ⟨M, hM, hMm, hMx⟩ := maxLoop_ints (z0 :: zt) z0 (hz z0 ((hmem _).mp (by simp))) (fun z hzm => hz z ((hmem z).mp hzm))
    have hM0 : M = 0 := by
      have h1 := hMx 0 (List.mem_cons_of_mem _ ((hmem 0).mpr hm))
      have h2 := hx M ((hmem M).mp (by simpa using hMm))
      omega
    subst hM0
    rw [List.map_cons] at hM
    have e : Float.eq (F64.ofInt 0) (F64.ofInt 0) = true := by decide +kernel
    unfold percentileCont at h
    simp only [hp1, hp2, hcont, Bool.false_eq_true, if_false, Res.bind'_ok, List.map_cons, hM, e, if_true] at h
    generalize at? _ _ = r1 at h
    generalize at? _ _ = r2 at h
    cases r1 <;> simp at h
    cases r2 <;> simp at h
    exact h.symm

/-- RESPECT NULLS: a NULL among the values is a nil dereference. -/
theorem C174_respect_nulls (S : Sorter) (p : F64) (vs : List (Option F64)) (hp1 : Float.lt p (.fin false 0) = false)
    (hp2 : Float.gt p (F64.ofInt 1) = false) (h : none ∈ vs) : percentileCont S false p vs = .panic := by
  have : contValues false vs = .panic := by
    induction vs with
    | nil => simp at h
    | cons v vs ih =>
      cases v with
      | none => rfl
      | some x =>
        have := ih (by simpa using h)
        simp [contValues, Float.toInt64, this]
  unfold percentileCont
  simp [hp1, hp2, this]

end Verif.WindowStat
