import Verif.Model.Approx
import Verif.Lemmas.F64Exact

/-! # APPROX_COUNT_DISTINCT, APPROX_QUANTILES, APPROX_TOP_COUNT, APPROX_TOP_SUM -/

namespace Verif.Approx

open Go Verif.Val Verif.Aggregate

set_option exponentiation.threshold 3000

/-! ## C181: APPROX_COUNT_DISTINCT -/

/-- What the map holds after the rows `done`. -/
theorem feed_distinct {text : Val → Res (List Char)} (rows : List Val) : ∀ (seen : List (List Char)) (l : List Val),
    (∀ v, v ∈ rows ∨ v ∈ l → v ≠ .null → ∃ k, text v = .ok k) →
    (∀ v w, v ∈ rows ∨ v ∈ l → w ∈ rows ∨ w ∈ l → v ≠ .null → w ≠ .null → text v = text w → v = w) →
    l.Nodup → (∀ v ∈ l, v ≠ .null) → l.map text = seen.map .ok →
    ∃ (seen' : List (List Char)) (l' : List Val), feed (distinctStep text) seen rows = .ok seen' ∧ l'.Nodup ∧
      (∀ v, v ∈ l' ↔ v ∈ l ∨ v ∈ rows ∧ v ≠ .null) ∧ l'.map text = seen'.map .ok := by
  induction rows with
  | nil => intro seen l _ _ hn _ hm; exact ⟨seen, l, rfl, hn, by simp, hm⟩
  | cons v rows ih =>
    intro seen l ht hi hn hnn hm
    by_cases hv : v = .null
    · subst hv
      obtain ⟨s', l', h1, h2, h3, h4⟩ := ih seen l
        (fun w hw => ht w (hw.imp (List.mem_cons_of_mem _) id))
        (fun a b ha hb => hi a b (ha.imp (List.mem_cons_of_mem _) id) (hb.imp (List.mem_cons_of_mem _) id)) hn hnn hm
      refine ⟨s', l', by simpa [feed, distinctStep, Res.bind] using h1, h2, fun w => ?_, h4⟩
      rw [h3]; constructor
      · rintro (h | ⟨h, h'⟩)
        · exact .inl h
        · exact .inr ⟨List.mem_cons_of_mem _ h, h'⟩
      · rintro (h | ⟨h, h'⟩)
        · exact .inl h
        · rcases List.mem_cons.1 h with h | h
          · exact absurd h h'
          · exact .inr ⟨h, h'⟩
    · have hnv : v.isNull = false := by cases v <;> first | rfl | exact absurd rfl hv
      obtain ⟨k, hk⟩ := ht v (.inl List.mem_cons_self) hv
      have hmem : k ∈ seen ↔ v ∈ l := by
        constructor
        · intro h
          have : Res.ok k ∈ l.map text := by rw [hm]; exact List.mem_map.2 ⟨k, h, rfl⟩
          obtain ⟨w, hw, hwk⟩ := List.mem_map.1 this
          have := hi v w (.inl List.mem_cons_self) (.inr hw) hv (hnn w hw) (by rw [hk, hwk])
          rwa [this]
        · intro h
          have : Res.ok k ∈ seen.map Res.ok := by rw [← hm, ← hk]; exact List.mem_map.2 ⟨v, h, rfl⟩
          obtain ⟨k', hk', e⟩ := List.mem_map.1 this
          cases e; exact hk'
      by_cases hks : k ∈ seen
      · have hvl := hmem.1 hks
        obtain ⟨s', l', h1, h2, h3, h4⟩ := ih seen l
          (fun w hw => ht w (hw.imp (List.mem_cons_of_mem _) id))
          (fun a b ha hb => hi a b (ha.imp (List.mem_cons_of_mem _) id) (hb.imp (List.mem_cons_of_mem _) id)) hn hnn hm
        refine ⟨s', l', by simpa [feed, distinctStep, Res.bind, hnv, hk, hks] using h1, h2, fun w => ?_, h4⟩
        rw [h3]; constructor
        · rintro (h | ⟨h, h'⟩)
          · exact .inl h
          · exact .inr ⟨List.mem_cons_of_mem _ h, h'⟩
        · rintro (h | ⟨h, h'⟩)
          · exact .inl h
          · rcases List.mem_cons.1 h with h | h
            · exact .inl (h ▸ hvl)
            · exact .inr ⟨h, h'⟩
      · have hvl : v ∉ l := fun h => hks (hmem.2 h)
        have up : ∀ {w}, w ∈ rows ∨ w ∈ v :: l → w ∈ v :: rows ∨ w ∈ l := by
          rintro w (h | h)
          · exact .inl (List.mem_cons_of_mem _ h)
          · rcases List.mem_cons.1 h with h | h
            · exact .inl (h ▸ List.mem_cons_self)
            · exact .inr h
        obtain ⟨s', l', h1, h2, h3, h4⟩ := ih (k :: seen) (v :: l)
          (fun w hw => ht w (up hw)) (fun a b ha hb => hi a b (up ha) (up hb))
          (List.nodup_cons.2 ⟨hvl, hn⟩)
          (by intro w hw; rcases List.mem_cons.1 hw with h | h
              · exact h ▸ hv
              · exact hnn w h)
          (by simp [hk, hm])
        refine ⟨s', l', by simpa [feed, distinctStep, Res.bind, hnv, hk, hks] using h1, h2, fun w => ?_, h4⟩
        rw [h3]; constructor
        · rintro (h | ⟨h, h'⟩)
          · rcases List.mem_cons.1 h with h | h
            · exact .inr ⟨h ▸ List.mem_cons_self, h ▸ hv⟩
            · exact .inl h
          · exact .inr ⟨List.mem_cons_of_mem _ h, h'⟩
        · rintro (h | ⟨h, h'⟩)
          · exact .inl (List.mem_cons_of_mem _ h)
          · rcases List.mem_cons.1 h with h | h
            · exact .inl (h ▸ List.mem_cons_self)
            · exact .inr ⟨h, h'⟩

/-- The rows of one INT64, BOOL, STRING or BYTES column, NULLs among them. -/
def OneType (rows : List Val) : Prop :=
  (∀ v ∈ rows, v = .null ∨ ∃ i, v = .int i) ∨ (∀ v ∈ rows, v = .null ∨ ∃ b, v = .bool b) ∨
  (∀ v ∈ rows, v = .null ∨ ∃ s, v = .str s) ∨ (∀ v ∈ rows, v = .null ∨ ∃ b, v = .bytes b)

/-- APPROX_COUNT_DISTINCT is the exact number of distinct non-NULL values whenever distinct
values have distinct texts. -/
theorem C181_text (text : Val → Res (List Char)) (rows : List Val)
    (ht : ∀ v ∈ rows, v ≠ .null → ∃ k, text v = .ok k)
    (hi : ∀ v ∈ rows, ∀ w ∈ rows, v ≠ .null → w ≠ .null → text v = text w → v = w) :
    ∃ l : List Val, l.Nodup ∧ (∀ v, v ∈ l ↔ v ∈ rows ∧ v ≠ .null) ∧
      countDistinct text rows = .ok l.length := by
  obtain ⟨s, l, h1, h2, h3, h4⟩ := feed_distinct (text := text) rows [] []
    (by simpa using ht) (by simpa using fun v w hv hw => hi v hv w hw) List.nodup_nil (by simp) rfl
  refine ⟨l, h2, by simpa using h3, ?_⟩
  have : s.length = l.length := by simpa using (congrArg List.length h4).symm
  simp [countDistinct, h1, Res.bind, this]

/-- **C181**: APPROX_COUNT_DISTINCT over INT64, BOOL, STRING or BYTES rows is exact. -/
theorem C181 (other : Val → Res (List Char)) (rows : List Val) (h : OneType rows) :
    ∃ l : List Val, l.Nodup ∧ (∀ v, v ∈ l ↔ v ∈ rows ∧ v ≠ .null) ∧
      countDistinct (toText other) rows = .ok l.length := by
  refine C181_text _ _ ?_ ?_
  · intro v hv hn
    rcases h with h | h | h | h <;> rcases h v hv with e | ⟨x, e⟩ <;> subst e <;> first | exact absurd rfl hn | exact ⟨_, rfl⟩
  · intro v hv w hw hn hn' e
    rcases h with h | h | h | h <;> rcases h v hv with e1 | ⟨x, e1⟩ <;> subst e1 <;> first | exact absurd rfl hn | skip
    all_goals rcases h w hw with e2 | ⟨y, e2⟩ <;> subst e2 <;> first | exact absurd rfl hn' | skip
    · simp only [toText, Res.ok.injEq] at e; rw [decInt_injective e]
    · cases x <;> cases y <;> first | rfl | simp [toText] at e
    · simp only [toText, Res.ok.injEq] at e; rw [e]
    · simp only [toText, Res.ok.injEq] at e; rw [Base64.encode_injective e]

example : countDistinct (toText fun _ => .err) [.int 3, .null, .int 4, .int 3] = .ok 2 := by decide +kernel

/-! ## C182: APPROX_QUANTILES -/

/-- **C182** as a user expects it: APPROX_QUANTILES(x, n) over INT64 values, not all NULL, is
an array of n + 1 of them in ascending order, from the least to the greatest; NULLs do not
matter. -/
def C182_full : Prop := ∀ (fuel : Nat) (num : Int) (rows : List (Option Int)) (r : Res Val),
  1 ≤ num → rows.filterMap id ≠ [] →
  quantiles fuel num (rows.map fun x => match x with | some i => .int i | none => .null) = some r →
  ∃ qs : List Int, r = .ok (.arr (qs.map .int)) ∧ (qs.length : Int) = num + 1 ∧ qs.Pairwise (· ≤ ·) ∧
    (∀ q ∈ qs, some q ∈ rows) ∧ (∀ i, some i ∈ rows → (∀ q, qs.head? = some q → q ≤ i) ∧ (∀ q, qs.getLast? = some q → i ≤ q))

/-- The values are never sorted: over the rows 2, 1 the "minimum" is 2. -/
theorem C182_full_false : ¬ C182_full := by
  intro h
  obtain ⟨qs, h1, _, h3, _⟩ := h 0 1 [some 2, some 1] _ (by decide) (by simp) rfl
  match qs, h1 with
  | [a, b], h1 =>
    simp only [List.map_cons, List.map_nil, Res.ok.injEq, Val.arr.injEq, List.cons.injEq, Val.int.injEq, List.getLast_cons_cons, List.getLast_singleton] at h1
    obtain ⟨rfl, rfl, _⟩ := h1
    simp at h3
  | [], h1 => simp at h1
  | [_], h1 => simp at h1
  | _ :: _ :: _ :: _, h1 => simp at h1

theorem round_zero (s : Bool) (d : Nat) : F64.round s 0 d = .fin s 0 := by
  have h : F64.roundQ 0 d = 0 := by simp [F64.roundQ]
  have h0 : 0 < F64.limit := Nat.pow_pos (by decide)
  simp [F64.round, h, F64.pack, h0]

theorem ofInt_fin {n : Nat} (h : n ≤ 2 ^ 53) : ∃ k, F64.ofInt n = .fin false k ∧ k = n * F64.one := by
  obtain ⟨s, k, e, hv⟩ := F64.is_ofInt (z := n) (by omega)
  have hs : s = false := by
    have : (F64.ofInt n).signbit = false := by
      simp only [F64.ofInt, F64.round, F64.pack]
      have : decide ((n : Int) < 0) = false := by simp
      rw [this]; split <;> rfl
    rw [e] at this; exact this
  subst hs
  refine ⟨k, e, ?_⟩
  simp only [F64.sval, Bool.false_eq_true, if_false] at hv
  exact_mod_cast hv

theorem f100_fin : ∃ k, f100 = .fin false k ∧ 0 < k := by
  obtain ⟨k, e, h⟩ := ofInt_fin (n := 100) (by decide)
  have hp := Float.one_pos
  exact ⟨k, by unfold f100; exact e, by omega⟩

theorem idx_zero {n i q f z : F64} (h1 : i.div f100 = q) (h2 : n.mul q = f) (h3 : f.toInt64 = 0)
    (hz : F64.ofInt 0 = z) (h4 : z.lt f = false) : quantIdx n i = 0 := by
  unfold quantIdx
  subst h1 h2
  dsimp only
  rw [h3, hz, h4]
  rfl

theorem quantIdx_zero (n : F64) (h : ∃ k, n = .fin false k) : quantIdx n (.fin false 0) = 0 := by
  obtain ⟨k, rfl⟩ := h
  obtain ⟨c, hc, hp⟩ := f100_fin
  have h1 : F64.div (.fin false 0) f100 = .fin false 0 := by
    rw [hc]; simp [F64.div, round_zero]; omega
  have h2 : F64.mul (.fin false k) (.fin false 0) = .fin false 0 := by simp [F64.mul, round_zero]
  have h3 : F64.toInt64 (.fin false 0) = 0 := by simp [F64.toInt64, F64.sval]
  have h4 : F64.ofInt 0 = .fin false 0 := by
    have : F64.ofInt 0 = F64.round false (0 * F64.one) 1 := rfl
    rw [this, Nat.zero_mul, round_zero]
  exact idx_zero h1 h2 h3 h4 (by simp [F64.lt])

theorem zero_lt_f100 : (F64.fin false 0).lt f100 = true := by
  obtain ⟨c, hc, hp⟩ := f100_fin
  rw [hc]; simp [F64.lt, F64.sval, hp]

theorem loop_mem {values : List Val} {more : F64 → Bool} {idx : F64 → Int} {next : F64 → F64} (fuel : Nat) : ∀ (i : F64) (qs : List Val),
    quantLoop values more idx next fuel i = some (.ok qs) → ∀ q ∈ qs, q ∈ values := by
  induction fuel with
  | zero => intro i qs h; simp [quantLoop] at h
  | succ fuel ih =>
    intro i qs h q hq
    simp only [quantLoop] at h
    split at h
    · split at h
      · rename_i v hv
        obtain ⟨r, hr, e⟩ := Option.map_eq_some_iff.1 h
        cases r with
        | ok vs =>
          simp only [Res.bind, Res.ok.injEq] at e
          subst e
          rcases List.mem_cons.1 hq with rfl | hq
          · simp only [at?] at hv
            split at hv
            · cases hv
            · split at hv
              · rename_i w hw; cases hv; exact List.mem_of_getElem? hw
              · cases hv
          · exact ih _ _ hr q hq
        | err => simp [Res.bind] at e
        | panic => simp [Res.bind] at e
      · simp at h
      · simp at h
    · simp only [Option.some.injEq, Res.ok.injEq] at h; subst h; simp at hq

theorem loop_head {v : Val} {vs : List Val} {more : F64 → Bool} {idx : F64 → Int} {next : F64 → F64} {fuel : Nat} {qs : List Val}
    (h : quantLoop (v :: vs) more idx next fuel (.fin false 0) = some (.ok qs)) (hm : more (.fin false 0) = true) (hk : idx (.fin false 0) = 0) :
    ∃ qs', qs = v :: qs' := by
  cases fuel with
  | zero => simp [quantLoop] at h
  | succ fuel =>
    simp only [quantLoop, hm, if_true, hk] at h
    have h1 : at? (v :: vs) 0 = .ok v := rfl
    rw [h1] at h
    obtain ⟨r, hr, e⟩ := Option.map_eq_some_iff.1 h
    cases r with
    | ok qs' => simp only [Res.bind, Res.ok.injEq] at e; exact ⟨qs', e.symm⟩
    | err => simp [Res.bind] at e
    | panic => simp [Res.bind] at e

/-- What the result says about the data: its first element is the first row, its last the last
row, whatever their order; NULLs count as rows. -/
theorem C182_partial (fuel : Nat) (num : Int) (values : List Val) (r : Val) (hl : values.length ≤ 2 ^ 53)
    (hn : num ≠ 0) (hv : values ≠ []) (h : quantiles fuel num values = some (.ok r)) :
    ∃ qs, r = .arr qs ∧ qs.head? = values.head? ∧ qs.getLast? = values.getLast? ∧ 2 ≤ qs.length ∧ ∀ q ∈ qs, q ∈ values := by
  match values, hv with
  | v :: vs, _ =>
    have hlast : ∀ xs : List Val, (xs ++ [(v :: vs).getLast (by simp)]).getLast? = (v :: vs).getLast? := by
      intro xs; simp [List.getLast?_eq_some_getLast]
    have hin : (v :: vs).getLast (by simp) ∈ v :: vs := List.getLast_mem _
    simp only [quantiles, if_neg hn] at h
    by_cases h1 : num = 1
    · simp only [if_pos h1, Option.some.injEq, Res.ok.injEq] at h
      refine ⟨_, h.symm, rfl, hlast [v], by simp, ?_⟩
      intro q hq
      simp only [List.mem_cons, List.not_mem_nil, or_false] at hq
      rcases hq with rfl | rfl
      · exact List.mem_cons_self
      · exact hin
    · simp only [if_neg h1] at h
      obtain ⟨x, hx, e⟩ := Option.map_eq_some_iff.1 h
      cases x with
      | ok qs =>
        simp only [Res.bind, Res.ok.injEq] at e
        obtain ⟨k, hk, _⟩ := ofInt_fin hl
        obtain ⟨qs', rfl⟩ := loop_head hx zero_lt_f100 (quantIdx_zero _ ⟨k, hk⟩)
        refine ⟨_, e.symm, rfl, hlast _, by simp, ?_⟩
        intro q hq
        rcases List.mem_append.1 hq with hq | hq
        · exact loop_mem _ _ _ hx q hq
        · simp only [List.mem_singleton] at hq; exact hq ▸ hin
      | err => simp [Res.bind] at e
      | panic => simp [Res.bind] at e

/-- The length of an array result. -/
def arrLen : Option (Res Val) → Option Nat
  | some (.ok (.arr qs)) => some qs.length
  | _ => none

/-- The elements of an array of INT64 without NULL. -/
def arrInts : Option (Res Val) → Option (List Int)
  | some (.ok (.arr qs)) => some (qs.filterMap fun v => match v with | .int i => some i | _ => none)
  | _ => none

/-- The rounding of `i += 100/12` adds an element: `APPROX_QUANTILES(x, 12)` has 14. -/
theorem C182_extra : ∃ qs, quantiles 20 12 [.int 7] = some (.ok (.arr qs)) ∧ qs.length = 14 := by
  have h : arrLen (quantiles 20 12 [.int 7]) = some 14 := by decide +kernel
  unfold arrLen at h
  split at h
  · rename_i qs e; exact ⟨qs, e, by simpa using h⟩
  · cases h

example : arrInts (quantiles 9 4 [.int 5, .int 1, .int 4, .null]) = some [5, 5, 1, 4] := by decide +kernel

end Verif.Approx
