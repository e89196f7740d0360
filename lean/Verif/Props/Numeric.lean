import Verif.Model.Numeric

/-! # C70: NUMERIC arithmetic -/

namespace Verif.Numeric

open Go Verif.Arrays Verif.Window

/-- What the operators mean; `none` is division by zero. -/
def exact : Arith → Rat → Rat → Option Rat
  | .add, x, y => some (x + y)
  | .sub, x, y => some (x - y)
  | .mul, x, y => some (x * y)
  | .div, x, y => if y = 0 then none else some (x / y)

/-- Full C70: exact, an error for division by zero, and every value that existed before holds what it held. -/
def C70_full : Prop :=
  ∀ (h : Heap) (f : Arith) (nv : Ref) (v : Operand), nv < h.length → (∀ p, v = .num p → p < h.length) →
    match exact f (load h nv) (toRat h v) with
    | none => op h f nv v = .err
    | some r => ∃ h' p, op h f nv v = .ok (h', p) ∧ load h' p = r ∧ ∀ q, q < h.length → load h' q = load h q

theorem load_store_same (h : Heap) (p : Ref) (r : Rat) (hp : p < h.length) : load (store h p r) p = r := by
  simp [load, store, List.getD, List.getElem?_set, hp]

theorem load_store_ne (h : Heap) (p q : Ref) (r : Rat) (hq : q ≠ p) : load (store h p r) q = load h q := by
  have : ¬ p = q := fun e => hq e.symm
  simp [load, store, List.getD, List.getElem?_set, this]

/-- Adding 1 to a NUMERIC value changes the value itself. -/
theorem C70_full_false : ¬ C70_full := by
  intro h
  obtain ⟨h', p, h1, -, h3⟩ := h [2] .add 0 (.int 1) (by decide) (by intro p hp; cases hp)
  have h4 : h' = [3] := by
    simp only [op, Res.ok.injEq, Prod.mk.injEq] at h1
    rw [← h1.1]; decide +kernel
  have := h3 0 (by decide)
  rw [h4] at this
  revert this
  show ¬ (3 : Rat) = 2
  decide

/-- Division of a NUMERIC by zero is a panic, not an error. -/
theorem C70_div_zero_counterexample (h : Heap) (nv : Ref) (v : Operand) (h0 : toRat h v = 0) : op h .div nv v = .panic := by
  simp [op, h0]

/-- **C70** The result is exact, and only the receiver changes: it becomes the result. -/
theorem C70_partial (h : Heap) (f : Arith) (nv : Ref) (v : Operand) (hn : nv < h.length) (r : Rat)
    (hr : exact f (load h nv) (toRat h v) = some r) :
    ∃ h', op h f nv v = .ok (h', nv) ∧ load h' nv = r ∧ h'.length = h.length ∧ ∀ q, q ≠ nv → load h' q = load h q := by
  cases f with
  | add => cases hr; exact ⟨_, rfl, load_store_same _ _ _ hn, by simp [store], fun q hq => load_store_ne _ _ _ _ hq⟩
  | sub =>
    cases hr
    refine ⟨_, rfl, ?_, by simp [store], fun q hq => load_store_ne _ _ _ _ hq⟩
    rw [load_store_same _ _ _ hn, Rat.sub_eq_add_neg]
  | mul => cases hr; exact ⟨_, rfl, load_store_same _ _ _ hn, by simp [store], fun q hq => load_store_ne _ _ _ _ hq⟩
  | div =>
    simp only [exact] at hr
    split at hr
    · cases hr
    · rename_i h0
      cases hr
      refine ⟨store h nv (load h nv * (toRat h v)⁻¹), by simp [op, h0], ?_, by simp [store], fun q hq => load_store_ne _ _ _ _ hq⟩
      rw [load_store_same _ _ _ hn, Rat.div_def]

/-- **C70** In SQL, where the operands of a call are decoded for it alone, the operators are exact. -/
theorem C70_sql (f : Arith) (a b : Rat) : ∀ r, exact f a b = some r → sqlOp f a b = .ok r := by
  intro r hr
  obtain ⟨h', h1, h2, -⟩ := C70_partial [a, b] f 0 (.num 1) (by simp) r hr
  simp only [sqlOp, h1, Res.bind'_ok, h2]

/-- **C70** SUM over NUMERIC is the exact sum, NULL for no values. -/
theorem C70_sum (vs : List Rat) : sum vs = .ok (if vs = [] then none else some vs.sum) := by
  cases vs with
  | nil => rfl
  | cons v vs =>
    have key : ∀ (ps : List Ref) (h : Heap), 0 < h.length → (∀ p ∈ ps, p ≠ 0) →
        ∃ h', sumLoop h 0 ps = .ok (h', 0) ∧ load h' 0 = load h 0 + (ps.map (load h)).sum := by
      intro ps
      induction ps with
      | nil => intro h _ _; exact ⟨h, rfl, by simp [Rat.add_zero]⟩
      | cons p ps ih =>
        intro h hl hp
        obtain ⟨h1, e1, e2, e3, e4⟩ := C70_partial h .add 0 (.num p) hl _ rfl
        obtain ⟨h2, e5, e6⟩ := ih h1 (by omega) (fun q hq => hp q (by simp [hq]))
        refine ⟨h2, by simp only [sumLoop, e1, Res.bind'_ok, e5], ?_⟩
        rw [e6, e2]
        have : ps.map (load h1) = ps.map (load h) := List.map_congr_left fun q hq => e4 q (hp q (by simp [hq]))
        rw [this, List.map_cons, List.sum_cons, Rat.add_assoc]; rfl
    obtain ⟨h', e1, e2⟩ := key ((List.range vs.length).map (· + 1)) (v :: vs) (by simp) (by intro p hp; simp only [List.mem_map] at hp; obtain ⟨a, -, rfl⟩ := hp; exact Nat.succ_ne_zero a)
    simp only [sum, e1, Res.bind'_ok, e2]
    rw [if_neg (by simp)]
    congr 2
    rw [List.map_map, List.sum_cons]
    have : (List.range vs.length).map (load (v :: vs) ∘ (· + 1)) = vs := by
      apply List.ext_getElem
      · simp
      · intro i h1 h2
        simp at h1
        simp [load, List.getD, h1]
    rw [this]; rfl

example : sqlOp .div 1 3 = .ok (1 / 3 : Rat) := rfl

/-! ### Where the change of the receiver shows -/

private theorem genLoop_spec (b s : Rat) (up : Bool) : ∀ (fuel : Nat) (x : Rat) (k : Nat) (h : Heap) (ps : List Ref),
    genLoop 1 2 up fuel [x, b, s] 0 (List.replicate k 0) = some (h, ps) →
    ∃ n : Nat, 1 ≤ n ∧ h = [x + n * s, b, s] ∧ ps = List.replicate (k + n) 0 ∧
      ¬ (if up then x + n * s ≤ b else x + n * s ≥ b) ∧
      ∀ i : Nat, 1 ≤ i → i < n → (if up then x + i * s ≤ b else x + i * s ≥ b)
  | 0, _, _, _, _, h => by cases h
  | fuel + 1, x, k, h, ps, e => by
    have hop : op [x, b, s] .add 0 (.num 2) = .ok ([x + s, b, s], 0) := rfl
    have hrep : List.replicate k 0 ++ [0] = (List.replicate (k + 1) 0 : List Ref) := by
      rw [List.replicate_succ']
    simp only [genLoop, hop, hrep] at e
    have l0 : load [x + s, b, s] 0 = x + s := rfl
    have l1 : load [x + s, b, s] 1 = b := rfl
    rw [l0, l1] at e
    have h1s : ((1 : Nat) : Rat) * s = s := by simp
    by_cases hc : (if up then x + s ≤ b else x + s ≥ b)
    · rw [if_pos hc] at e
      obtain ⟨n, hn, e1, e2, e3, e4⟩ := genLoop_spec b s up fuel (x + s) (k + 1) h ps e
      have hadd : ∀ n : Nat, x + s + (n : Rat) * s = x + ((n + 1 : Nat) : Rat) * s := by
        intro n
        rw [Rat.natCast_add, Rat.add_mul, h1s, Rat.add_assoc, Rat.add_comm s]
      refine ⟨n + 1, by omega, by rw [e1, hadd], by rw [e2]; congr 1; omega, by rw [← hadd]; exact e3, ?_⟩
      intro i h1 h2
      by_cases hi : i = 1
      · subst hi; rw [h1s]; exact hc
      · have := e4 (i - 1) (by omega) (by omega)
        rw [hadd, show i - 1 + 1 = i by omega] at this
        exact this
    · rw [if_neg hc] at e
      cases e
      refine ⟨1, by omega, by rw [h1s], rfl, by rw [h1s]; exact hc, ?_⟩
      intro i h1 h2; omega

/-- **C70** is visible: a GENERATE_ARRAY of NUMERIC that is not empty has the right number of elements but every one
of them is the first value past the end. -/
theorem C70_generate_array (a b s : Rat) (r : List Rat) (hab : a ≤ b) (hs : 0 < s) (h : generateArray a b s (.value r)) :
    ∃ n : Nat, 1 ≤ n ∧ r = List.replicate n (a + n * s) ∧ b < a + n * s ∧ ∀ i : Nat, i < n → a + i * s ≤ b := by
  simp only [generateArray] at h
  have hup : decide (a ≤ b) = true := decide_eq_true hab
  have hpos : decide (s > 0) = true := decide_eq_true hs
  rw [hup, hpos, if_neg (by simp)] at h
  obtain ⟨fuel, hp, ps, e, hr⟩ := h
  obtain ⟨n, hn, e1, e2, e3, e4⟩ := genLoop_spec b s true fuel a 0 hp ps e
  simp only [if_true] at e3 e4
  refine ⟨n, hn, ?_, Rat.not_le.mp e3, ?_⟩
  · rw [hr, e2, e1, List.map_replicate]; simp [load]
  · intro i hi
    by_cases h0 : i = 0
    · subst h0; simpa [Rat.add_zero] using hab
    · exact e4 i (by omega) hi

/-- So GENERATE_ARRAY of NUMERIC never contains its first value. -/
theorem C70_generate_array_never (a b s : Rat) (r : List Rat) (hab : a ≤ b) (hs : 0 < s) (h : generateArray a b s (.value r)) : a ∉ r := by
  obtain ⟨n, h1, h2, h3, -⟩ := C70_generate_array a b s r hab hs h
  rw [h2, List.mem_replicate]
  rintro ⟨-, e⟩
  rw [← e] at h3
  exact absurd hab (Rat.not_le.mpr h3)

private theorem genLoop_ends (b s : Rat) (up : Bool) : ∀ (m : Nat) (x : Rat) (acc : List Ref), ¬ (if up then x + ((m + 1 : Nat) : Rat) * s ≤ b else x + ((m + 1 : Nat) : Rat) * s ≥ b) →
    ∃ fuel h ps, genLoop 1 2 up fuel [x, b, s] 0 acc = some (h, ps)
  | 0, x, acc, hm => by
    have h1s : ((0 + 1 : Nat) : Rat) * s = s := by simp
    rw [h1s] at hm
    have hop : op [x, b, s] .add 0 (.num 2) = .ok ([x + s, b, s], 0) := rfl
    refine ⟨1, [x + s, b, s], acc ++ [0], ?_⟩
    simp only [genLoop, hop]
    exact if_neg hm
  | m + 1, x, acc, hm => by
    have hop : op [x, b, s] .add 0 (.num 2) = .ok ([x + s, b, s], 0) := rfl
    have l0 : load [x + s, b, s] 0 = x + s := rfl
    have l1 : load [x + s, b, s] 1 = b := rfl
    by_cases hc : (if up then x + s ≤ b else x + s ≥ b)
    · have e : x + ((m + 1 + 1 : Nat) : Rat) * s = x + s + ((m + 1 : Nat) : Rat) * s := by
        rw [Rat.natCast_add (m + 1) 1, Rat.add_mul, show ((1 : Nat) : Rat) * s = s by simp, Rat.add_assoc, Rat.add_comm s]
      rw [e] at hm
      obtain ⟨fuel, h, ps, hf⟩ := genLoop_ends b s up m (x + s) (acc ++ [0]) hm
      refine ⟨fuel + 1, h, ps, ?_⟩
      simp only [genLoop, hop]
      rw [l0, l1, if_pos hc]
      exact hf
    · refine ⟨1, [x + s, b, s], acc ++ [0], ?_⟩
      simp only [genLoop, hop]
      exact if_neg hc

private theorem exceeds (d s : Rat) (hs : 0 < s) : ∃ m : Nat, d < ((m + 1 : Nat) : Rat) * s := by
  refine ⟨((d / s).floor + 1).toNat, ?_⟩
  rw [← Rat.div_lt_iff hs]
  have h1 := Rat.lt_floor_add_one (d / s)
  have h2 : (d / s).floor + 1 ≤ ((((d / s).floor + 1).toNat + 1 : Nat) : Int) := by omega
  have h3 := Rat.intCast_le_intCast.mpr h2
  rw [Rat.intCast_natCast] at h3
  grind

private theorem genLoop_zero (a b : Rat) (h : b < a) : ∀ (fuel : Nat) (acc : List Ref), genLoop 1 2 false fuel [a, b, 0] 0 acc = none
  | 0, _ => rfl
  | fuel + 1, acc => by
    have hop : op [a, b, 0] .add 0 (.num 2) = .ok ([a, b, 0], 0) := by
      show Res.ok ([a + 0, b, 0], 0) = _
      rw [Rat.add_zero]
    simp only [genLoop, hop]
    rw [if_pos]
    · exact genLoop_zero a b h fuel _
    · exact Rat.le_of_lt h

/-- Which calls of GENERATE_ARRAY of NUMERIC end: all but those with a step of zero from above. -/
theorem C70_generate_array_ends (a b s : Rat) : ((∃ r, generateArray a b s (.value r)) ↔ ¬ (b < a ∧ s = 0)) ∧ (generateArray a b s .forever ↔ b < a ∧ s = 0) := by
  have hz : b < a ∧ s = 0 → generateArray a b s .forever := by
    rintro ⟨h, rfl⟩
    have ha : ¬ a ≤ b := Rat.not_le.mpr h
    refine ⟨by simp [ha], fun fuel => ?_⟩
    rw [decide_eq_false ha]
    exact genLoop_zero a b h fuel []
  have hv : ¬ (b < a ∧ s = 0) → ∃ r, generateArray a b s (.value r) := by
    intro h
    by_cases hd : decide (a ≤ b) ≠ decide (s > 0)
    · exact ⟨[], by simp only [generateArray]; rw [if_pos hd]; trivial⟩
    · have key : ∃ fuel h ps, genLoop 1 2 (decide (a ≤ b)) fuel [a, b, s] 0 [] = some (h, ps) := by
        by_cases ha : a ≤ b
        · have hs : 0 < s := by simpa [ha] using hd
          obtain ⟨m, hm⟩ := exceeds (b - a) s hs
          refine genLoop_ends b s _ m a [] ?_
          simp only [ha, decide_true, if_true]
          grind
        · have hs : ¬ 0 < s := by simpa [ha] using hd
          have hs' : 0 < -s := by
            have : s ≠ 0 := fun e => h ⟨Rat.not_le.mp ha, e⟩
            grind
          obtain ⟨m, hm⟩ := exceeds (a - b) (-s) hs'
          refine genLoop_ends b s _ m a [] ?_
          simp only [ha, decide_false, Bool.false_eq_true, if_false]
          rw [Rat.mul_neg] at hm
          grind
      obtain ⟨fuel, h, ps, e⟩ := key
      exact ⟨ps.map (load h), by simp only [generateArray]; rw [if_neg hd]; exact ⟨fuel, h, ps, e, rfl⟩⟩
  have hx : ∀ r, generateArray a b s (.value r) → ¬ generateArray a b s .forever := by
    rintro r h1 ⟨h2, h3⟩
    simp only [generateArray] at h1
    rw [if_neg (by simpa using h2)] at h1
    obtain ⟨fuel, h, ps, e, -⟩ := h1
    rw [h3] at e
    cases e
  exact ⟨⟨fun ⟨r, hr⟩ hn => hx r hr (hz hn), hv⟩, fun hf => Classical.byContradiction fun hn => (hv hn).elim fun r hr => hx r hr hf, hz⟩

example : generateArray 2 1 0 .forever ∧ ∃ r, generateArray 1 (1 / 2) (-1 / 3) (.value r) :=
  ⟨(C70_generate_array_ends 2 1 0).2.2 (by decide +kernel), (C70_generate_array_ends _ _ _).1.2 (by decide +kernel)⟩

/-- GENERATE_ARRAY(1, 2, 1) of NUMERIC is [3, 3]. -/
example : generateArray 1 2 1 (.value [3, 3]) := by
  simp only [generateArray]
  rw [if_neg (by decide)]
  exact ⟨2, [3, 2, 1], [0, 0], by decide +kernel, by rfl⟩

/-- RANGE BETWEEN n PRECEDING AND m FOLLOWING over a NUMERIC key: the end is looked up for key - n + m, not key + m. -/
theorem C70_range_end (h : Heap) (keys : List Ref) (cur : Ref) (n m : Int) (hc : cur < h.length) :
    ∃ h', rangeN h keys cur (.preceding n) (.following m) =
        .ok (lookupMinN (store h cur (load h cur + -n)) cur keys, lookupMaxN h' cur 0 (-1) keys) ∧
      load h' cur = load h cur + -n + m ∧ ∀ q, q ≠ cur → load h' q = load h q := by
  refine ⟨store (store h cur (load h cur + -n)) cur (load h cur + -n + m), ?_, ?_, ?_⟩
  · simp only [rangeN, rangeIndexN, op, toRat, Res.bind'_ok, load_store_same _ _ _ hc]
  · rw [load_store_same]; simpa [store] using hc
  · intro q hq
    rw [load_store_ne _ _ _ _ hq, load_store_ne _ _ _ _ hq]

/-- Over the keys 1, 2, 3 the frame RANGE BETWEEN 1 PRECEDING AND 1 FOLLOWING of the middle row is the rows 0 to 1: the
row with key 3 = 2 + 1 is missing. -/
theorem C70_range_counterexample : rangeN [1, 2, 3] [0, 1, 2] 1 (.preceding 1) (.following 1) = .ok (0, 1) := by decide +kernel

/-! ### RANGE frames with at most one offset -/

theorem lookupMaxN_ge (h : Heap) (v : Ref) : ∀ (ks : List Ref) (i : Nat) (m : Int), m < i → m ≤ lookupMaxN h v i m ks
  | [], i, m, _ => Int.le_refl _
  | k :: ks, i, m, hm => by
    simp only [lookupMaxN]
    split
    · have := lookupMaxN_ge h v ks (i + 1) i (by omega)
      omega
    · exact lookupMaxN_ge h v ks (i + 1) m (by omega)

/-- The position that lookupMaxIndexFromRangeValue finds is the last one with a key not above the value. -/
theorem le_lookupMaxN (h : Heap) (v : Ref) : ∀ (ks : List Ref) (i : Nat) (m : Int) (j : Nat), m < i →
    ((i + j : Int) ≤ lookupMaxN h v i m ks ↔ ∃ j' k, j ≤ j' ∧ ks[j']? = some k ∧ load h k ≤ load h v)
  | [], i, m, j, hm => by
    simp only [lookupMaxN, List.getElem?_nil, reduceCtorEq, false_and, and_false, exists_false, iff_false]
    omega
  | k :: ks, i, m, 0, hm => by
    simp only [lookupMaxN]
    by_cases hk : load h v ≥ load h k
    · rw [if_pos hk]
      have := lookupMaxN_ge h v ks (i + 1) i (by omega)
      exact ⟨fun _ => ⟨0, k, by omega, rfl, hk⟩, fun _ => by omega⟩
    · rw [if_neg hk]
      have ih := le_lookupMaxN h v ks (i + 1) m 0 (by omega)
      constructor
      · intro hle
        by_cases h1 : ((i + 1 : Nat) : Int) + (0 : Nat) ≤ lookupMaxN h v (i + 1) m ks
        · obtain ⟨j', k', _, e, hl⟩ := ih.1 h1
          exact ⟨j' + 1, k', by omega, by simpa using e, hl⟩
        · exfalso
          have hn : ∀ (ks : List Ref) (i' : Nat), (∀ k' ∈ ks, ¬ load h k' ≤ load h v) → lookupMaxN h v i' m ks = m := by
            intro ks
            induction ks with
            | nil => intro _ _; rfl
            | cons a as iha =>
              intro i' ha
              simp only [lookupMaxN]
              rw [if_neg (ha a List.mem_cons_self), iha _ fun k' hk' => ha k' (List.mem_cons_of_mem _ hk')]
          rw [hn ks (i + 1)] at hle
          · omega
          · intro k' hk' hl
            obtain ⟨j', hj'⟩ := List.getElem?_of_mem hk'
            exact h1 (ih.2 ⟨j', k', by omega, hj', hl⟩)
      · rintro ⟨j', k', _, e, hl⟩
        cases j' with
        | zero => simp at e; subst e; exact absurd hl hk
        | succ j' =>
          have := ih.2 ⟨j', k', by omega, by simpa using e, hl⟩
          omega
  | k :: ks, i, m, j + 1, hm => by
    simp only [lookupMaxN]
    have hm' : (if load h v ≥ load h k then (i : Int) else m) < (i + 1 : Nat) := by split <;> omega
    have ih := le_lookupMaxN h v ks (i + 1) _ j hm'
    rw [show ((i : Int) + ((j + 1 : Nat) : Int)) = ((i + 1 : Nat) : Int) + (j : Int) by omega, ih]
    constructor
    · rintro ⟨j', k', hj, e, hl⟩
      exact ⟨j' + 1, k', by omega, by simpa using e, hl⟩
    · rintro ⟨j', k', hj, e, hl⟩
      cases j' with
      | zero => omega
      | succ j' => exact ⟨j', k', by omega, by simpa using e, hl⟩

/-- The position that lookupMinIndexFromRangeValue finds is the first one with a key not below the value. -/
theorem lookupMinN_le {h : Heap} {v : Ref} {ks : List Ref} (hex : ∃ k ∈ ks, load h v ≤ load h k) (j : Nat) :
    lookupMinN h v ks ≤ j ↔ ∃ j' k, j' ≤ j ∧ ks[j']? = some k ∧ load h v ≤ load h k := by
  unfold lookupMinN
  cases hf : ks.findIdx? (fun k => decide (load h v ≤ load h k)) with
  | none =>
    obtain ⟨k, hk, hl⟩ := hex
    rw [List.findIdx?_eq_none_iff] at hf
    simpa [hl] using hf k hk
  | some i =>
    rw [List.findIdx?_eq_some_iff_getElem] at hf
    obtain ⟨hi, hp, hlt⟩ := hf
    simp only [decide_eq_true_eq] at hp hlt
    show (i : Int) ≤ j ↔ _
    constructor
    · intro hij
      exact ⟨i, ks[i], by omega, List.getElem?_eq_getElem hi, hp⟩
    · rintro ⟨j', k, hj, e, hl⟩
      by_cases hc : j' < i
      · obtain ⟨hlt', rfl⟩ := List.getElem?_eq_some_iff.1 e
        exact absurd hl (by simpa using hlt j' hc)
      · omega

/-- A key is not below the start of the frame. -/
def fromStart (v : Rat) : Boundary → Rat → Prop
  | .unboundedPreceding, _ => True
  | .preceding n, x => v - n ≤ x
  | .current, x => v ≤ x
  | .following n, x => v + n ≤ x
  | .unboundedFollowing, _ => False

/-- A key is not above the end of the frame. -/
def toEnd (v : Rat) : Boundary → Rat → Prop
  | .unboundedPreceding, _ => False
  | .preceding n, x => x ≤ v - n
  | .current, x => x ≤ v
  | .following n, x => x ≤ v + n
  | .unboundedFollowing, _ => True

/-- The frame of the current row is the rows with keys from the start to the end. -/
def RightFrame (h : Heap) (keys : List Ref) (cur : Ref) (b e : Boundary) : Prop :=
  ∃ s t, rangeN h keys cur b e = .ok (s, t) ∧ ∀ (i : Nat) k, keys[i]? = some k →
    (s ≤ i ∧ (i : Int) ≤ t ↔ fromStart (load h cur) b (load h k) ∧ toEnd (load h cur) e (load h k))

theorem load_store {h : Heap} {cur : Ref} {x : Rat} (hc : cur < h.length) (q : Ref) :
    load (store h cur x) q = if q = cur then x else load h q := by
  by_cases hq : q = cur
  · subst hq; rw [if_pos rfl, load_store_same _ _ _ hc]
  · rw [if_neg hq, load_store_ne _ _ _ _ hq]

theorem sorted_le {h : Heap} {keys : List Ref} (hs : keys.Pairwise fun a b => load h a ≤ load h b) {i j : Nat} {a b : Ref}
    (hi : keys[i]? = some a) (hj : keys[j]? = some b) (hij : i ≤ j) : load h a ≤ load h b := by
  obtain ⟨hi', rfl⟩ := List.getElem?_eq_some_iff.1 hi
  obtain ⟨hj', rfl⟩ := List.getElem?_eq_some_iff.1 hj
  rcases Nat.lt_or_eq_of_le hij with hlt | rfl
  · exact List.pairwise_iff_getElem.1 hs i j hi' hj' hlt
  · exact Rat.le_refl

/-- The end of a frame. -/
theorem maxN_end {h : Heap} {keys : List Ref} (hs : keys.Pairwise fun a b => load h a ≤ load h b) {cur : Ref} (hc : cur < h.length) (m : Int)
    (hm : 0 ≤ m) (i : Nat) (k : Ref) (hk : keys[i]? = some k) :
    (i : Int) ≤ lookupMaxN (store h cur (load h cur + m)) cur 0 (-1) keys ↔ load h k ≤ load h cur + m := by
  have hv : load h cur ≤ load h cur + (m : Rat) := by
    have : (0 : Rat) ≤ (m : Rat) := by exact_mod_cast hm
    grind
  have := le_lookupMaxN (store h cur (load h cur + m)) cur keys 0 (-1) i (by omega)
  rw [show ((0 : Nat) : Int) + (i : Int) = (i : Int) by omega] at this
  rw [this]
  simp only [load_store hc, if_true]
  constructor
  · rintro ⟨j, k', hj, e, hl⟩
    have h1 := sorted_le hs hk e hj
    by_cases hq : k' = cur
    · subst hq; exact Rat.le_trans h1 hv
    · rw [if_neg hq] at hl; exact Rat.le_trans h1 hl
  · intro hl
    refine ⟨i, k, Nat.le_refl _, hk, ?_⟩
    split
    · exact Rat.le_refl
    · exact hl

/-- The start of a frame. -/
theorem minN_start {h : Heap} {keys : List Ref} (hs : keys.Pairwise fun a b => load h a ≤ load h b) {cur : Ref} (hc : cur < h.length)
    (hcur : cur ∈ keys) (n : Int) (hn : 0 ≤ n) (i : Nat) (k : Ref) (hk : keys[i]? = some k) :
    lookupMinN (store h cur (load h cur + -n)) cur keys ≤ i ↔ load h cur - n ≤ load h k := by
  have hv : load h cur - (n : Rat) ≤ load h cur := by
    have : (0 : Rat) ≤ (n : Rat) := by exact_mod_cast hn
    grind
  rw [lookupMinN_le ⟨cur, hcur, Rat.le_refl⟩]
  simp only [load_store hc, if_true]
  constructor
  · rintro ⟨j, k', hj, e, hl⟩
    have h1 := sorted_le hs e hk hj
    by_cases hq : k' = cur
    · subst hq; exact Rat.le_trans hv h1
    · rw [if_neg hq] at hl; grind
  · intro hl
    refine ⟨i, k, Nat.le_refl _, hk, ?_⟩
    split
    · exact Rat.le_refl
    · grind

/-- **C70** RANGE over a NUMERIC key in ascending order: the frame is right if it has only one boundary with an offset and starts with
the partition or ends with it. -/
theorem C70_range_partial (h : Heap) (keys : List Ref) (cur : Ref) (hs : keys.Pairwise fun a b => load h a ≤ load h b) (hc : cur < h.length)
    (hcur : cur ∈ keys) :
    RightFrame h keys cur .unboundedPreceding .unboundedFollowing ∧ RightFrame h keys cur .unboundedPreceding .current ∧
    (∀ m, 0 ≤ m → RightFrame h keys cur .unboundedPreceding (.following m)) ∧
    ∀ n, 0 ≤ n → RightFrame h keys cur (.preceding n) .unboundedFollowing := by
  have hlast : ∀ (i : Nat) (k : Ref), keys[i]? = some k → (i : Int) ≤ (keys.length : Int) - 1 := by
    intro i k e
    obtain ⟨hi, _⟩ := List.getElem?_eq_some_iff.1 e
    omega
  refine ⟨⟨0, keys.length - 1, rfl, fun i k e => ?_⟩, ⟨0, _, rfl, fun i k e => ?_⟩, fun m hm => ⟨0, _, rfl, fun i k e => ?_⟩,
    fun n hn => ⟨_, keys.length - 1, rfl, fun i k e => ?_⟩⟩
  · have := hlast i k e
    simp only [fromStart, toEnd, and_true, iff_true]
    exact ⟨by omega, this⟩
  · have h0 := maxN_end hs hc 0 (by omega) i k e
    have e0 : load h cur + ((0 : Int) : Rat) = load h cur := by grind
    have e1 : ∀ q, load (store h cur (load h cur)) q = load h q := by
      intro q; rw [load_store hc]; split
      · subst_vars; rfl
      · rfl
    have e2 : ∀ (ks : List Ref) (i : Nat) (m : Int), lookupMaxN (store h cur (load h cur)) cur i m ks = lookupMaxN h cur i m ks := by
      intro ks
      induction ks with
      | nil => intro _ _; rfl
      | cons a as ih => intro i m; simp only [lookupMaxN, ih, e1]
    rw [e0, e2] at h0
    simp only [fromStart, toEnd, true_and, ← h0]
    omega
  · have h0 := maxN_end hs hc m hm i k e
    simp only [fromStart, toEnd, true_and, ← h0]
    exact ⟨fun x => x.2, fun x => ⟨by omega, x⟩⟩
  · have h0 := minN_start hs hc hcur n hn i k e
    have := hlast i k e
    simp only [fromStart, toEnd, and_true, ← h0]
    exact ⟨fun x => x.1, fun x => ⟨x, this⟩⟩

/-- **C70** with two offsets the frame ends with the last row whose key is at most key - n + m, or with the current row if that is later. -/
theorem C70_range_both (h : Heap) (keys : List Ref) (cur : Ref) (n m : Int) (hs : keys.Pairwise fun a b => load h a ≤ load h b)
    (hc : cur < h.length) (hcur : cur ∈ keys) (hn : 0 ≤ n) :
    ∃ s t, rangeN h keys cur (.preceding n) (.following m) = .ok (s, t) ∧ ∀ (i : Nat) k, keys[i]? = some k →
      ((s ≤ i ↔ load h cur - n ≤ load h k) ∧
       ((i : Int) ≤ t ↔ load h k ≤ load h cur - n + m ∨ ∃ j, i ≤ j ∧ keys[j]? = some cur)) := by
  refine ⟨_, _, rfl, fun i k e => ⟨minN_start hs hc hcur n hn i k e, ?_⟩⟩
  have hc' : cur < (store h cur (load h cur + -n)).length := by simpa [store] using hc
  have := le_lookupMaxN (store (store h cur (load h cur + -n)) cur (load (store h cur (load h cur + -n)) cur + m)) cur keys 0 (-1) i (by omega)
  rw [show ((0 : Nat) : Int) + (i : Int) = (i : Int) by omega] at this
  refine Iff.trans this ?_
  simp only [load_store hc', load_store hc, if_true]
  constructor
  · rintro ⟨j, k', hj, e', hl⟩
    by_cases hq : k' = cur
    · subst hq; exact .inr ⟨j, hj, e'⟩
    · rw [if_neg hq, if_neg hq] at hl
      have := sorted_le hs e e' hj
      exact .inl (by grind)
  · rintro (hl | ⟨j, hj, e'⟩)
    · refine ⟨i, k, Nat.le_refl _, e, ?_⟩
      by_cases hq : k = cur
      · rw [if_pos hq]; exact Rat.le_refl
      · rw [if_neg hq, if_neg hq]; grind
    · exact ⟨j, cur, hj, e', by rw [if_pos rfl]; exact Rat.le_refl⟩

/-- Keys 1, 2, 2, 5: the pointers and the order. -/
example : [0, 1, 2, 3].Pairwise (fun a b => load [1, 2, 2, 5] a ≤ load [1, 2, 2, 5] b) ∧ 1 < [1, 2, 2, 5].length ∧
    rangeN [1, 2, 2, 5] [0, 1, 2, 3] 1 .unboundedPreceding .current = .ok (0, 2) := by decide +kernel

end Verif.Numeric
