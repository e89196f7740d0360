import Verif.Props.WindowStatExact

/-! # C171: exactly when CUME_DIST is right -/

namespace Verif.WindowStat

open Go Verif.Val Verif.Sql Verif.Window Verif.Aggregate
open Verif.Float (Near)

set_option exponentiation.threshold 3000

/-- A FLOAT64 nearest to a fraction `a / n` of at most one is within half of `2^-53` of it. -/
theorem near_close {a n : Nat} (hn : 0 < n) (ha : a ≤ n) {s : Bool} {k : Nat} (h : Near ((a : Int) * F64.one) n (.fin s k)) :
    2 * (((a : Int) * F64.one) - (n : Int) * F64.sval s k).natAbs ≤ n * 2 ^ 1021 := by
  obtain ⟨m, hm1, hm2, hm3⟩ : ∃ m : Nat, m ≤ 2 ^ 53 ∧ 2 * (n * m) ≤ 2 * (a * 2 ^ 53) + n ∧ 2 * (a * 2 ^ 53) ≤ 2 * (n * m) + n := by
    refine ⟨(2 * (a * 2 ^ 53) + n) / (2 * n), ?_, ?_, ?_⟩
    · rw [Nat.div_le_iff_le_mul_add_pred (by omega)]
      have : a * 2 ^ 53 ≤ n * 2 ^ 53 := Nat.mul_le_mul_right _ ha
      have e : 2 * n * 2 ^ 53 = 2 * (n * 2 ^ 53) := by rw [Nat.mul_assoc]
      rw [e]; omega
    · have := Nat.mul_div_le (2 * (a * 2 ^ 53) + n) (2 * n)
      rw [Nat.mul_assoc 2 n] at this
      exact this
    · have := Nat.lt_mul_div_succ (2 * (a * 2 ^ 53) + n) (show 0 < 2 * n by omega)
      rw [Nat.mul_assoc 2 n, Nat.mul_add, Nat.mul_one] at this
      omega
  have key : ∃ m' e, m' < 2 ^ 53 ∧ m' * 2 ^ e = m * 2 ^ 1021 := by
    by_cases hc : m = 2 ^ 53
    · exact ⟨1, 1074, by decide, by rw [hc]⟩
    · exact ⟨m, 1021, by omega, rfl⟩
  obtain ⟨m', e, h1, h2⟩ := key
  have h3 := h.2 false m' e h1
  rw [h2] at h3
  refine Nat.le_trans (Nat.mul_le_mul_left 2 h3) ?_
  have e1 : F64.sval false (m * 2 ^ 1021) = (m : Int) * ((2 ^ 1021 : Nat) : Int) := by simp [F64.sval]
  have hone : ((F64.one : Nat) : Int) = ((2 ^ 53 : Nat) : Int) * ((2 ^ 1021 : Nat) : Int) := by rw [one_split, Int.natCast_mul]
  rw [e1, hone]
  generalize (2 ^ 1021 : Nat) = q
  have e2 : (a : Int) * (((2 ^ 53 : Nat) : Int) * (q : Int)) - (n : Int) * ((m : Int) * (q : Int)) = ((a * 2 ^ 53 : Nat) - (n * m : Nat) : Int) * q := by
    rw [Int.sub_mul, Int.natCast_mul, Int.natCast_mul, Int.mul_assoc, Int.mul_assoc]
  rw [e2, Int.natAbs_mul, Int.natAbs_natCast, ← Nat.mul_assoc]
  exact Nat.mul_le_mul_right _ (by omega)

/-- Fractions over the same denominator below 2^53 have different nearest FLOAT64s. -/
theorem near_inj {a b n : Nat} (hn : 0 < n) (hn' : n < 2 ^ 53) (ha : a ≤ n) (hb : b ≤ n) {x : F64}
    (h1 : Near ((a : Int) * F64.one) n x) (h2 : Near ((b : Int) * F64.one) n x) : a = b := by
  cases x with
  | inf s => exact h1.elim
  | nan => exact h1.elim
  | fin s k =>
    have c1 := near_close hn ha h1
    have c2 := near_close hn hb h2
    have hone : ((F64.one : Nat) : Int) = ((2 ^ 53 : Nat) : Int) * ((2 ^ 1021 : Nat) : Int) := by rw [one_split, Int.natCast_mul]
    rw [hone] at c1 c2
    generalize hv : (n : Int) * F64.sval s k = v at c1 c2
    have hq : 0 < (2 ^ 1021 : Nat) := Nat.two_pow_pos _
    generalize (2 ^ 1021 : Nat) = q at *
    have hnq : n * q < 2 ^ 53 * q := Nat.mul_lt_mul_of_pos_right hn' hq
    have step : ∀ {c d : Nat}, c < d → (c : Int) * (((2 ^ 53 : Nat) : Int) * (q : Int)) + ((2 ^ 53 * q : Nat) : Int) ≤ (d : Int) * (((2 ^ 53 : Nat) : Int) * (q : Int)) := by
      intro c d hcd
      have : (c + 1) * (2 ^ 53 * q) ≤ d * (2 ^ 53 * q) := Nat.mul_le_mul_right _ hcd
      have := Int.ofNat_le.2 this
      simpa [Int.natCast_mul, Int.add_mul] using this
    rcases Nat.lt_trichotomy a b with h | h | h
    · have := step h
      generalize (a : Int) * (((2 ^ 53 : Nat) : Int) * (q : Int)) = A at *
      generalize (b : Int) * (((2 ^ 53 : Nat) : Int) * (q : Int)) = B at *
      omega
    · exact h
    · have := step h
      generalize (a : Int) * (((2 ^ 53 : Nat) : Int) * (q : Int)) = A at *
      generalize (b : Int) * (((2 ^ 53 : Nat) : Int) * (q : Int)) = B at *
      omega

/-- C171, exact: CUME_DIST is right on a row exactly if every row the sort put behind it comes strictly after it, that is,
if it is the last of its peers. -/
theorem C171_iff (S : Sorter) (text : Val → Res (List Char)) (flags : List Bool) (rows : List SRow) (hn : rows.length < 2 ^ 53)
    (hg : GoodParts text rows) (hk : GoodKeys flags rows) (p : List (Option Scalar)) :
    ∃ W, WindowOrder flags rows p W ∧ ∀ (i j : Nat) (r : SRow), W[i]? = some j → rows[j]? = some r →
      (CumeSpec flags rows r (cumeDist S text (input flags rows) ((j : Int) + 1)) ↔
        ∀ l m s, i < l → W[l]? = some m → rows[m]? = some s → KeysBefore flags r.keys s.keys) := by
  classical
  refine ⟨windowOrder S flags rows p, windowOrder_ok S hk p, ?_⟩
  intro i j r hi hj
  have hp : r.parts = p := by
    obtain ⟨r', hr', hp'⟩ := mem_windowOrder.mp (List.mem_of_getElem? hi)
    rw [hj] at hr'; cases hr'; exact hp'
  subst hp
  obtain ⟨x, hx, hnear⟩ := cumeDist_eq S text flags rows (Nat.le_of_lt hn) hg hj hi
  have hlt := (List.getElem?_eq_some_iff.mp hi).1
  have hnd := windowOrder_nodup S flags rows r.parts
  have hsort := windowOrder_sorted S hk r.parts
  have hl := order_length S flags rows r.parts
  generalize hW : windowOrder S flags rows r.parts = W at *
  have hmw : ∀ m, m ∈ W ↔ ∃ s, rows[m]? = some s ∧ s.parts = r.parts := by intro m; rw [← hW]; exact mem_windowOrder
  have hij : W[i]'hlt = j := by rw [List.getElem?_eq_getElem hlt] at hi; exact Option.some.inj hi
  let f : Nat → Bool := fun m => decide (∀ s, rows[m]? = some s → ¬ KeysBefore flags r.keys s.keys)
  have hf : ∀ m, m ∈ W.filter f ↔ ∃ s, rows[m]? = some s ∧ s.parts = r.parts ∧ ¬ KeysBefore flags r.keys s.keys := by
    intro m
    simp only [List.mem_filter, hmw, f, decide_eq_true_eq]
    constructor
    · rintro ⟨⟨s, h1, h2⟩, h3⟩; exact ⟨s, h1, h2, h3 s h1⟩
    · rintro ⟨s, h1, h2, h3⟩
      refine ⟨⟨s, h1, h2⟩, fun t ht => ?_⟩
      rw [h1] at ht; cases ht; exact h3
  have htake : (W.take (i + 1)).filter f = W.take (i + 1) := by
    rw [List.filter_eq_self]
    intro m hm
    simp only [f, decide_eq_true_eq]
    intro s hs hb
    obtain ⟨l, hl, hle⟩ := List.getElem_of_mem hm
    simp only [List.length_take] at hl
    rw [List.getElem_take] at hle
    rcases Nat.lt_or_ge l i with h1 | h1
    · have := List.pairwise_iff_getElem.mp hsort l i (by omega) hlt h1
      rw [hle, hij] at this
      exact this s r hs hj hb
    · have : l = i := by omega
      subst this
      rw [hij] at hle
      subst hle
      rw [hs] at hj; cases hj
      exact RowBefore_irrefl _ _ hb
  have hlen : (W.filter f).length = (i + 1) + ((W.drop (i + 1)).filter f).length := by
    conv => lhs; rw [← List.take_append_drop (i + 1) W, List.filter_append, htake, List.length_append, List.length_take, Nat.min_eq_left (by omega)]
  have hdrop : ((W.drop (i + 1)).filter f).length = 0 ↔ ∀ l m s, i < l → W[l]? = some m → rows[m]? = some s → KeysBefore flags r.keys s.keys := by
    rw [List.length_eq_zero_iff, List.filter_eq_nil_iff]
    constructor
    · intro h l m s hil hm hs
      have hmem : m ∈ W.drop (i + 1) := by
        refine List.mem_of_getElem? (i := l - (i + 1)) ?_
        rw [List.getElem?_drop, show i + 1 + (l - (i + 1)) = l by omega, hm]
      have := h m hmem
      simp only [f, decide_eq_true_eq] at this
      refine Classical.byContradiction fun hb => this fun t ht => ?_
      rw [hs] at ht; cases ht; exact hb
    · intro h m hm hfm
      simp only [f, decide_eq_true_eq] at hfm
      obtain ⟨d, hd⟩ := List.getElem?_of_mem hm
      rw [List.getElem?_drop] at hd
      obtain ⟨s, hs, _⟩ := (hmw m).mp (List.mem_of_getElem? hd)
      exact hfm s hs (h _ m s (by omega) hd hs)
  rw [← hdrop]
  constructor
  · rintro ⟨upto, part, hu, hpn, hpm, hum, y, hy, hnear'⟩
    rw [hx] at hy
    injection hy with hy
    subst hy
    have l1 : part.length = W.length := perm_of_mem hpn hnd fun m => by rw [hpm, hmw]
    have l2 : upto.length = (W.filter f).length := perm_of_mem hu (hnd.filter f) fun m => by rw [hum, hf]
    rw [l1, l2] at hnear'
    have := near_inj (n := W.length) (by omega) (by omega) (by omega) (List.length_filter_le f W) hnear hnear'
    omega
  · intro h0
    refine ⟨W.filter f, W, hnd.filter f, hnd, hmw, hf, x, hx, ?_⟩
    rw [hlen, h0, Nat.add_zero]
    exact hnear

/-- Of two peers the row sorted last, and only it, is right. -/
example (S : Sorter) (text : Val → Res (List Char)) :
    ∃ W, WindowOrder [true] twins [] W ∧ ∀ (i j : Nat) (r : SRow), W[i]? = some j → twins[j]? = some r →
      (CumeSpec [true] twins r (cumeDist S text (input [true] twins) ((j : Int) + 1)) ↔ W.length ≤ i + 1) := by
  obtain ⟨W, hW, h⟩ := C171_iff S text [true] twins (by decide) (.inl (by simp [twins])) twins_keyed.good []
  refine ⟨W, hW, fun i j r hi hj => (h i j r hi hj).trans ?_⟩
  constructor
  · intro h1
    refine Classical.byContradiction fun hc => ?_
    obtain ⟨s, hs, _⟩ := mem_members.1 (hW.perm.mem_iff.1 (List.getElem_mem (show i + 1 < W.length by omega)))
    have := h1 (i + 1) _ s (by omega) (List.getElem?_eq_getElem (by omega)) hs
    rw [twins_at hj, twins_at hs] at this
    exact RowBefore_irrefl _ _ this
  · intro h1 l m s hl hm
    have := (List.getElem?_eq_some_iff.mp hm).1
    omega

end Verif.WindowStat
