import Verif.Model.Bits

/-! # C69 and C90: bit operators -/

namespace Verif.Bits

open Go Verif.Val Verif.Logic Verif.Arith

/-- The 64-bit pattern of an INT64 as a number below 2^64. -/
def pattern (x : Int) : Nat := (x % 18446744073709551616).toNat

theorem toBits_toNat (x : Int) : (toBits x).toNat = pattern x := by
  simp [toBits, pattern]

theorem pattern_lt (x : Int) : pattern x < 2 ^ 64 := by unfold pattern; omega

/-- A 64-bit integer is determined by its pattern. -/
theorem pattern_inj {x y : Int} (hx : InI64 x) (hy : InI64 y) (h : pattern x = pattern y) : x = y := by
  unfold pattern at h; unfold InI64 at hx hy; omega

theorem pattern_toInt (v : BitVec 64) : pattern v.toInt = v.toNat := by
  have := v.isLt
  unfold pattern; rw [BitVec.toInt_eq_toNat_cond]; split <;> omega

theorem toInt_inI64 (v : BitVec 64) : InI64 v.toInt := by
  have := v.isLt
  unfold InI64; rw [BitVec.toInt_eq_toNat_cond]; split <;> omega

/-- Bit `i` of an INT64, `i` counted from the least significant. -/
def bit (x : Int) (i : Nat) : Bool := (pattern x).testBit i

theorem bit_toInt (v : BitVec 64) (i : Nat) : bit v.toInt i = v.getLsbD i := by
  rw [bit, pattern_toInt, BitVec.getLsbD]

theorem getLsbD_toBits (x : Int) (i : Nat) : (toBits x).getLsbD i = bit x i := by
  rw [BitVec.getLsbD, toBits_toNat, bit]

/-- **C90** `&`, `|`, `^` and `~` on INT64 act on every one of the 64 bits, and the result is an INT64. -/
theorem C90_bitwise (x y : Int) :
    (∃ r, bindAnd (.int x) (.int y) = .ok (.int r) ∧ InI64 r ∧ ∀ i < 64, bit r i = (bit x i && bit y i)) ∧
    (∃ r, bindOr (.int x) (.int y) = .ok (.int r) ∧ InI64 r ∧ ∀ i < 64, bit r i = (bit x i || bit y i)) ∧
    (∃ r, bindXor (.int x) (.int y) = .ok (.int r) ∧ InI64 r ∧ ∀ i < 64, bit r i = (bit x i ^^ bit y i)) ∧
    (∃ r, bindNot (.int x) = .ok (.int r) ∧ InI64 r ∧ ∀ i < 64, bit r i = !bit x i) := by
  refine ⟨⟨_, rfl, toInt_inI64 _, ?_⟩, ⟨_, rfl, toInt_inI64 _, ?_⟩, ⟨_, rfl, toInt_inI64 _, ?_⟩, ⟨_, rfl, toInt_inI64 _, ?_⟩⟩
  all_goals intro i hi
  · rw [bitAnd, bit_toInt, BitVec.getLsbD_and, getLsbD_toBits, getLsbD_toBits]
  · rw [bitOr, bit_toInt, BitVec.getLsbD_or, getLsbD_toBits, getLsbD_toBits]
  · rw [bitXor, bit_toInt, BitVec.getLsbD_xor, getLsbD_toBits, getLsbD_toBits]
  · rw [bitNot, bit_toInt, BitVec.getLsbD_not, getLsbD_toBits]; simp [hi]

/-- **C90** An INT64 is its 64 bits: the previous theorem determines the results. -/
theorem C90_bits_determine {x y : Int} (hx : InI64 x) (hy : InI64 y) (h : ∀ i < 64, bit x i = bit y i) : x = y := by
  apply pattern_inj hx hy
  apply Nat.eq_of_testBit_eq
  intro i
  by_cases hi : i < 64
  · exact h i hi
  · have : 2 ^ 64 ≤ 2 ^ i := Nat.pow_le_pow_right (by omega) (by omega)
    have h1 := pattern_lt x; have h2 := pattern_lt y
    rw [Nat.testBit_lt_two_pow (by omega), Nat.testBit_lt_two_pow (by omega)]

/-- **C90** A NULL operand gives NULL for every bit operator. -/
theorem C90_null (a b : Val) (h : a = .null ∨ b = .null) :
    bindAnd a b = .ok .null ∧ bindOr a b = .ok .null ∧ bindXor a b = .ok .null ∧ bindShl a b = .ok .null ∧
    bindShr a b = .ok .null ∧ bindNot .null = .ok .null ∧ bitCount .null = .ok .null := by
  have : existsNull [a, b] = true := by
    rcases h with h | h
    · subst h; rfl
    · subst h; cases a <;> rfl
  simp only [bindAnd, bindOr, bindXor, bindShl, bindShr, bind2, this, if_true, true_and]
  exact ⟨rfl, rfl⟩

/-! ### Shifts -/

/-- The documented shifts on 64-bit patterns: bits that leave are dropped, zeros enter, a negative count is an
error. -/
def ShiftSpec (f : Int → Int → Res Val) (op : Nat → Nat → Nat) : Prop :=
  ∀ x n : Int, InI64 x → InI64 n →
    (n < 0 → f x n = .err) ∧ (0 ≤ n → ∃ r, f x n = .ok (.int r) ∧ InI64 r ∧ pattern r = op (pattern x) n.toNat)

/-- Full C69. -/
def C69_full : Prop :=
  ShiftSpec (fun x n => bindShl (.int x) (.int n)) (fun p n => p * 2 ^ n % 2 ^ 64) ∧
  ShiftSpec (fun x n => bindShr (.int x) (.int n)) (fun p n => p / 2 ^ n) ∧
  (∀ x, InI64 x → bitCount (.int x) = .ok (.int ((List.range 64).countP (bit x))))

/-- A negative shift count panics instead of being an error. -/
theorem C69_full_false : ¬ C69_full := by
  intro h
  have := (h.1 1 (-1) (by decide) (by decide)).1 (by decide)
  simp [bindShl, bind2, existsNull, Val.isNull, toInt64, shl] at this

/-- Right shifts of negative numbers bring in ones: -1 >> 64 is -1, not 0. -/
theorem C69_right_shift_counterexample : bindShr (.int (-1)) (.int 64) = .ok (.int (-1)) := rfl

/-- **C69** Left shifts by any non-negative count, including counts of 64 and more. -/
theorem C69_left_partial (x n : Int) (hn : 0 ≤ n) :
    ∃ r, bindShl (.int x) (.int n) = .ok (.int r) ∧ InI64 r ∧ pattern r = pattern x * 2 ^ n.toNat % 2 ^ 64 := by
  have h1 : shl x n = .ok ((toBits x <<< n.toNat).toInt) := by simp only [shl, if_neg (Int.not_lt.mpr hn)]
  have h2 : bindShl (.int x) (.int n) = (shl x n).bind fun r => .ok (.int r) := rfl
  rw [h2, h1]
  refine ⟨_, rfl, toInt_inI64 _, ?_⟩
  rw [pattern_toInt, BitVec.toNat_shiftLeft, toBits_toNat, Nat.shiftLeft_eq]

/-- **C69** Left shifts by 64 or more give 0. -/
theorem C69_left_large (x n : Int) (hn : 64 ≤ n) : bindShl (.int x) (.int n) = .ok (.int 0) := by
  obtain ⟨r, hr, hin, hp⟩ := C69_left_partial x n (by omega)
  rw [hr]
  have : pattern r = 0 := by
    rw [hp]
    obtain ⟨k, hk⟩ : ∃ k, n.toNat = 64 + k := ⟨n.toNat - 64, by omega⟩
    rw [hk, Nat.pow_add, ← Nat.mul_assoc, Nat.mul_comm (pattern x), Nat.mul_assoc, Nat.mul_mod_right]
  rw [pattern_inj hin (by decide) (this.trans (by decide : (0 : Nat) = pattern 0))]

/-- **C69** Right shifts divide rounding down (they keep the sign): so they are the documented ones exactly for
non-negative numbers and, of any number, for a shift by 0. -/
theorem C69_right_partial (x n : Int) (hx : InI64 x) (hn : 0 ≤ n) :
    ∃ r, bindShr (.int x) (.int n) = .ok (.int r) ∧ InI64 r ∧ r = x / 2 ^ n.toNat ∧
      (pattern r = pattern x / 2 ^ n.toNat ↔ 0 ≤ x ∨ n = 0) := by
  have h1 : shr x n = .ok (((toBits x).sshiftRight n.toNat).toInt) := by simp only [shr, if_neg (Int.not_lt.mpr hn)]
  have h2 : bindShr (.int x) (.int n) = (shr x n).bind fun r => .ok (.int r) := rfl
  have hb : (toBits x).toInt = x := by
    unfold toBits; rw [BitVec.toInt_ofInt]
    unfold InI64 at hx
    exact Int.bmod_eq_of_le (by omega) (by omega)
  have hr : ((toBits x).sshiftRight n.toNat).toInt = x / 2 ^ n.toNat := by
    rw [BitVec.toInt_sshiftRight, hb, Int.shiftRight_eq_div_pow]; simp
  rw [h2, h1]
  refine ⟨_, rfl, toInt_inI64 _, hr, ?_⟩
  have hp : (1 : Int) ≤ 2 ^ n.toNat := by
    have := Nat.one_le_two_pow (n := n.toNat)
    exact_mod_cast this
  rw [hr]
  have hcast : ((2 ^ n.toNat : Nat) : Int) = 2 ^ n.toNat := by simp
  constructor
  · intro h
    by_cases hx0 : 0 ≤ x
    · exact .inl hx0
    · right
      by_cases hn0 : n = 0
      · exact hn0
      · exfalso
        have h2p : 2 ≤ 2 ^ n.toNat := by
          have := Nat.pow_le_pow_right (n := 2) (by omega) (show 1 ≤ n.toNat by omega)
          simpa using this
        -- the quotient is negative, so its pattern is at least 2^63, but half of a pattern is less
        have hneg : x / 2 ^ n.toNat < 0 := Int.ediv_neg_of_neg_of_pos (by omega) (by omega)
        have hin := toInt_inI64 ((toBits x).sshiftRight n.toNat)
        rw [hr] at hin
        have hbig : 2 ^ 63 ≤ pattern (x / 2 ^ n.toNat) := by
          unfold pattern; unfold InI64 at hin
          generalize x / 2 ^ n.toNat = q at hneg hin
          omega
        have hsmall : pattern x / 2 ^ n.toNat ≤ pattern x / 2 := Nat.div_le_div_left h2p (by omega)
        have := pattern_lt x
        omega
  · rintro (hx0 | hn0)
    · have hpx : pattern x = x.toNat := by unfold pattern; unfold InI64 at hx; omega
      have hq : 0 ≤ x / 2 ^ n.toNat := Int.ediv_nonneg hx0 (by omega)
      have hin := toInt_inI64 ((toBits x).sshiftRight n.toNat)
      rw [hr] at hin
      have hpq : pattern (x / 2 ^ n.toNat) = (x / 2 ^ n.toNat).toNat := by
        unfold pattern; unfold InI64 at hin
        generalize x / 2 ^ n.toNat = q at hq hin
        omega
      rw [hpq, hpx]
      obtain ⟨m, rfl⟩ : ∃ m : Nat, x = m := ⟨x.toNat, by omega⟩
      rw [← hcast, ← Int.natCast_ediv, Int.toNat_natCast, Int.toNat_natCast]
    · subst hn0; simp

/-- **C69** A negative count is a run-time panic in both directions. -/
theorem C69_negative_partial (x n : Int) (hn : n < 0) :
    bindShl (.int x) (.int n) = .panic ∧ bindShr (.int x) (.int n) = .panic := by
  have h1 : shl x n = .panic := by simp only [shl, if_pos hn]
  have h2 : shr x n = .panic := by simp only [shr, if_pos hn]
  constructor
  · show (shl x n).bind _ = _; rw [h1]; rfl
  · show (shr x n).bind _ = _; rw [h2]; rfl

/-! ### BIT_COUNT -/

private theorem range_succ_countP (p : Nat → Bool) : ∀ n, (List.range (n + 1)).countP p = (if p 0 then 1 else 0) + (List.range n).countP (fun i => p (i + 1)) := by
  intro n
  rw [List.range_succ_eq_map, List.countP_cons, List.countP_map]
  rw [Nat.add_comm]; rfl

theorem onesCount_spec : ∀ (n x : Nat), onesCount n x = (List.range n).countP fun i => x.testBit i
  | 0, _ => rfl
  | n + 1, x => by
    rw [onesCount, range_succ_countP, onesCount_spec n (x / 2)]
    congr 1
    · rw [Nat.testBit_zero]
      rcases Nat.mod_two_eq_zero_or_one x with h | h <;> simp [h]
    · congr 1; funext i; rw [Nat.testBit_succ]

/-- **C69** BIT_COUNT of an INT64 is the number of its 64 bits that are one. -/
theorem C69_bit_count (x : Int) : bitCount (.int x) = .ok (.int ((List.range 64).countP (bit x))) := by
  show Res.ok (Val.int (onesCount 64 (toBits x).toNat)) = _
  rw [onesCount_spec, toBits_toNat]; rfl

/-- **C69** BIT_COUNT of BYTES adds up the one bits of all bytes. -/
theorem C69_bit_count_bytes (b : List UInt8) :
    bitCount (.bytes b) = .ok (.int ((List.range (8 * b.length)).countP fun i => (b.getD (i / 8) 0).toNat.testBit (i % 8))) := by
  have key : ∀ (b : List UInt8) (s : Int), b.foldl (fun s x => s + (onesCount 8 x.toNat : Int)) s =
      s + ((List.range (8 * b.length)).countP fun i => (b.getD (i / 8) 0).toNat.testBit (i % 8) : Nat) := by
    intro b
    induction b with
    | nil => intro s; simp
    | cons x xs ih =>
      intro s
      rw [List.foldl_cons, ih, onesCount_spec]
      have : (List.range (8 * (x :: xs).length)) = List.range 8 ++ (List.range (8 * xs.length)).map (8 + ·) := by
        rw [← List.range_add]; congr 1; simp; omega
      rw [this, List.countP_append, List.countP_map]
      have e1 : (List.range 8).countP (fun i => ((x :: xs).getD (i / 8) 0).toNat.testBit (i % 8)) =
          (List.range 8).countP (fun i => x.toNat.testBit i) := by
        apply List.countP_congr
        intro i hi
        rw [List.mem_range] at hi
        rw [show i / 8 = 0 by omega, show i % 8 = i by omega]; rfl
      have e2 : ((fun i => ((x :: xs).getD (i / 8) 0).toNat.testBit (i % 8)) ∘ (8 + ·)) =
          fun i => (xs.getD (i / 8) 0).toNat.testBit (i % 8) := by
        funext i
        simp only [Function.comp]
        rw [show (8 + i) / 8 = i / 8 + 1 by omega, show (8 + i) % 8 = i % 8 by omega]; rfl
      rw [e1, e2]; omega
  show Res.ok (Val.int _) = _
  rw [key]; simp

example : bindAnd (.int 12) (.int 10) = .ok (.int 8) ∧ bindXor (.int (-1)) (.int 5) = .ok (.int (-6)) ∧
    bindShl (.int 3) (.int 62) = .ok (.int (-4611686018427387904)) ∧ bindShr (.int (-8)) (.int 1) = .ok (.int (-4)) := ⟨rfl, rfl, rfl, rfl⟩
example : bitCount (.int (-1)) = .ok (.int 64) ∧ bitCount (.bytes [255, 1]) = .ok (.int 9) := ⟨rfl, rfl⟩

end Verif.Bits
