import Verif.Model.LikeVal
import Verif.Props.LikeExact

/-! # C259: LIKE on BYTES -/

namespace Verif.Like

open Go Verif.Val

/-- SQL LIKE on bytes: 37 is `%`, 95 is `_`, 92 is the escape character. -/
inductive LikesB : List UInt8 → List UInt8 → Prop where
  | nil : LikesB [] []
  | pct {p} (x : List UInt8) {y} : LikesB p y → LikesB (37 :: p) (x ++ y)
  | any {p} (c : UInt8) {s} : LikesB p s → LikesB (95 :: p) (c :: s)
  | esc {p} (c : UInt8) {s} : LikesB p s → LikesB (92 :: c :: p) (c :: s)
  | lit {p} {c : UInt8} {s} : c ≠ 37 → c ≠ 95 → c ≠ 92 → LikesB p s → LikesB (c :: p) (c :: s)

/-- Full C259. -/
def C259_full : Prop := ∀ s p : List UInt8, ∃ r, likeVal (.bytes s) (.bytes p) = .ok r ∧ (r = true ↔ LikesB p s)

/-- No digit of base64 is `%`. -/
theorem digit_ne (n : Nat) : Base64.digit n ≠ '%' := by
  have hb : ∀ m, m < 26 → Char.ofNat (65 + m) ≠ '%' := by decide
  have hl : ∀ m, m < 26 → Char.ofNat (97 + m) ≠ '%' := by decide
  have hn : ∀ m, m < 10 → Char.ofNat (48 + m) ≠ '%' := by decide
  unfold Base64.digit
  split
  · exact hb _ (by omega)
  split
  · exact hl _ (by omega)
  split
  · exact hn _ (by omega)
  split
  · decide
  · decide

theorem base64_pct : ∀ b : List UInt8, '%' ∉ Base64.encode b := by
  intro b
  fun_induction Base64.encode b with
  | case1 a b c rest n ih => simp [Ne.symm (digit_ne _), ih]
  | case2 => simp [Ne.symm (digit_ne _)]
  | case3 => simp [Ne.symm (digit_ne _)]
  | case4 => simp

theorem code_plain {p s : List Char} (h : '%' ∉ p) : CodeLikes p s ↔ s = p := by
  induction p generalizing s with
  | nil => exact ⟨fun h => by cases h; rfl, fun h => h ▸ .nil⟩
  | cons c p ih =>
    simp only [List.mem_cons, not_or] at h
    constructor
    · intro h'
      cases h' with
      | pct x _ _ => exact absurd rfl h.1
      | lit _ h' => rw [(ih h.2).1 h']
    · rintro rfl
      exact .lit (Ne.symm h.1) ((ih h.2).2 rfl)

/-- C259, what the code does: LIKE on BYTES is equality. -/
theorem C259_exact (s p : List UInt8) : likeVal (.bytes s) (.bytes p) = .ok (decide (s = p)) := by
  have h : like (Base64.encode s) (Base64.encode p) = .ok (decide (s = p)) := by
    obtain ⟨r, h1, h2⟩ := C29_exact (Base64.encode s) (Base64.encode p)
    rw [h1]
    congr 1
    rw [code_plain (base64_pct p)] at h2
    rw [Bool.eq_iff_iff, h2, decide_eq_true_eq]
    exact ⟨Base64.encode_injective, fun e => by rw [e]⟩
  simp only [likeVal, Val.isNull, Cast.toStr, Bool.or_self, Bool.false_eq_true, if_false, Res.bind'_ok, h]

/-- C29: with a NULL operand LIKE is FALSE instead of NULL, so that NOT LIKE is TRUE. -/
theorem C29_null (v : Val) : likeVal .null v = .ok false ∧ likeVal v .null = .ok false := by
  simp [likeVal]

/-- LIKE on STRING values is what C29 is about. -/
theorem likeVal_str (s p : List Char) : likeVal (.str s) (.str p) = like s p := rfl

/-- A short text the pattern matches; none if the pattern ends in an escape character. -/
def witB : List UInt8 → Option (List UInt8)
  | [] => some []
  | [92] => none
  | 92 :: c :: p => (witB p).map (c :: ·)
  | c :: p => if c = 37 then witB p else if c = 95 then (witB p).map (97 :: ·) else (witB p).map (c :: ·)

theorem witB_likes (p : List UInt8) : (∀ s, witB p = some s → LikesB p s ∧ s.length ≤ p.length ∧ (s = p → 37 ∉ p ∧ 95 ∉ p ∧ 92 ∉ p)) ∧
    (witB p = none → ∀ s, ¬ LikesB p s) := by
  fun_induction witB p with
  | case1 => exact ⟨by intro s h; cases h; exact ⟨.nil, by simp, by simp⟩, by simp⟩
  | case2 =>
    refine ⟨by simp, fun _ s h => ?_⟩
    generalize hp : [(92 : UInt8)] = q at h
    cases h with
    | nil => cases hp
    | pct x _ => exact absurd (List.cons.inj hp).1 (by decide)
    | any c _ => exact absurd (List.cons.inj hp).1 (by decide)
    | esc c _ => cases hp
    | lit _ _ h _ => cases hp; exact h rfl
  | case3 c p ih =>
    constructor
    · intro s h
      obtain ⟨t, ht, rfl⟩ := Option.map_eq_some_iff.1 h
      obtain ⟨h1, h2, -⟩ := ih.1 t ht
      refine ⟨.esc c h1, by simp; omega, fun e => ?_⟩
      have := congrArg List.length e
      simp at this
      omega
    · intro h s hl
      rw [Option.map_eq_none_iff] at h
      generalize hp : (92 : UInt8) :: c :: p = q at hl
      cases hl with
      | nil => cases hp
      | pct x _ => exact absurd (List.cons.inj hp).1 (by decide)
      | any c _ => exact absurd (List.cons.inj hp).1 (by decide)
      | esc c hl => cases hp; exact ih.2 h _ hl
      | lit _ _ h _ => cases hp; exact h rfl
  | case4 p h1 h2 ih =>
    constructor
    · intro s h
      obtain ⟨h1, h2, -⟩ := ih.1 s h
      refine ⟨.pct [] h1, by simp; omega, fun e => ?_⟩
      have := congrArg List.length e
      simp at this
      omega
    · intro h s hl
      generalize hp : (37 : UInt8) :: p = q at hl
      cases hl with
      | nil => cases hp
      | pct x hl => cases hp; exact ih.2 h _ hl
      | any c _ => exact absurd (List.cons.inj hp).1 (by decide)
      | esc c hl => exact absurd (List.cons.inj hp).1 (by decide)
      | lit h _ _ _ => cases hp; exact h rfl
  | case5 p h1 h2 h3 ih =>
    constructor
    · intro s h
      obtain ⟨t, ht, rfl⟩ := Option.map_eq_some_iff.1 h
      obtain ⟨h1, h2, -⟩ := ih.1 t ht
      exact ⟨.any 97 h1, by simp; omega, fun e => absurd (List.cons.inj e).1 (by decide)⟩
    · intro h s hl
      rw [Option.map_eq_none_iff] at h
      generalize hp : (95 : UInt8) :: p = q at hl
      cases hl with
      | nil => cases hp
      | pct x hl => exact absurd (List.cons.inj hp).1 (by decide)
      | any c hl => cases hp; exact ih.2 h _ hl
      | esc c hl => exact absurd (List.cons.inj hp).1 (by decide)
      | lit _ h _ _ => cases hp; exact h rfl
  | case6 c p h1 h2 h3 h4 ih =>
    have h5 : c ≠ 92 := by
      rintro rfl
      cases p with
      | nil => exact h1 rfl rfl
      | cons d p => exact h2 d p rfl rfl
    constructor
    · intro s h
      obtain ⟨t, ht, rfl⟩ := Option.map_eq_some_iff.1 h
      obtain ⟨h1, h2, h6⟩ := ih.1 t ht
      refine ⟨.lit h3 h4 h5 h1, by simp; omega, fun e => ?_⟩
      obtain ⟨a, b, d⟩ := h6 (List.cons.inj e).2
      simp [a, b, d, Ne.symm h3, Ne.symm h4, Ne.symm h5]
    · intro h s hl
      rw [Option.map_eq_none_iff] at h
      generalize hp : c :: p = q at hl
      cases hl with
      | nil => cases hp
      | pct x hl => cases hp; exact h3 rfl
      | any c hl => cases hp; exact h4 rfl
      | esc c hl => cases hp; exact h5 rfl
      | lit _ _ _ hl => cases hp; exact ih.2 h _ hl

theorem likesB_plain {p s : List UInt8} (h1 : 37 ∉ p) (h2 : 95 ∉ p) (h3 : 92 ∉ p) : LikesB p s ↔ s = p := by
  induction p generalizing s with
  | nil => exact ⟨fun h => by cases h; rfl, fun h => h ▸ .nil⟩
  | cons c p ih =>
    simp only [List.mem_cons, not_or] at h1 h2 h3
    constructor
    · intro h
      cases h with
      | pct x h => exact absurd rfl h1.1
      | any d h => exact absurd rfl h2.1
      | esc d h => exact absurd rfl h3.1
      | lit _ _ _ h => rw [(ih h1.2 h2.2 h3.2).1 h]
    · rintro rfl
      exact .lit (Ne.symm h1.1) (Ne.symm h2.1) (Ne.symm h3.1) ((ih h1.2 h2.2 h3.2).2 rfl)

/-- C259: LIKE on BYTES with a pattern is right for all texts exactly if the pattern has no `%`, no `_` and no escape. -/
theorem C259_iff (p : List UInt8) :
    (∀ s, ∃ r, likeVal (.bytes s) (.bytes p) = .ok r ∧ (r = true ↔ LikesB p s)) ↔ 37 ∉ p ∧ 95 ∉ p ∧ 92 ∉ p := by
  have hr : ∀ s, (∃ r, likeVal (.bytes s) (.bytes p) = .ok r ∧ (r = true ↔ LikesB p s)) ↔ (LikesB p s ↔ s = p) := by
    intro s
    rw [C259_exact]
    constructor
    · rintro ⟨r, h, h'⟩
      cases h
      rw [← h', decide_eq_true_eq]
    · intro h
      exact ⟨_, rfl, by rw [h, decide_eq_true_eq]⟩
  simp only [hr]
  constructor
  · intro h
    cases hw : witB p with
    | none => exact absurd ((h p).2 rfl) ((witB_likes p).2 hw p)
    | some s =>
      obtain ⟨h1, -, h2⟩ := (witB_likes p).1 s hw
      exact h2 ((h s).1 h1)
  · rintro ⟨h1, h2, h3⟩ s
    exact likesB_plain h1 h2 h3

theorem C259_full_false : ¬ C259_full := fun h => ((C259_iff [37]).1 fun s => h s [37]).1 (by simp)

/-- Cases: `b'ab' LIKE b'ab'` and `b'ab' LIKE b'a%'`. -/
example : likeVal (.bytes [97, 98]) (.bytes [97, 98]) = .ok true ∧ likeVal (.bytes [97, 98]) (.bytes [97, 37]) = .ok false :=
  ⟨C259_exact _ _, C259_exact _ _⟩

end Verif.Like
