import Verif.Props.StringSplit
import Verif.Lemmas.Utf8Decode

/-! # C288: SPLIT with an empty delimiter -/

namespace Verif.Strings

open Go Val

/-- C288: with an empty delimiter SPLIT gives the characters of a STRING and the bytes of BYTES, and of an empty value one empty piece. -/
def C288_full : Prop :=
  (∀ s : List Char, splitV (.str s) (some (.str [])) = .ok (.arr (if s = [] then [.str []] else s.map fun c => .str [c]))) ∧
  (∀ b : List UInt8, splitV (.bytes b) (some (.bytes [])) = .ok (.arr (if b = [] then [.bytes []] else b.map fun x => .bytes [x])))

/-- Somewhere in `b` a character beyond ASCII is encoded. -/
def HasChar (b : List UInt8) : Prop := ∃ p c q, b = p ++ (String.utf8EncodeChar c ++ q) ∧ 127 < c.toNat

theorem enc_one (c : Char) : (String.utf8EncodeChar c).length = 1 ↔ ¬ 127 < c.toNat := by
  show _ ↔ ¬ 127 < c.val.toNat
  simp only [String.utf8EncodeChar]
  generalize c.val.toNat = n
  split
  · simp; omega
  · split
    · simp; omega
    · split <;> (simp; omega)

theorem explode_iff : ∀ n b, b.length ≤ n → (explode n b = b.map (fun x => [x]) ↔ ¬ HasChar b)
  | 0, [], _ => ⟨fun _ ⟨p, c, q, e, _⟩ => by
      have := congrArg List.length e
      have := Codec.encodeChar_pos c
      simp at *, fun _ => rfl⟩
  | n + 1, [], _ => ⟨fun _ ⟨p, c, q, e, _⟩ => by
      have := congrArg List.length e
      have := Codec.encodeChar_pos c
      simp at *, fun _ => rfl⟩
  | n + 1, x :: b, h => by
    have e : explode (n + 1) (x :: b) = (x :: b).take (decodeRune (x :: b)).2 :: explode n ((x :: b).drop (decodeRune (x :: b)).2) := by
      rw [explode]; simp
    rw [e]
    by_cases k : (decodeRune (x :: b)).2 = 1
    · have ih := explode_iff n b (by simpa using h)
      rw [k]
      simp only [List.take_succ_cons, List.take_zero, List.drop_succ_cons, List.drop_zero, List.map_cons, List.cons.injEq, true_and]
      rw [ih]
      refine not_congr ⟨fun ⟨p, c, q, e, hc⟩ => ⟨x :: p, c, q, by rw [e]; rfl, hc⟩, ?_⟩
      rintro ⟨p, c, q, e, hc⟩
      cases p with
      | nil =>
        rw [e, List.nil_append, Codec.decodeRune_encode] at k
        exact absurd hc ((enc_one c).1 k)
      | cons y p =>
        injection e with _ e
        exact ⟨p, c, q, e, hc⟩
    · rcases Words.decodeRune_cases x b with ⟨c, q, e⟩ | e
      · rw [e, Codec.decodeRune_encode] at k ⊢
        have hc : 127 < c.toNat := Decidable.byContradiction fun h => k ((enc_one c).2 h)
        constructor
        · intro e'
          rw [← e, List.map_cons, List.cons.injEq] at e'
          have := congrArg List.length e'.1
          rw [e, List.take_left' rfl] at this
          exact absurd this k
        · exact fun h' => absurd ⟨[], c, q, rfl, hc⟩ h'
      · exact absurd (by rw [e]) k

/-- **C288** exactly: for a STRING that is not empty, and for BYTES that are not empty and in which no character beyond ASCII is encoded. -/
theorem C288_iff :
    (∀ s : List Char, splitV (.str s) (some (.str [])) = .ok (.arr (if s = [] then [.str []] else s.map fun c => .str [c])) ↔ s ≠ []) ∧
    (∀ b : List UInt8, splitV (.bytes b) (some (.bytes [])) = .ok (.arr (if b = [] then [.bytes []] else b.map fun x => .bytes [x])) ↔
      b ≠ [] ∧ ¬ HasChar b) := by
  constructor
  · intro s
    rw [C60_empty]
    cases s with
    | nil => exact ⟨fun h => (by simp at h), fun h => absurd rfl h⟩
    | cons c s => simp
  · intro b
    cases b with
    | nil => exact ⟨fun h => (by simp [splitV, splitBytes, explode] at h), fun h => absurd rfl h.1⟩
    | cons x b =>
      rw [← explode_iff _ (x :: b) (Nat.le_refl _), if_neg (by simp)]
      simp only [splitV, splitBytes, if_true, Res.ok.injEq, Val.arr.injEq, ne_eq, reduceCtorEq, not_false_eq_true, true_and]
      rw [show (x :: b).map (fun x => Val.bytes [x]) = ((x :: b).map fun x => [x]).map Val.bytes by rw [List.map_map]; rfl]
      constructor
      · intro h
        have : ∀ l m : List (List UInt8), l.map Val.bytes = m.map Val.bytes → l = m := by
          intro l
          induction l with
          | nil => intro m e; cases m with
            | nil => rfl
            | cons => cases e
          | cons a l ih => intro m e; cases m with
            | nil => cases e
            | cons b m =>
              simp only [List.map_cons, List.cons.injEq, Val.bytes.injEq] at e
              rw [e.1, ih m e.2]
        exact this _ _ h
      · intro h; rw [h]

theorem explode_flatten : ∀ n b, b.length ≤ n → (explode n b).flatten = b
  | 0, [], _ => rfl
  | n + 1, [], _ => rfl
  | n + 1, x :: b, h => by
    have e : explode (n + 1) (x :: b) = (x :: b).take (decodeRune (x :: b)).2 :: explode n ((x :: b).drop (decodeRune (x :: b)).2) := by
      rw [explode]; simp
    have k : 0 < (decodeRune (x :: b)).2 := by
      rcases Words.decodeRune_cases x b with ⟨c, q, e⟩ | e
      · rw [e, Codec.decodeRune_encode]; exact Codec.encodeChar_pos c
      · rw [e]; decide
    rw [e, List.flatten_cons, explode_flatten n _ (by rw [List.length_drop]; simp only [List.length_cons] at *; omega), List.take_append_drop]

/-- **C288** The pieces of any BYTES put together are the BYTES. -/
theorem C288_join (b : List UInt8) : ∃ ps : List (List UInt8), splitV (.bytes b) (some (.bytes [])) = .ok (.arr (ps.map .bytes)) ∧ ps.flatten = b :=
  ⟨_, by rw [splitV, splitBytes, if_pos rfl], explode_flatten _ b (Nat.le_refl _)⟩

/-- SPLIT(b'\xc3\xa4b', b'') has two pieces instead of three. -/
example : splitV (.bytes [0xc3, 0xa4, 0x62]) (some (.bytes [])) = .ok (.arr [.bytes [0xc3, 0xa4], .bytes [0x62]]) := by rfl

theorem C288_full_false : ¬ C288_full := fun h => (C288_iff.1 []).1 (h.1 []) rfl

example : ¬ HasChar [0x61, 0x62] := by
  rw [← explode_iff 2 _ (by decide)]; rfl

end Verif.Strings
