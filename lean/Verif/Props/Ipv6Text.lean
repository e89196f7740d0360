import Verif.Props.Ipv6

/-! # C225: NET.IP_TO_STRING of 16-byte addresses -/

namespace Verif.Net

open Go Verif.Ipv6Spec

/-! ### Groups -/

theorem groupText_eq (w : Nat) : groupText w = if w < 16 then [hexDigit w] else groupText (w / 16) ++ [hexDigit (w % 16)] := by
  rw [groupText]

theorem hex16_eq {w : Nat} (h : w < 65536) : hex16 w = groupText w := by
  unfold hex16
  rw [groupText_eq w]
  by_cases h1 : w < 16
  · simp [h1, show ¬ 4096 ≤ w by omega, show ¬ 256 ≤ w by omega, show ¬ 16 ≤ w by omega, Nat.mod_eq_of_lt h1]
  · rw [if_neg h1, groupText_eq (w / 16)]
    by_cases h2 : w / 16 < 16
    · simp [h2, show ¬ 4096 ≤ w by omega, show ¬ 256 ≤ w by omega, show 16 ≤ w by omega, Nat.mod_eq_of_lt h2]
    · rw [if_neg h2, groupText_eq (w / 16 / 16)]
      by_cases h3 : w / 16 / 16 < 16
      · have e : w / 256 = w / 16 / 16 := by omega
        simp [h3, show ¬ 4096 ≤ w by omega, show 256 ≤ w by omega, show 16 ≤ w by omega, e, Nat.mod_eq_of_lt h3]
      · rw [if_neg h3, groupText_eq (w / 16 / 16 / 16)]
        have e : w / 256 = w / 16 / 16 := by omega
        have e2 : w / 4096 = w / 16 / 16 / 16 := by omega
        have h4 : w / 16 / 16 / 16 < 16 := by omega
        simp [h4, show 4096 ≤ w by omega, show 256 ≤ w by omega, show 16 ≤ w by omega, e, e2]

theorem groupText_num : ∀ (w : Nat), (∀ c ∈ groupText w, (hexVal c).isSome) ∧ groupText w ≠ [] ∧ hexNum (groupText w) = w := by
  intro w
  induction w using Nat.strongRecOn with
  | _ w ih =>
    rw [groupText_eq]
    split
    · rename_i h
      simp [hexVal_digit w h, hexNum]
    · rename_i h
      obtain ⟨h1, h2, h3⟩ := ih (w / 16) (by omega)
      have hd := hexVal_digit (w % 16) (by omega)
      refine ⟨?_, by simp, ?_⟩
      · intro c hc
        rcases List.mem_append.mp hc with hc | hc
        · exact h1 c hc
        · simp only [List.mem_singleton] at hc; subst hc; simp [hd]
      · simp only [hexNum, List.foldl_append, List.foldl_cons, List.foldl_nil, hd, Option.getD_some] at h3 ⊢
        rw [h3]; omega

theorem groupText_length {w : Nat} (h : w < 65536) : (groupText w).length ≤ 4 := by
  rw [← hex16_eq h]
  unfold hex16
  simp only [List.length_append]
  repeat' split
  all_goals simp

theorem groupText_group {w : Nat} (h : w < 65536) : IsGroup (groupText w) (UInt8.ofNat (w / 256)) (UInt8.ofNat w) := by
  obtain ⟨h1, h2, h3⟩ := groupText_num w
  have := group_of h2 (groupText_length h) h1
  rw [h3] at this
  exact this

/-! ### Words -/

theorem words_lt : ∀ (b : List UInt8), ∀ w ∈ words b, w < 65536
  | [], _, h => by cases h
  | [_], _, h => by cases h
  | x :: y :: b, w, h => by
    rcases List.mem_cons.mp h with rfl | h
    · have := x.toNat_lt; have := y.toNat_lt; omega
    · exact words_lt b w h

/-- The bytes of words. -/
def unwords (ws : List Nat) : List UInt8 := ws.flatMap fun w => [UInt8.ofNat (w / 256), UInt8.ofNat w]

theorem unwords_words : ∀ (b : List UInt8), b.length % 2 = 0 → unwords (words b) = b
  | [], _ => rfl
  | [_], h => by cases h
  | x :: y :: b, h => by
    have ih := unwords_words b (by simp at h; omega)
    have hx := x.toNat_lt; have hy := y.toNat_lt
    simp only [unwords, words, List.flatMap_cons] at ih ⊢
    rw [ih]
    have e1 : UInt8.ofNat ((256 * x.toNat + y.toNat) / 256) = x := by
      apply UInt8.toNat_inj.mp; rw [UInt8.toNat_ofNat']; omega
    have e2 : UInt8.ofNat (256 * x.toNat + y.toNat) = y := by
      apply UInt8.toNat_inj.mp; rw [UInt8.toNat_ofNat']; omega
    rw [e1, e2]; rfl

theorem words_length : ∀ (b : List UInt8), (words b).length = b.length / 2
  | [] => rfl
  | [_] => by simp [words]
  | _ :: _ :: b => by simp only [words, List.length_cons, words_length b]; omega

theorem unwords_length (ws : List Nat) : (unwords ws).length = 2 * ws.length := by
  induction ws with
  | nil => rfl
  | cons w ws ih => simp only [unwords, List.flatMap_cons, List.length_append, List.length_cons, List.length_nil] at ih ⊢; omega

theorem unwords_append (a b : List Nat) : unwords (a ++ b) = unwords a ++ unwords b := by simp [unwords]

theorem unwords_zeros (n : Nat) : unwords (List.replicate n 0) = List.replicate (2 * n) 0 := by
  induction n with
  | zero => rfl
  | succ n ih =>
    rw [List.replicate_succ, show 2 * (n + 1) = 2 * n + 1 + 1 by omega, List.replicate_succ, List.replicate_succ, ← ih]
    rfl

theorem groups_pieces (q : Bool) : ∀ (ws : List Nat), ws ≠ [] → (∀ w ∈ ws, w < 65536) → Pieces q (groupsText ws) (unwords ws)
  | [], h, _ => absurd rfl h
  | [w], _, h => .group q (groupText_group (h w (by simp)))
  | w :: v :: ws, _, h => by
    have ih := groups_pieces q (v :: ws) (by simp) fun w hw => h w (by simp [hw])
    exact .cons (groupText_group (h w (by simp))) ih

theorem groups_side (q : Bool) (ws : List Nat) (h : ∀ w ∈ ws, w < 65536) : Side q (groupsText ws) (unwords ws) := by
  cases ws with
  | nil => exact .inl ⟨rfl, rfl⟩
  | cons w ws => exact .inr (groups_pieces q _ (by simp) h)

/-! ### The longest run of zeros -/

theorem run_prefix : ∀ (l : List Nat) (n : Nat), n ≤ (l.takeWhile (· == 0)).length ↔ ∀ k, k < n → l[k]? = some 0
  | [], n => by
    cases n with
    | zero => simp
    | succ n => simp only [List.takeWhile_nil, List.length_nil]; exact ⟨by omega, fun h => by have := h 0 (by omega); cases this⟩
  | x :: l, n => by
    cases n with
    | zero => simp
    | succ n =>
      by_cases hx : x = 0
      · subst hx
        have ih := run_prefix l n
        simp only [List.takeWhile_cons, BEq.rfl, if_true, List.length_cons, Nat.add_le_add_iff_right]
        rw [ih]
        constructor
        · intro h k hk
          cases k with
          | zero => rfl
          | succ k => exact h k (by omega)
        · intro h k hk
          exact h (k + 1) (by omega)
      · simp only [List.takeWhile_cons, beq_iff_eq, hx, if_false, List.length_nil]
        exact ⟨by omega, fun h => by have := h 0 (by omega); simp at this; exact absurd this hx⟩

theorem zeros_run (ws : List Nat) (i n : Nat) : ZerosAt ws i n ↔ (n ≤ zeroRun ws i ∧ i + n ≤ ws.length) := by
  unfold ZerosAt zeroRun
  rw [run_prefix]
  constructor
  · rintro ⟨h1, h2⟩
    refine ⟨fun k hk => ?_, h1⟩
    rw [List.getElem?_drop]
    exact h2 _ (by omega) (by omega)
  · rintro ⟨h1, h2⟩
    refine ⟨h2, fun k hk hk2 => ?_⟩
    have := h1 (k - i) (by omega)
    rw [List.getElem?_drop, show i + (k - i) = k by omega] at this
    exact this

theorem zeroRun_le (ws : List Nat) (i : Nat) : zeroRun ws i ≤ ws.length - i := by
  unfold zeroRun
  have := (List.takeWhile_sublist (fun x : Nat => x == 0) (l := ws.drop i)).length_le
  rw [List.length_drop] at this
  exact this

theorem zeroRun_zeros (ws : List Nat) (i : Nat) (h : i ≤ ws.length) : ZerosAt ws i (zeroRun ws i) :=
  (zeros_run ws i _).mpr ⟨Nat.le_refl _, by have := zeroRun_le ws i; omega⟩

theorem bestRun_spec (ws : List Nat) : ∀ k, let a := (List.range k).foldl (fun a i => if 2 ≤ zeroRun ws i ∧ a.2 - a.1 < zeroRun ws i then (i, i + zeroRun ws i) else a) (255, 255)
    (a = (255, 255) ∧ ∀ i, i < k → zeroRun ws i < 2) ∨
    (a.1 < k ∧ a.2 = a.1 + zeroRun ws a.1 ∧ 2 ≤ zeroRun ws a.1 ∧ ∀ j, j < k → zeroRun ws j < zeroRun ws a.1 ∨ zeroRun ws j = zeroRun ws a.1 ∧ a.1 ≤ j) := by
  intro k
  induction k with
  | zero => exact .inl ⟨rfl, by omega⟩
  | succ k ih =>
    simp only [List.range_succ, List.foldl_append, List.foldl_cons, List.foldl_nil] at ih ⊢
    generalize (List.range k).foldl (fun a i => if 2 ≤ zeroRun ws i ∧ a.2 - a.1 < zeroRun ws i then (i, i + zeroRun ws i) else a) (255, 255) = a at ih ⊢
    rcases ih with ⟨rfl, h⟩ | ⟨h1, h2, h3, h4⟩
    · by_cases hc : 2 ≤ zeroRun ws k
      · rw [if_pos ⟨hc, by omega⟩]
        refine .inr ⟨by simp, rfl, hc, fun j hj => ?_⟩
        by_cases hk : j = k
        · subst hk; exact .inr ⟨rfl, Nat.le_refl _⟩
        · have := h j (by omega); exact .inl (by simp only; omega)
      · rw [if_neg (fun h => hc h.1)]
        refine .inl ⟨rfl, fun i hi => ?_⟩
        by_cases hk : i = k
        · subst hk; omega
        · exact h i (by omega)
    · by_cases hc : 2 ≤ zeroRun ws k ∧ a.2 - a.1 < zeroRun ws k
      · rw [if_pos hc]
        refine .inr ⟨by simp, rfl, hc.1, fun j hj => ?_⟩
        simp only
        by_cases hk : j = k
        · subst hk; exact .inr ⟨rfl, Nat.le_refl _⟩
        · have := h4 j (by omega); omega
      · rw [if_neg hc]
        refine .inr ⟨by omega, h2, h3, fun j hj => ?_⟩
        by_cases hk : j = k
        · subst hk; omega
        · exact h4 j (by omega)

/-! ### The text -/

theorem print_none (a b c d e f g h : Nat) :
    printLoop [a, b, c, d, e, f, g, h] 255 255 8 0 = hex16 a ++ ':' :: (hex16 b ++ ':' :: (hex16 c ++ ':' :: (hex16 d ++ ':' ::
      (hex16 e ++ ':' :: (hex16 f ++ ':' :: (hex16 g ++ ':' :: hex16 h)))))) := by
  simp [printLoop]

/-- As `groupsText`, with the digits of the code. -/
def join16 : List Nat → List Char
  | [] => []
  | [w] => hex16 w
  | w :: ws => hex16 w ++ ':' :: join16 ws

theorem join16_eq : ∀ (ws : List Nat), (∀ w ∈ ws, w < 65536) → join16 ws = groupsText ws
  | [], _ => rfl
  | [w], h => hex16_eq (h w (by simp))
  | w :: v :: ws, h => by
    simp only [join16, groupsText]
    rw [hex16_eq (h w (by simp)), join16_eq (v :: ws) fun w hw => h w (by simp [hw])]

theorem print_run (a b c d e f g h : Nat) : ∀ i, i < 9 → ∀ j, j < 9 → i < j →
    printLoop [a, b, c, d, e, f, g, h] i j 8 0 =
      join16 ([a, b, c, d, e, f, g, h].take i) ++ ':' :: ':' :: join16 ([a, b, c, d, e, f, g, h].drop j) := by
  intro i hi j hj hij
  have h0 : i = 0 ∨ i = 1 ∨ i = 2 ∨ i = 3 ∨ i = 4 ∨ i = 5 ∨ i = 6 ∨ i = 7 := by omega
  have : j = 1 ∨ j = 2 ∨ j = 3 ∨ j = 4 ∨ j = 5 ∨ j = 6 ∨ j = 7 ∨ j = 8 := by omega
  rcases h0 with rfl | rfl | rfl | rfl | rfl | rfl | rfl | rfl <;>
    rcases this with rfl | rfl | rfl | rfl | rfl | rfl | rfl | rfl <;> first | omega | simp [printLoop, join16]

/-- The text that `appendTo6` writes is the one RFC 5952 recommends. -/
theorem print_recommended (ws : List Nat) (hl : ws.length = 8) (hw : ∀ w ∈ ws, w < 65536) :
    Recommended ws (printLoop ws (bestRun ws).1 (bestRun ws).2 8 0) := by
  have hle : ∀ i, ZerosAt ws i (zeroRun ws i) → i < 8 ∨ zeroRun ws i = 0 := fun i h => by have := h.1; omega
  rcases bestRun_spec ws 8 with ⟨h1, h2⟩ | ⟨h1, h2, h3, h4⟩
  · change bestRun ws = (255, 255) at h1
    refine .inl ⟨?_, ?_⟩
    · intro i n h
      have h3 := (zeros_run ws i n).mp h
      by_cases hi : i < 8
      · have := h2 i hi; omega
      · omega
    · rw [h1, ← join16_eq ws hw]
      match ws, hl with
      | [a, b, c, d, e, f, g, h], _ => exact print_none a b c d e f g h
  · change (bestRun ws).1 < 8 at h1
    change (bestRun ws).2 = (bestRun ws).1 + zeroRun ws (bestRun ws).1 at h2
    change 2 ≤ zeroRun ws (bestRun ws).1 at h3
    change ∀ j, j < 8 → zeroRun ws j < zeroRun ws (bestRun ws).1 ∨ zeroRun ws j = zeroRun ws (bestRun ws).1 ∧ (bestRun ws).1 ≤ j at h4
    have hz := zeroRun_zeros ws (bestRun ws).1 (by omega)
    generalize (bestRun ws).1 = i at *
    rw [h2]
    refine .inr ⟨i, zeroRun ws i, h3, hz, ?_, ?_⟩
    · intro j m hj
      have h5 := (zeros_run ws j m).mp hj
      by_cases hj8 : j < 8
      · have := h4 j hj8; omega
      · omega
    · have hlen := hz.1
      rw [← join16_eq _ (fun w hw' => hw w (List.mem_of_mem_take hw')), ← join16_eq _ (fun w hw' => hw w (List.mem_of_mem_drop hw'))]
      match ws, hl with
      | [a, b, c, d, e, f, g, h], _ =>
        exact print_run a b c d e f g h i (by omega) _ (by simp at hlen; omega) (by omega)

/-- A recommended text denotes the address. -/
theorem recommended_denotes {b : List UInt8} (hb : b.length = 16) {s : List Char} (h : Recommended (words b) s) : Denotes s b := by
  have hu := unwords_words b (by omega)
  have hwl : (words b).length = 8 := by rw [words_length, hb]
  have hw := words_lt b
  generalize words b = ws at *
  subst hu
  rcases h with ⟨_, rfl⟩ | ⟨i, n, h2, ⟨h3, h4⟩, _, rfl⟩
  · refine ⟨hb, .inl (groups_pieces true ws ?_ hw)⟩
    rintro rfl; cases hwl
  · refine ⟨hb, .inr ⟨_, _, _, _, groups_side false (ws.take i) (fun w hw' => hw w (List.mem_of_mem_take hw')),
      groups_side true (ws.drop (i + n)) (fun w hw' => hw w (List.mem_of_mem_drop hw')), rfl, ?_, ?_⟩⟩
    · rw [unwords_length, unwords_length, List.length_take, List.length_drop]; omega
    · rw [unwords_length, unwords_length, List.length_take, List.length_drop, hwl,
        show 16 - (2 * min i 8 + 2 * (8 - (i + n))) = 2 * n by omega, ← unwords_zeros, ← unwords_append, ← unwords_append]
      congr 1
      apply List.ext_getElem?
      intro k
      by_cases h5 : k < i
      · rw [List.append_assoc, List.getElem?_append_left (by simp; omega), List.getElem?_take, if_pos h5]
      · by_cases h6 : k < i + n
        · rw [h4 k (by omega) h6, List.getElem?_append_left (by simp; omega), List.getElem?_append_right (by simp; omega),
            List.getElem?_replicate, if_pos (by simp; omega)]
        · rw [List.getElem?_append_right (by simp; omega), List.getElem?_drop]
          congr 1
          simp; omega

/-- **C225** NET.IP_TO_STRING of 16 bytes is the text RFC 5952 recommends (section 5 for the addresses that hold an IPv4
address); it denotes the address, and NET.IP_FROM_STRING gives the address back. -/
theorem C225 (b : List UInt8) (hb : b.length = 16) : ∃ s, ipToString text6 b = .ok s ∧ Denotes s b ∧
    ipFromString parse6 s = .ok b ∧ safeIpFromString parse6 s = .ok (some b) ∧
    ((b.take 12 = List.replicate 10 0 ++ [255, 255] ∧ s = "::ffff:".toList ++ ipv4Text (b.drop 12)) ∨
     (b.take 12 ≠ List.replicate 10 0 ++ [255, 255] ∧ Recommended (words b) s)) := by
  refine ⟨text6 b, by simp [ipToString, hb], ?_⟩
  suffices h : Denotes (text6 b) b ∧ ((b.take 12 = List.replicate 10 0 ++ [255, 255] ∧ text6 b = "::ffff:".toList ++ ipv4Text (b.drop 12)) ∨
     (b.take 12 ≠ List.replicate 10 0 ++ [255, 255] ∧ Recommended (words b) (text6 b))) by
    have h1 := (C224_zone_partial (text6 b) b).mpr (.inr (.inl h.1))
    exact ⟨h.1, h1, ((C68_safe_from_string parse6 (text6 b)).2 b).mp h1, h.2⟩
  unfold text6
  by_cases h : b.take 12 = List.replicate 10 0 ++ [255, 255]
  · rw [if_pos h]
    refine ⟨⟨hb, .inr ⟨[], [], "ffff:".toList ++ ipv4Text (b.drop 12), 255 :: 255 :: b.drop 12, .inl ⟨rfl, rfl⟩, .inr ?_, rfl, by simp; omega, ?_⟩⟩, .inl ⟨h, rfl⟩⟩
    · exact .cons (t := ['f', 'f', 'f', 'f']) ⟨by decide, by decide, by decide, by decide⟩ (.quad (by simp [hb]))
    · have := List.take_append_drop 12 b
      rw [h] at this
      simp only [List.nil_append, List.length_nil, List.length_cons, List.length_drop, hb]
      exact this.symm
  · rw [if_neg h]
    have := print_recommended (words b) (by rw [words_length, hb]) (words_lt b)
    exact ⟨recommended_denotes hb this, .inr ⟨h, this⟩⟩

/-- **C225** Different addresses have different texts, of 4 and of 16 bytes. -/
theorem C225_injective {b b' : List UInt8} {s : List Char} (h : ipToString text6 b = .ok s) (h' : ipToString text6 b' = .ok s) : b = b' := by
  have key : ∀ b, ipToString text6 b = .ok s → ipFromString parse6 s = .ok b := by
    intro b h
    by_cases h4 : b.length = 4
    · obtain ⟨s', h1, h2, _⟩ := C68_text_roundtrip text6 parse6 b h4
      rw [h] at h1; cases h1; exact h2
    · by_cases h16 : b.length = 16
      · obtain ⟨s', h1, _, h2, _⟩ := C225 b h16
        rw [h] at h1; cases h1; exact h2
      · simp [ipToString, h4, h16] at h
  have h1 := key b h
  rw [key b' h'] at h1
  exact (Res.ok.inj h1).symm

example : ipToString text6 [0x20, 1, 0xd, 0xb8, 0, 0, 0, 0, 0, 1, 0, 0, 0, 0, 0, 1] = .ok "2001:db8::1:0:0:1".toList := by decide +kernel
example : ipToString text6 [0, 0, 0, 0, 0, 0, 0, 0, 0, 0, 255, 255, 192, 0, 2, 1] = .ok "::ffff:192.0.2.1".toList := by decide +kernel
example : ipFromString parse6 "1:0::2:1.2.3.4".toList = .ok [0, 1, 0, 0, 0, 0, 0, 0, 0, 0, 0, 2, 1, 2, 3, 4] := by decide +kernel

end Verif.Net
