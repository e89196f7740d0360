/-!
# encoding/hex and encoding/base32

Part of the trusted model of Go.  `hex` is EncodeToString, `unhex` DecodeString (an odd
length or a character that is no hex digit is an error, `none`).  `Base32.encode` and
`Base32.decode` are those of base32.StdEncoding; the decoder drops \r and \n first.
-/

namespace Verif.Go

/-- The hex digit of a number below 16. -/
def hexDigit (n : Nat) : Char := if n < 10 then Char.ofNat (48 + n) else Char.ofNat (87 + n)

/-- The value of a hex digit of either case. -/
def hexVal (c : Char) : Option Nat :=
  let n := c.toNat
  if 48 ≤ n ∧ n ≤ 57 then some (n - 48)
  else if 97 ≤ n ∧ n ≤ 102 then some (n - 87)
  else if 65 ≤ n ∧ n ≤ 70 then some (n - 55) else none

/-- hex.EncodeToString -/
def hex : List UInt8 → List Char
  | [] => []
  | b :: s => hexDigit (b.toNat / 16) :: hexDigit (b.toNat % 16) :: hex s

/-- hex.DecodeString -/
def unhex : List Char → Option (List UInt8)
  | [] => some []
  | [_] => none
  | a :: b :: s => match hexVal a, hexVal b with
    | some x, some y => (unhex s).map (UInt8.ofNat (16 * x + y) :: ·)
    | _, _ => none

theorem hexVal_digit : ∀ n : Nat, n < 16 → hexVal (hexDigit n) = some n := by decide

theorem unhex_hex : ∀ b : List UInt8, unhex (hex b) = some b
  | [] => rfl
  | b :: s => by
    have hb := b.toNat_lt
    simp only [hex, unhex, hexVal_digit _ (show b.toNat / 16 < 16 by omega), hexVal_digit _ (show b.toNat % 16 < 16 by omega),
      unhex_hex s, Option.map_some, Option.some.injEq, List.cons.injEq, and_true]
    apply UInt8.toNat_inj.mp
    rw [UInt8.toNat_ofNat']
    omega

theorem hex_length : ∀ b : List UInt8, (hex b).length = 2 * b.length
  | [] => rfl
  | b :: s => by simp [hex, hex_length s]; omega

namespace Base32

/-- The standard alphabet. -/
def digit (n : Nat) : Char := if n < 26 then Char.ofNat (65 + n) else Char.ofNat (24 + n)

/-- Value of an alphabet character. -/
def val (c : Char) : Option Nat :=
  let n := c.toNat
  if 65 ≤ n ∧ n ≤ 90 then some (n - 65) else if 50 ≤ n ∧ n ≤ 55 then some (n - 24) else none

/-- The `k` high digits of a 40-bit group. -/
def digits (n : Nat) (k : Nat) : List Char :=
  ([n / 34359738368, n / 1073741824 % 32, n / 33554432 % 32, n / 1048576 % 32, n / 32768 % 32, n / 1024 % 32, n / 32 % 32,
    n % 32].map digit).take k ++ List.replicate (8 - k) '='

/-- The 40-bit group of up to five bytes. -/
def group (a b c d e : UInt8) : Nat :=
  a.toNat * 4294967296 + b.toNat * 16777216 + c.toNat * 65536 + d.toNat * 256 + e.toNat

/-- base32.StdEncoding.EncodeToString -/
def encode : List UInt8 → List Char
  | a :: b :: c :: d :: e :: rest => digits (group a b c d e) 8 ++ encode rest
  | [a, b, c, d] => digits (group a b c d 0) 7
  | [a, b, c] => digits (group a b c 0 0) 5
  | [a, b] => digits (group a b 0 0 0) 4
  | [a] => digits (group a 0 0 0 0) 2
  | [] => []

/-- The number of padding characters at the end of a group of eight. -/
def pads (g : List Char) : Nat := (g.reverse.takeWhile (· = '=')).length

/-- The values of the characters of a group before the padding. -/
def vals : List Char → Option (List Nat)
  | [] => some []
  | c :: s => match val c, vals s with
    | some v, some vs => some (v :: vs)
    | _, _ => none

/-- The 40-bit group of eight digits. -/
def ungroup (v : List Nat) : Nat :=
  v.getD 0 0 * 34359738368 + v.getD 1 0 * 1073741824 + v.getD 2 0 * 33554432 + v.getD 3 0 * 1048576 + v.getD 4 0 * 32768 +
    v.getD 5 0 * 1024 + v.getD 6 0 * 32 + v.getD 7 0

/-- The bytes of a group; absent digits are zero. -/
def bytesOf (v : List Nat) : List UInt8 :=
  let n := ungroup v
  [UInt8.ofNat (n / 4294967296), UInt8.ofNat (n / 16777216 % 256), UInt8.ofNat (n / 65536 % 256), UInt8.ofNat (n / 256 % 256),
    UInt8.ofNat (n % 256)]

/-- Decoding after newlines have been dropped: groups of eight; a padded group must be the last and be
padded by 1, 3, 4 or 6 characters. -/
def decodeClean : List Char → Option (List UInt8)
  | a :: b :: c :: d :: e :: f :: g :: h :: rest =>
    match vals ([a, b, c, d, e, f, g, h].take (8 - pads [a, b, c, d, e, f, g, h])) with
    | none => none
    | some v =>
      match pads [a, b, c, d, e, f, g, h] with
      | 0 => (decodeClean rest).map (bytesOf v ++ ·)
      | 1 => if rest = [] then some ((bytesOf v).take 4) else none
      | 3 => if rest = [] then some ((bytesOf v).take 3) else none
      | 4 => if rest = [] then some ((bytesOf v).take 2) else none
      | 6 => if rest = [] then some ((bytesOf v).take 1) else none
      | _ => none
  | [] => some []
  | _ => none

/-- base32.StdEncoding.DecodeString -/
def decode (s : List Char) : Option (List UInt8) := decodeClean (s.filter fun c => c ≠ '\n' ∧ c ≠ '\r')

theorem val_digit : ∀ n : Nat, n < 32 → val (digit n) = some n := by decide
theorem digit_ne_pad : ∀ n : Nat, n < 32 → (digit n = '=') = False := by decide
theorem digit_ne_nl : ∀ n : Nat, n < 32 → digit n ≠ '\n' ∧ digit n ≠ '\r' := by decide

theorem group_lt (a b c d e : UInt8) : group a b c d e < 1099511627776 := by
  have := a.toNat_lt; have := b.toNat_lt; have := c.toNat_lt; have := d.toNat_lt; have := e.toNat_lt
  unfold group; omega

theorem digits_mem {n k : Nat} (h : n < 1099511627776) {c : Char} (hc : c ∈ digits n k) : c ≠ '\n' ∧ c ≠ '\r' := by
  unfold digits at hc
  rcases List.mem_append.mp hc with hc | hc
  · have hc := List.mem_of_mem_take hc
    simp only [List.map_cons, List.map_nil, List.mem_cons, List.not_mem_nil, or_false] at hc
    rcases hc with rfl | rfl | rfl | rfl | rfl | rfl | rfl | rfl <;> exact digit_ne_nl _ (by omega)
  · obtain ⟨_, rfl⟩ := List.mem_replicate.mp hc
    decide

theorem encode_clean : ∀ (bs : List UInt8), (encode bs).filter (fun c => c ≠ '\n' ∧ c ≠ '\r') = encode bs := by
  intro bs
  rw [List.filter_eq_self]
  intro c hc
  simp only [decide_eq_true_eq]
  induction bs using encode.induct with
  | case1 a b d e f rest ih =>
    rw [encode] at hc
    rcases List.mem_append.mp hc with hc | hc
    · exact digits_mem (group_lt _ _ _ _ _) hc
    · exact ih hc
  | case2 => exact digits_mem (group_lt _ _ _ _ _) hc
  | case3 => exact digits_mem (group_lt _ _ _ _ _) hc
  | case4 => exact digits_mem (group_lt _ _ _ _ _) hc
  | case5 => exact digits_mem (group_lt _ _ _ _ _) hc
  | case6 => exact absurd hc List.not_mem_nil

theorem u8_eq {m : Nat} {x : UInt8} (h : m = x.toNat) : UInt8.ofNat m = x := by subst h; exact UInt8.ofNat_toNat

/-- The digits of a number below 2^40. -/
def dig8 (n : Nat) : List Nat :=
  [n / 34359738368, n / 1073741824 % 32, n / 33554432 % 32, n / 1048576 % 32, n / 32768 % 32, n / 1024 % 32, n / 32 % 32, n % 32]

theorem ungroup_dig8 (n : Nat) : ungroup (dig8 n) = n := by
  show n / 34359738368 * 34359738368 + n / 1073741824 % 32 * 1073741824 + n / 33554432 % 32 * 33554432 +
    n / 1048576 % 32 * 1048576 + n / 32768 % 32 * 32768 + n / 1024 % 32 * 1024 + n / 32 % 32 * 32 + n % 32 = n
  omega

/-- Dropping digits that are zero changes nothing. -/
theorem ungroup_take (n k : Nat) (h : ∀ i, k ≤ i → (dig8 n).getD i 0 = 0) : ungroup ((dig8 n).take k) = n := by
  have e : ∀ i, ((dig8 n).take k).getD i 0 = (dig8 n).getD i 0 := by
    intro i
    rw [List.getD_eq_getElem?_getD, List.getD_eq_getElem?_getD, List.getElem?_take]
    split
    · rfl
    · have := h i (by omega)
      rw [List.getD_eq_getElem?_getD] at this
      simpa using this.symm
  have : ungroup ((dig8 n).take k) = ungroup (dig8 n) := by unfold ungroup; simp only [e]
  rw [this, ungroup_dig8]

theorem group_bytes (a b c d e : UInt8) :
    UInt8.ofNat (group a b c d e / 4294967296) = a ∧ UInt8.ofNat (group a b c d e / 16777216 % 256) = b ∧
    UInt8.ofNat (group a b c d e / 65536 % 256) = c ∧ UInt8.ofNat (group a b c d e / 256 % 256) = d ∧
    UInt8.ofNat (group a b c d e % 256) = e := by
  have ha := a.toNat_lt; have hb := b.toNat_lt; have hc := c.toNat_lt; have hd := d.toNat_lt; have he := e.toNat_lt
  unfold group
  exact ⟨u8_eq (by omega), u8_eq (by omega), u8_eq (by omega), u8_eq (by omega), u8_eq (by omega)⟩

theorem bytesOf_take (a b c d e : UInt8) (k : Nat) (h : ∀ i, k ≤ i → (dig8 (group a b c d e)).getD i 0 = 0) :
    bytesOf ((dig8 (group a b c d e)).take k) = [a, b, c, d, e] := by
  have := group_bytes a b c d e
  simp only [bytesOf, ungroup_take _ _ h, this]

theorem vals_digits : ∀ {v : List Nat}, (∀ x ∈ v, x < 32) → vals (v.map digit) = some v
  | [], _ => rfl
  | x :: v, h => by
    simp only [List.map_cons, vals, val_digit x (h x List.mem_cons_self),
      vals_digits fun y hy => h y (List.mem_cons_of_mem _ hy)]

theorem dig8_lt {n : Nat} (h : n < 1099511627776) : ∀ x ∈ dig8 n, x < 32 := by
  intro x hx
  simp only [dig8, List.mem_cons, List.not_mem_nil, or_false] at hx
  omega

theorem pads_eq {l : List Char} (h : ∀ c ∈ l, c ≠ '=') (m : Nat) : pads (l ++ List.replicate m '=') = m := by
  unfold pads
  rw [List.reverse_append, List.reverse_replicate, List.takeWhile_append_of_pos (by
    intro a ha; obtain ⟨_, rfl⟩ := List.mem_replicate.mp ha; rfl)]
  have : l.reverse.takeWhile (· = '=') = [] := by
    cases hl : l.reverse with
    | nil => rfl
    | cons c r =>
      have hc : c ∈ l := by rw [← List.mem_reverse, hl]; exact List.mem_cons_self
      simp [List.takeWhile_cons, h c hc]
  rw [this]; simp

/-- One step of the decoder on a group. -/
theorem decode_group {g : List Char} (hg : g.length = 8) (rest : List Char) :
    decodeClean (g ++ rest) = match vals (g.take (8 - pads g)) with
      | none => none
      | some v =>
        match pads g with
        | 0 => (decodeClean rest).map (bytesOf v ++ ·)
        | 1 => if rest = [] then some ((bytesOf v).take 4) else none
        | 3 => if rest = [] then some ((bytesOf v).take 3) else none
        | 4 => if rest = [] then some ((bytesOf v).take 2) else none
        | 6 => if rest = [] then some ((bytesOf v).take 1) else none
        | _ => none := by
  match g, hg with
  | [a, b, c, d, e, f, x, h], _ => rfl

theorem digits_eq (n k : Nat) : digits n k = ((dig8 n).take k).map digit ++ List.replicate (8 - k) '=' := by
  unfold digits dig8; rw [List.map_take]

theorem digits_facts {n k : Nat} (hn : n < 1099511627776) (hk : k ≤ 8) :
    (digits n k).length = 8 ∧ pads (digits n k) = 8 - k ∧
      vals ((digits n k).take (8 - pads (digits n k))) = some ((dig8 n).take k) := by
  have hp : pads (digits n k) = 8 - k := by
    rw [digits_eq]
    apply pads_eq
    intro c hc
    obtain ⟨x, hx, rfl⟩ := List.mem_map.mp hc
    have := digit_ne_pad x (dig8_lt hn x (List.mem_of_mem_take hx))
    rw [Ne, this]
    exact fun h => h
  have hl : (((dig8 n).take k).map digit).length = k := by simp [dig8]; omega
  refine ⟨?_, hp, ?_⟩
  · rw [digits_eq, List.length_append, hl]; simp; omega
  · rw [hp, show 8 - (8 - k) = k by omega, digits_eq, List.take_append_of_le_length (by omega), List.take_of_length_le (by omega)]
    exact vals_digits fun x hx => dig8_lt hn x (List.mem_of_mem_take hx)

theorem dig8_zero {n k : Nat} (h : ∀ i, k ≤ i → i < 8 → (dig8 n).getD i 0 = 0) : ∀ i, k ≤ i → (dig8 n).getD i 0 = 0 := by
  intro i hi
  by_cases h8 : i < 8
  · exact h i hi h8
  · rw [List.getD_eq_getElem?_getD, List.getElem?_eq_none (by simp [dig8]; omega)]; rfl

theorem dig8_get (n : Nat) : (dig8 n).getD 2 0 = n / 33554432 % 32 ∧ (dig8 n).getD 3 0 = n / 1048576 % 32 ∧
    (dig8 n).getD 4 0 = n / 32768 % 32 ∧ (dig8 n).getD 5 0 = n / 1024 % 32 ∧ (dig8 n).getD 6 0 = n / 32 % 32 ∧
    (dig8 n).getD 7 0 = n % 32 := ⟨rfl, rfl, rfl, rfl, rfl, rfl⟩

theorem last_group (a b c d e : UInt8) (k m : Nat) (hk : k ≤ 8)
    (hz : ∀ i, k ≤ i → i < 8 → (dig8 (group a b c d e)).getD i 0 = 0)
    (hm : (k, m) ∈ [(7, 4), (5, 3), (4, 2), (2, 1)]) :
    decodeClean (digits (group a b c d e) k) = some ([a, b, c, d, e].take m) := by
  obtain ⟨h1, h2, h3⟩ := digits_facts (group_lt a b c d e) hk
  have := decode_group h1 []
  rw [List.append_nil, h3, h2] at this
  rw [this]
  simp only [List.mem_cons, Prod.mk.injEq, List.not_mem_nil, or_false] at hm
  rcases hm with ⟨rfl, rfl⟩ | ⟨rfl, rfl⟩ | ⟨rfl, rfl⟩ | ⟨rfl, rfl⟩ <;>
    simp only [bytesOf_take _ _ _ _ _ _ (dig8_zero hz)] <;> rfl

theorem decodeClean_encode (bs : List UInt8) : decodeClean (encode bs) = some bs := by
  have z0 : (0 : UInt8).toNat = 0 := rfl
  induction bs using encode.induct with
  | case1 a b c d e rest ih =>
    obtain ⟨h1, h2, h3⟩ := digits_facts (group_lt a b c d e) (Nat.le_refl 8)
    rw [encode, decode_group h1, h3, h2, ih]
    simp only [Nat.sub_self, Option.map_some]
    rw [bytesOf_take _ _ _ _ _ _ (dig8_zero fun i h h' => by omega)]
    rfl
  | case2 a b c d =>
    rw [encode, last_group a b c d 0 7 4 (by omega) _ (by simp)]; rfl
    intro i h h'
    have g := dig8_get (group a b c d 0)
    obtain rfl : i = 7 := by omega
    rw [g.2.2.2.2.2]; unfold group; rw [z0]; omega
  | case3 a b c =>
    rw [encode, last_group a b c 0 0 5 3 (by omega) _ (by simp)]; rfl
    intro i h h'
    have g := dig8_get (group a b c 0 0)
    have hi : i = 5 ∨ i = 6 ∨ i = 7 := by omega
    rcases hi with rfl | rfl | rfl
    · rw [g.2.2.2.1]; unfold group; rw [z0]; omega
    · rw [g.2.2.2.2.1]; unfold group; rw [z0]; omega
    · rw [g.2.2.2.2.2]; unfold group; rw [z0]; omega
  | case4 a b =>
    rw [encode, last_group a b 0 0 0 4 2 (by omega) _ (by simp)]; rfl
    intro i h h'
    have g := dig8_get (group a b 0 0 0)
    have hi : i = 4 ∨ i = 5 ∨ i = 6 ∨ i = 7 := by omega
    rcases hi with rfl | rfl | rfl | rfl
    · rw [g.2.2.1]; unfold group; rw [z0]; omega
    · rw [g.2.2.2.1]; unfold group; rw [z0]; omega
    · rw [g.2.2.2.2.1]; unfold group; rw [z0]; omega
    · rw [g.2.2.2.2.2]; unfold group; rw [z0]; omega
  | case5 a =>
    rw [encode, last_group a 0 0 0 0 2 1 (by omega) _ (by simp)]; rfl
    intro i h h'
    have g := dig8_get (group a 0 0 0 0)
    have hi : i = 2 ∨ i = 3 ∨ i = 4 ∨ i = 5 ∨ i = 6 ∨ i = 7 := by omega
    rcases hi with rfl | rfl | rfl | rfl | rfl | rfl
    · rw [g.1]; unfold group; rw [z0]; omega
    · rw [g.2.1]; unfold group; rw [z0]; omega
    · rw [g.2.2.1]; unfold group; rw [z0]; omega
    · rw [g.2.2.2.1]; unfold group; rw [z0]; omega
    · rw [g.2.2.2.2.1]; unfold group; rw [z0]; omega
    · rw [g.2.2.2.2.2]; unfold group; rw [z0]; omega
  | case6 => rfl

theorem decode_encode (bs : List UInt8) : decode (encode bs) = some bs := by
  unfold decode; rw [encode_clean, decodeClean_encode]

end Base32

end Verif.Go
