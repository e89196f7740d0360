import Verif.Model.Net

/-! # C68: IP address functions -/

namespace Verif.Net

open Go

/-- Bit `i` of an address, counted from the first bit of the first byte. -/
def bitAt (b : List UInt8) (i : Nat) : Bool := (b.getD (i / 8) 0).toNat.testBit (7 - i % 8)

theorem bitAt_cons (x : UInt8) (xs : List UInt8) (i : Nat) :
    bitAt (x :: xs) i = if i < 8 then x.toNat.testBit (7 - i) else bitAt xs (i - 8) := by
  unfold bitAt
  split
  · rename_i h
    have h0 : i / 8 = 0 := by omega
    have h1 : i % 8 = i := by omega
    rw [h0, h1]; rfl
  · rename_i h
    have h0 : i / 8 = (i - 8) / 8 + 1 := by omega
    have h1 : i % 8 = (i - 8) % 8 := by omega
    rw [h0, h1]; rfl

/-- An address is determined by its length and its bits. -/
theorem bits_ext : ∀ (a b : List UInt8), a.length = b.length → (∀ i, i < 8 * a.length → bitAt a i = bitAt b i) → a = b
  | [], [], _, _ => rfl
  | x :: xs, y :: ys, hl, h => by
    have hxy : x = y := by
      apply UInt8.toNat_inj.mp
      apply Nat.eq_of_testBit_eq
      intro j
      by_cases hj : j < 8
      · have := h (7 - j) (by simp; omega)
        rw [bitAt_cons, bitAt_cons, if_pos (by omega), if_pos (by omega), show 7 - (7 - j) = j by omega] at this
        exact this
      · have hx := x.toNat_lt; have hy := y.toNat_lt
        have : 2 ^ 8 ≤ 2 ^ j := Nat.pow_le_pow_right (by omega) (by omega)
        rw [Nat.testBit_lt_two_pow (by omega), Nat.testBit_lt_two_pow (by omega)]
    have hrest : xs = ys := by
      apply bits_ext
      · simpa using hl
      · intro i hi
        have := h (i + 8) (by simp; omega)
        rw [bitAt_cons, bitAt_cons, if_neg (by omega), if_neg (by omega), show i + 8 - 8 = i by omega] at this
        exact this
    rw [hxy, hrest]

private theorem maskByte_bits : ∀ n : Nat, n < 8 → ∀ j : Nat, j < 8 → (maskByte n).toNat.testBit (7 - j) = decide (j < n) := by decide

private theorem ff_bits : ∀ j : Nat, j < 8 → (255 : UInt8).toNat.testBit (7 - j) = true := by decide

theorem maskLoop_spec : ∀ (l : Nat) (n : Int), 0 ≤ n → n ≤ 8 * l →
    (maskLoop l n).length = l ∧ ∀ i : Nat, i < 8 * l → bitAt (maskLoop l n) i = decide ((i : Int) < n)
  | 0, n, _, _ => ⟨rfl, by intro i hi; omega⟩
  | l + 1, n, h0, hn => by
    rw [maskLoop]
    split
    · rename_i h8
      obtain ⟨hlen, hb⟩ := maskLoop_spec l (n - 8) (by omega) (by omega)
      refine ⟨by simp [hlen], ?_⟩
      intro i hi
      rw [bitAt_cons]
      split
      · rw [ff_bits i (by omega)]; symm; apply decide_eq_true; omega
      · rw [hb _ (by omega)]; congr 1; apply propext; omega
    · rename_i h8
      obtain ⟨hlen, hb⟩ := maskLoop_spec l 0 (by omega) (by omega)
      refine ⟨by simp [hlen], ?_⟩
      intro i hi
      rw [bitAt_cons]
      split
      · have := maskByte_bits n.toNat (by omega) i (by omega)
        rw [show ((n.toNat : Nat) : Int) = n by omega] at this
        rw [this]; congr 1; apply propext; omega
      · rw [hb _ (by omega)]; congr 1; apply propext; omega

theorem bitAt_and : ∀ (a b : List UInt8), a.length = b.length → ∀ i, bitAt (ipMask a b) i = (bitAt a i && bitAt b i)
  | [], [], _, i => by simp [ipMask, bitAt]
  | x :: xs, y :: ys, hl, i => by
    have ih := bitAt_and xs ys (by simpa using hl) (i - 8)
    show bitAt ((x &&& y) :: ipMask xs ys) i = _
    rw [bitAt_cons, bitAt_cons, bitAt_cons]
    split
    · rw [UInt8.toNat_and, Nat.testBit_and]
    · exact ih

theorem cidrMask_spec {l : Nat} (hl : l = 4 ∨ l = 16) {k : Int} (h0 : 0 ≤ k) (hk : k ≤ 8 * l) :
    ∃ m, cidrMask k ((l : Int) * 8) = some m ∧ m.length = l ∧ ∀ i : Nat, i < 8 * l → bitAt m i = decide ((i : Int) < k) := by
  refine ⟨maskLoop l k, ?_, maskLoop_spec l k h0 hk⟩
  unfold cidrMask
  have h1 : ¬ ((l : Int) * 8 ≠ 32 ∧ (l : Int) * 8 ≠ 128) := by omega
  have h2 : ¬ (k < 0 ∨ k > (l : Int) * 8) := by omega
  rw [if_neg h1, if_neg h2]
  congr 2; omega

/-- **C68** NET.IP_NET_MASK succeeds exactly for 4 or 16 bytes and a prefix of at most that many bits; the result
then has exactly the first `k` bits set. -/
theorem C68_net_mask (n k : Int) :
    (((n = 4 ∨ n = 16) ∧ 0 ≤ k ∧ k ≤ 8 * n) →
      ∃ m, ipNetMask n k = .ok m ∧ (m.length : Int) = n ∧ ∀ i : Nat, (i : Int) < 8 * n → bitAt m i = decide ((i : Int) < k)) ∧
    (¬ ((n = 4 ∨ n = 16) ∧ 0 ≤ k ∧ k ≤ 8 * n) → ipNetMask n k = .err) := by
  constructor
  · rintro ⟨hn, h0, hk⟩
    obtain ⟨l, rfl, hl⟩ : ∃ l : Nat, n = l ∧ (l = 4 ∨ l = 16) := by
      rcases hn with h | h
      · exact ⟨4, by simpa using h, .inl rfl⟩
      · exact ⟨16, by simpa using h, .inr rfl⟩
    obtain ⟨m, hm, hlen, hb⟩ := cidrMask_spec hl h0 hk
    have hw : wrap64 ((l : Int) * 8) = (l : Int) * 8 := wrap64_eq (by unfold InI64; omega)
    refine ⟨m, ?_, by omega, ?_⟩
    · unfold ipNetMask
      rw [hw, if_neg (by omega), if_neg (by omega), hm]; rfl
    · intro i hi; exact hb i (by omega)
  · intro h
    unfold ipNetMask
    by_cases hn : n = 4 ∨ n = 16
    · have hw : wrap64 (n * 8) = n * 8 := wrap64_eq (by unfold InI64; omega)
      rw [hw, if_neg (by omega), if_pos (by omega)]
    · rw [if_pos (by omega)]

/-- **C68** NET.IP_TRUNC keeps the first `k` bits and clears the rest; it fails exactly on other lengths and on
prefixes that are negative or too long. -/
theorem C68_trunc (v : List UInt8) (k : Int) :
    (((v.length = 4 ∨ v.length = 16) ∧ 0 ≤ k ∧ k ≤ 8 * v.length) →
      ∃ r, ipTrunc v k = .ok r ∧ r.length = v.length ∧
        ∀ i, i < 8 * v.length → bitAt r i = (decide ((i : Int) < k) && bitAt v i)) ∧
    (¬ ((v.length = 4 ∨ v.length = 16) ∧ 0 ≤ k ∧ k ≤ 8 * v.length) → ipTrunc v k = .err) := by
  constructor
  · rintro ⟨hl, h0, hk⟩
    obtain ⟨m, hm, hlen, hb⟩ := cidrMask_spec hl h0 hk
    refine ⟨ipMask v m, ?_, by simp [ipMask, hlen], ?_⟩
    · unfold ipTrunc
      rw [if_neg (by omega), if_neg (by omega), hm]; rfl
    · intro i hi
      rw [bitAt_and v m hlen.symm, hb i hi, Bool.and_comm]
  · intro h
    unfold ipTrunc
    by_cases hl : v.length = 4 ∨ v.length = 16
    · rw [if_neg (by omega), if_pos (by omega)]
    · rw [if_pos (by omega)]

/-- **C68** Truncating a truncated address changes nothing. -/
theorem C68_trunc_idempotent {v r : List UInt8} {k : Int} (h : ipTrunc v k = .ok r) : ipTrunc r k = .ok r := by
  by_cases hc : (v.length = 4 ∨ v.length = 16) ∧ 0 ≤ k ∧ k ≤ 8 * v.length
  · obtain ⟨r', h1, hl, hb⟩ := (C68_trunc v k).1 hc
    rw [h] at h1; cases h1
    obtain ⟨r2, h2, hl2, hb2⟩ := (C68_trunc r k).1 (by omega)
    rw [h2]; congr 1
    apply bits_ext r2 r hl2
    intro i hi
    rw [hb2 i (by omega), hb i (by omega)]
    cases decide ((i : Int) < k) <;> simp
  · rw [(C68_trunc v k).2 hc] at h; cases h

/-- **C68** Truncating to the mask of the same prefix: an address and its truncation agree exactly when all bits
after the prefix are zero. -/
theorem C68_trunc_fixed (v : List UInt8) (k : Int) (hl : v.length = 4 ∨ v.length = 16) (h0 : 0 ≤ k) (hk : k ≤ 8 * v.length) :
    ipTrunc v k = .ok v ↔ ∀ i : Nat, k ≤ i → i < 8 * v.length → bitAt v i = false := by
  obtain ⟨r, h1, hlen, hb⟩ := (C68_trunc v k).1 ⟨hl, h0, hk⟩
  constructor
  · intro h i hik hi
    rw [h] at h1; cases h1
    rw [hb i hi, decide_eq_false (by omega)]; rfl
  · intro h
    rw [h1]; congr 1
    apply bits_ext r v hlen
    intro i hi
    rw [hb i (by omega)]
    by_cases hik : (i : Int) < k
    · simp [hik]
    · rw [h i (by omega) (by omega)]; simp

/-- **C68** IPv4 address to integer and back, and integer to address and back. -/
theorem C68_ipv4_roundtrip :
    (∀ b : List UInt8, b.length = 4 → ∃ v, ipv4ToInt64 b = .ok v ∧ 0 ≤ v ∧ v < 4294967296 ∧ ipv4FromInt64 v = b) ∧
    (∀ v : Int, 0 ≤ v → v < 4294967296 → ipv4ToInt64 (ipv4FromInt64 v) = .ok v) ∧
    (∀ b : List UInt8, b.length ≠ 4 → ipv4ToInt64 b = .err) := by
  refine ⟨?_, ?_, ?_⟩
  · intro b hb
    match b, hb with
    | [a, b, c, d], _ =>
      have ha := a.toNat_lt; have hb := b.toNat_lt; have hc := c.toNat_lt; have hd := d.toNat_lt
      refine ⟨_, rfl, by omega, by omega, ?_⟩
      simp only [ipv4FromInt64]
      refine List.cons_eq_cons.mpr ⟨?_, List.cons_eq_cons.mpr ⟨?_, List.cons_eq_cons.mpr ⟨?_, List.cons_eq_cons.mpr ⟨?_, rfl⟩⟩⟩⟩
      all_goals (apply UInt8.toNat_inj.mp; rw [UInt8.toNat_ofNat']; omega)
  · intro v h0 h1
    simp only [ipv4FromInt64, ipv4ToInt64, UInt8.toNat_ofNat']
    congr 1; omega
  · intro b hb
    match b, hb with
    | [], _ => rfl
    | [_], _ => rfl
    | [_, _], _ => rfl
    | [_, _, _], _ => rfl
    | [_, _, _, _], h => exact absurd rfl h
    | _ :: _ :: _ :: _ :: _ :: _, _ => rfl

/-- An integer outside 32 bits is not rejected: it gives the address of its low 32 bits. -/
theorem ipv4_wraps (v : Int) : ipv4ToInt64 (ipv4FromInt64 v) = .ok (v % 4294967296) := by
  simp only [ipv4FromInt64, ipv4ToInt64, UInt8.toNat_ofNat']
  congr 1; omega

/-! ### Text -/

/-- Digits of a number at most 255 are read one after another. -/
private theorem parse_digits : ∀ (ds : List Char) (val n : Nat) (rest : List Char) (acc : List UInt8) (w : Nat),
    digitsVal val ds = some w → w ≤ 255 → (n = 1 → val = 0 → ds = []) → (n = 0 → val = 0) →
    (n = 0 → ∀ c cs, ds = c :: cs → digitVal c = some 0 → cs = []) →
    parseLoop (ds ++ rest) val n acc = parseLoop rest w (n + ds.length) acc
  | [], val, n, rest, acc, w, h, _, _, _, _ => by
    simp only [digitsVal, Option.some.injEq] at h; subst h; rfl
  | c :: cs, val, n, rest, acc, w, h, hw, h1, h0, hz => by
    cases hd : digitVal c with
    | none => simp [digitsVal, hd] at h
    | some d =>
      simp only [digitsVal, hd] at h
      have hmono : ∀ (s : List Char) (v w : Nat), digitsVal v s = some w → v ≤ w := by
        intro s
        induction s with
        | nil => intro v w h; simp [digitsVal] at h; omega
        | cons c s ih =>
          intro v w h
          simp only [digitsVal] at h
          split at h
          · have := ih _ _ h; omega
          · cases h
      have hle := hmono cs _ _ h
      have hnz : ¬ (n = 1 ∧ val = 0) := fun ⟨a, b⟩ => by have := h1 a b; cases this
      simp only [List.cons_append, parseLoop, hd, if_neg hnz, if_neg (show ¬ val * 10 + d > 255 by omega)]
      rw [parse_digits cs (val * 10 + d) (n + 1) rest acc w h hw ?_ (by omega) (by omega)]
      · simp only [List.length_cons]; congr 1; omega
      · intro hn hv
        have hn0 : n = 0 := by omega
        have hd0 : d = 0 := by omega
        exact hz hn0 c cs rfl (hd0 ▸ hd)

/-- Only the number 0 has a text that begins with 0. -/
private theorem decNat_zero_head : ∀ n : Nat, n < 256 → ∀ c cs, decNat n = c :: cs → digitVal c = some 0 → cs = [] := by
  have h : ∀ n : Nat, n < 256 → ∀ c ∈ (decNat n).head?, digitVal c = some 0 → (decNat n).tail = [] := by decide +kernel
  intro n hn c cs hc h0
  have := h n hn c (by rw [hc]; rfl) h0
  rw [hc] at this; exact this

private theorem parse_field (x : UInt8) (rest : List Char) (acc : List UInt8) :
    ∃ n, n ≠ 0 ∧ parseLoop (decNat x.toNat ++ rest) 0 0 acc = parseLoop rest x.toNat n acc := by
  have hx := x.toNat_lt
  refine ⟨0 + (decNat x.toNat).length, ?_, ?_⟩
  · have := decNat_ne_nil x.toNat
    have := List.length_pos_iff.mpr this
    omega
  · exact parse_digits _ 0 0 rest acc _ (digitsVal_decNat _) (by omega) (by omega) (fun _ => rfl)
      (fun _ => decNat_zero_head _ (by omega))

private theorem parse_dot (val n : Nat) (rest : List Char) (acc : List UInt8) (hn : n ≠ 0) (ha : acc.length ≠ 3) :
    parseLoop ('.' :: rest) val n acc = parseLoop rest 0 0 (acc ++ [UInt8.ofNat val]) := by
  have hd : digitVal '.' = none := by decide
  simp only [parseLoop, hd, if_pos, if_neg (show ¬ (n = 0 ∨ acc.length = 3) by omega)]

private theorem find_sep : ∀ (ds rest : List Char), (∀ c ∈ ds, 48 ≤ c.toNat ∧ c.toNat ≤ 57) →
    (ds ++ '.' :: rest).find? (fun c => decide (c = '.' ∨ c = ':' ∨ c = '%')) = some '.'
  | [], _, _ => rfl
  | c :: cs, rest, h => by
    have hc := h c (by simp)
    have hn : ¬ (c = '.' ∨ c = ':' ∨ c = '%') := by
      rintro (e | e | e) <;> subst e <;> revert hc <;> decide
    rw [List.cons_append, List.find?_cons_of_neg (by simpa using hn)]
    exact find_sep cs rest fun c hc => h c (by simp [hc])

/-- **C68** The text of an IPv4 address reads back as the address; the SAFE form agrees. -/
theorem C68_text_roundtrip (t6 : List UInt8 → List Char) (v6 : List Char → Option (List UInt8)) (b : List UInt8) (hb : b.length = 4) :
    ∃ s, ipToString t6 b = .ok s ∧ ipFromString v6 s = .ok b ∧ safeIpFromString v6 s = .ok (some b) := by
  refine ⟨ipv4Text b, by simp [ipToString, hb], ?_⟩
  suffices h : parseAddr v6 (ipv4Text b) = some b by simp [ipFromString, safeIpFromString, h]
  match b, hb with
  | [w, x, y, z], _ =>
    have hu : ∀ x : UInt8, UInt8.ofNat x.toNat = x := by intro x; simp
    have hp : parseLoop (ipv4Text [w, x, y, z]) 0 0 [] = some [w, x, y, z] := by
      simp only [ipv4Text]
      obtain ⟨n1, h1, e1⟩ := parse_field w ('.' :: (decNat x.toNat ++ '.' :: (decNat y.toNat ++ '.' :: decNat z.toNat))) []
      rw [e1, parse_dot _ _ _ _ h1 (by simp), hu]
      obtain ⟨n2, h2, e2⟩ := parse_field x ('.' :: (decNat y.toNat ++ '.' :: decNat z.toNat)) ([] ++ [w])
      rw [e2, parse_dot _ _ _ _ h2 (by simp), hu]
      obtain ⟨n3, h3, e3⟩ := parse_field y ('.' :: decNat z.toNat) ([] ++ [w] ++ [x])
      rw [e3, parse_dot _ _ _ _ h3 (by simp), hu]
      obtain ⟨n4, h4, e4⟩ := parse_field z [] ([] ++ [w] ++ [x] ++ [y])
      rw [List.append_nil] at e4
      rw [e4]
      simp [parseLoop, h4]
    unfold parseAddr
    rw [show ipv4Text [w, x, y, z] = decNat w.toNat ++ '.' :: ipv4Text [x, y, z] from rfl,
      find_sep _ _ (decNat_digits _)]
    simp only [if_pos]
    exact hp

/-- Finished fields, each followed by a dot. -/
private def dotted (acc : List UInt8) : List Char := acc.flatMap fun x => decNat x.toNat ++ ['.']

private theorem dotted_text : ∀ (acc : List UInt8) (z : UInt8), dotted acc ++ decNat z.toNat = ipv4Text (acc ++ [z])
  | [], _ => by simp [dotted, ipv4Text]
  | a :: acc, z => by
    have ih := dotted_text acc z
    cases acc with
    | nil => simp [dotted, ipv4Text]
    | cons b acc =>
      simp only [dotted, List.flatMap_cons, List.append_assoc] at ih ⊢
      rw [ih]; simp [ipv4Text]

private theorem digitVal_char {c : Char} {d : Nat} (h : digitVal c = some d) : c = digitChar d ∧ d < 10 := by
  unfold digitVal at h
  split at h
  · rename_i hc
    cases h
    refine ⟨?_, by omega⟩
    apply Char.ext; apply UInt32.toNat_inj.mp
    show c.toNat = (digitChar (c.toNat - 48)).toNat
    rw [digitChar_toNat (by omega)]; omega
  · cases h

private theorem parse_canonical : ∀ (s : List Char) (val n : Nat) (acc b : List UInt8), val ≤ 255 → (n = 0 → val = 0) → (1 < n → val ≠ 0) →
    parseLoop s val n acc = some b →
    b.length = 4 ∧ dotted acc ++ ((if n = 0 then [] else decNat val) ++ s) = ipv4Text b
  | [], val, n, acc, b, hv, h0, hp, h => by
    simp only [parseLoop] at h
    split at h
    · cases h
    · rename_i hc
      cases h
      refine ⟨by simp; omega, ?_⟩
      rw [if_neg (by omega), List.append_nil, ← dotted_text]
      rw [UInt8.toNat_ofNat', Nat.mod_eq_of_lt (by omega)]
  | c :: s, val, n, acc, b, hv, h0, hp, h => by
    simp only [parseLoop] at h
    cases hd : digitVal c with
    | some d =>
      rw [hd] at h
      simp only at h
      split at h
      · cases h
      · rename_i h1
        split at h
        · cases h
        · rename_i h2
          obtain ⟨hb, ht⟩ := parse_canonical s _ _ acc b (by omega) (by omega) (by omega) h
          refine ⟨hb, ?_⟩
          rw [← ht, if_neg (by omega : ¬ n + 1 = 0)]
          obtain ⟨hc, hd10⟩ := digitVal_char hd
          congr 1
          by_cases hn : n = 0
          · rw [if_pos hn, h0 hn, decNat_eq, if_pos (by omega)]
            simp [hc]
          · have hval : val ≠ 0 ∨ 1 < n := by omega
            rw [if_neg hn]
            have hz : val ≠ 0 := by
              intro hz
              rcases hval with hv | hv
              · exact hv hz
              · exact hp hv hz
            rw [decNat_eq (val * 10 + d), if_neg (by omega), show (val * 10 + d) / 10 = val by omega,
              show (val * 10 + d) % 10 = d by omega, hc]
            simp
    | none =>
      rw [hd] at h
      simp only at h
      split at h
      · rename_i hdot
        split at h
        · cases h
        · rename_i hn
          obtain ⟨hb, ht⟩ := parse_canonical s _ _ _ b (by omega) (fun _ => rfl) (by omega) h
          refine ⟨hb, ?_⟩
          rw [← ht, if_pos rfl, if_neg (by omega), hdot]
          simp [dotted, UInt8.toNat_ofNat', Nat.mod_eq_of_lt (by omega : val < 256)]
      · cases h

/-- **C68** Only the text that NET.IP_TO_STRING writes is read as an IPv4 address. -/
theorem C68_text_canonical (t6 : List UInt8 → List Char) (s : List Char) (b : List UInt8)
    (h : ipFromString (fun _ => none) s = .ok b) : b.length = 4 ∧ ipToString t6 b = .ok s := by
  unfold ipFromString parseAddr at h
  cases hf : s.find? fun c => decide (c = '.' ∨ c = ':' ∨ c = '%') with
  | none => rw [hf] at h; cases h
  | some c =>
    rw [hf] at h
    simp only at h
    split at h
    · rename_i b' hb
      cases h
      split at hb
      · obtain ⟨h1, h2⟩ := parse_canonical s 0 0 [] b (by omega) (fun _ => rfl) (by omega) hb
        refine ⟨h1, ?_⟩
        unfold ipToString
        rw [if_pos h1, ← h2]; simp [dotted]
      · split at hb <;> cases hb
    · cases h

/-- The fields of an IPv4 address are read exactly from its text. -/
theorem ipv4_parse (s : List Char) (b : List UInt8) : parseLoop s 0 0 [] = some b ↔ b.length = 4 ∧ s = ipv4Text b := by
  constructor
  · intro h
    obtain ⟨h1, h2⟩ := parse_canonical s 0 0 [] b (by omega) (fun _ => rfl) (by omega) h
    exact ⟨h1, by simpa [dotted] using h2⟩
  · rintro ⟨hb, rfl⟩
    obtain ⟨s, h1, h2, _⟩ := C68_text_roundtrip (fun _ => []) (fun _ => none) b hb
    simp only [ipToString, hb, if_true, Res.ok.injEq] at h1
    subst h1
    have h3 : parseAddr (fun _ => none) (ipv4Text b) = some b := by
      unfold ipFromString at h2
      split at h2
      · rename_i e; cases h2; exact e
      · cases h2
    unfold parseAddr at h3
    split at h3
    · split at h3
      · exact h3
      · split at h3 <;> cases h3
    · cases h3

/-- **C68** NET.SAFE_IP_FROM_STRING is NULL exactly where NET.IP_FROM_STRING fails and agrees with it elsewhere. -/
theorem C68_safe_from_string (v6 : List Char → Option (List UInt8)) (s : List Char) :
    (ipFromString v6 s = .err ↔ safeIpFromString v6 s = .ok none) ∧
    (∀ b, ipFromString v6 s = .ok b ↔ safeIpFromString v6 s = .ok (some b)) := by
  unfold ipFromString safeIpFromString
  cases parseAddr v6 s <;> simp

example : ipTrunc [192, 168, 77, 255] 20 = .ok [192, 168, 64, 0] ∧ ipNetMask 4 20 = .ok [255, 255, 240, 0] := by decide
example : ipv4ToInt64 [192, 0, 2, 1] = .ok 3221225985 := by decide
example : ipFromString (fun _ => none) "192.0.2.1".toList = .ok [192, 0, 2, 1] ∧ ipFromString (fun _ => none) "192.0.2.01".toList = .err ∧
    ipFromString (fun _ => none) "192.0.2.256".toList = .err := by decide

end Verif.Net
