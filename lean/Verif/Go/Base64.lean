/-!
# encoding/base64 (StdEncoding)

`encode` is `base64.StdEncoding.EncodeToString`, `decode` is `DecodeString`.
Go's decoder skips `\r` and `\n` anywhere, does not reject non-zero trailing
padding bits (the encoding is not `Strict`) and fails on anything else.
-/

namespace Verif.Go.Base64

/-- The standard alphabet. -/
def digit (n : Nat) : Char :=
  if n < 26 then Char.ofNat (65 + n)
  else if n < 52 then Char.ofNat (97 + (n - 26))
  else if n < 62 then Char.ofNat (48 + (n - 52))
  else if n = 62 then '+' else '/'

/-- Value of an alphabet character. -/
def val (c : Char) : Option Nat :=
  let n := c.toNat
  if 65 ≤ n ∧ n ≤ 90 then some (n - 65)
  else if 97 ≤ n ∧ n ≤ 122 then some (n - 97 + 26)
  else if 48 ≤ n ∧ n ≤ 57 then some (n - 48 + 52)
  else if c = '+' then some 62 else if c = '/' then some 63 else none

/-- `base64.StdEncoding.EncodeToString`. -/
def encode : List UInt8 → List Char
  | a :: b :: c :: rest =>
    let n := a.toNat * 65536 + b.toNat * 256 + c.toNat
    digit (n / 262144) :: digit (n / 4096 % 64) :: digit (n / 64 % 64) :: digit (n % 64) :: encode rest
  | [a, b] =>
    let n := a.toNat * 65536 + b.toNat * 256
    [digit (n / 262144), digit (n / 4096 % 64), digit (n / 64 % 64), '=']
  | [a] =>
    let n := a.toNat * 65536
    [digit (n / 262144), digit (n / 4096 % 64), '=', '=']
  | [] => []

/-- Decoding after newlines have been dropped. -/
def decodeClean : List Char → Option (List UInt8)
  | a :: b :: c :: d :: rest =>
    if c = '=' then
      if d = '=' ∧ rest = [] then do
        let a ← val a; let b ← val b
        some [UInt8.ofNat ((a * 262144 + b * 4096) / 65536)]
      else none
    else if d = '=' then
      if rest = [] then do
        let a ← val a; let b ← val b; let c ← val c
        let n := a * 262144 + b * 4096 + c * 64
        some [UInt8.ofNat (n / 65536), UInt8.ofNat (n / 256 % 256)]
      else none
    else do
      let a ← val a; let b ← val b; let c ← val c; let d ← val d
      let n := a * 262144 + b * 4096 + c * 64 + d
      let r ← decodeClean rest
      some (UInt8.ofNat (n / 65536) :: UInt8.ofNat (n / 256 % 256) :: UInt8.ofNat (n % 256) :: r)
  | [] => some []
  | _ => none

/-- `base64.StdEncoding.DecodeString`. -/
def decode (s : List Char) : Option (List UInt8) :=
  decodeClean (s.filter fun c => c ≠ '\n' ∧ c ≠ '\r')

theorem val_digit : ∀ n : Nat, n < 64 → val (digit n) = some n := by decide
theorem digit_ne_pad : ∀ n : Nat, n < 64 → digit n ≠ '=' := by decide
theorem digit_ne_nl : ∀ n : Nat, n < 64 → digit n ≠ '\n' ∧ digit n ≠ '\r' := by decide

/-- Only alphabet characters and padding occur. -/
theorem mem_encode : ∀ (bs : List UInt8), ∀ c ∈ encode bs, c = '=' ∨ ∃ n, n < 64 ∧ c = digit n
  | a :: b :: c :: rest => by
    intro x hx
    have h1 := a.toNat_lt; have h2 := b.toNat_lt; have h3 := c.toNat_lt
    simp only [encode, List.mem_cons] at hx
    rcases hx with h | h | h | h | h
    · exact .inr ⟨_, by omega, h⟩
    · exact .inr ⟨_, by omega, h⟩
    · exact .inr ⟨_, by omega, h⟩
    · exact .inr ⟨_, by omega, h⟩
    · exact mem_encode rest x h
  | [a, b] => by
    intro x hx
    have h1 := a.toNat_lt; have h2 := b.toNat_lt
    simp only [encode, List.mem_cons, List.not_mem_nil, or_false] at hx
    rcases hx with h | h | h | h
    · exact .inr ⟨_, by omega, h⟩
    · exact .inr ⟨_, by omega, h⟩
    · exact .inr ⟨_, by omega, h⟩
    · exact .inl h
  | [a] => by
    intro x hx
    have h1 := a.toNat_lt
    simp only [encode, List.mem_cons, List.not_mem_nil, or_false] at hx
    rcases hx with h | h | h | h
    · exact .inr ⟨_, by omega, h⟩
    · exact .inr ⟨_, by omega, h⟩
    · exact .inl h
    · exact .inl h
  | [] => by simp [encode]

theorem encode_clean (bs : List UInt8) :
    (encode bs).filter (fun c => c ≠ '\n' ∧ c ≠ '\r') = encode bs := by
  rw [List.filter_eq_self]
  intro c hc
  rcases mem_encode bs c hc with h | ⟨n, hn, h⟩
  · subst h; decide
  · subst h; simpa using digit_ne_nl n hn

private theorem u8 {n : Nat} {a : UInt8} (h : n = a.toNat) : UInt8.ofNat n = a := by
  subst h; simp

theorem decodeClean_encode : ∀ (bs : List UInt8), decodeClean (encode bs) = some bs
  | a :: b :: c :: rest => by
    have h1 := a.toNat_lt; have h2 := b.toNat_lt; have h3 := c.toNat_lt
    have ih := decodeClean_encode rest
    simp only [encode, decodeClean]
    rw [if_neg (digit_ne_pad _ (by omega)), if_neg (digit_ne_pad _ (by omega)),
      val_digit _ (by omega), val_digit _ (by omega), val_digit _ (by omega), val_digit _ (by omega)]
    simp only [Option.bind_eq_bind, Option.bind_some, ih]
    rw [u8 (a := a) (by omega), u8 (a := b) (by omega), u8 (a := c) (by omega)]
  | [a, b] => by
    have h1 := a.toNat_lt; have h2 := b.toNat_lt
    simp only [encode, decodeClean]
    rw [if_neg (digit_ne_pad _ (by omega)), val_digit _ (by omega), val_digit _ (by omega), val_digit _ (by omega)]
    simp only [Option.bind_eq_bind, Option.bind_some, if_pos]
    rw [u8 (a := a) (by omega), u8 (a := b) (by omega)]
  | [a] => by
    have h1 := a.toNat_lt
    simp only [encode, decodeClean]
    rw [val_digit _ (by omega), val_digit _ (by omega)]
    simp only [Option.bind_eq_bind, Option.bind_some, if_pos, and_self]
    rw [u8 (a := a) (by omega)]
  | [] => rfl

/-- Decoding what was encoded gives the bytes back. -/
theorem decode_encode (bs : List UInt8) : decode (encode bs) = some bs := by
  rw [decode, encode_clean, decodeClean_encode]

theorem encode_injective {a b : List UInt8} (h : encode a = encode b) : a = b := by
  have := decode_encode a
  rw [h, decode_encode] at this
  exact (Option.some.inj this).symm

end Verif.Go.Base64
