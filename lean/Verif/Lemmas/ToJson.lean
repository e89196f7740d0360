import Verif.Model.ToJson
import Verif.Spec.Json
import Verif.Lemmas.Cast

/-!
# Reading the texts of TO_JSON_STRING as JSON
-/

namespace Verif.ToJson

open Go Verif.Val JsonSpec
open Codec hiding chars

/-! ### Strings -/

/-- The characters strconv.Quote writes as JSON does. -/
def okChar (P : Print) (c : Char) : Bool :=
  P.is c || decide (c.toNat = 8 ∨ c.toNat = 9 ∨ c.toNat = 10 ∨ c.toNat = 12 ∨ c.toNat = 13) || decide (128 ≤ c.toNat ∧ c.toNat < 65536)

theorem toNat_ne {c d : Char} (h : c.toNat ≠ d.toNat) : c ≠ d := fun e => h (e ▸ rfl)

theorem toNat_inj {c : Char} {n : Nat} (h : c.toNat = n) : c = Char.ofNat n := by rw [← h, Char.ofNat_toNat]

theorem unit4_hex4 {n : Nat} (h : n < 65536) :
    unit4 (hexDigit (n / 4096 % 16)) (hexDigit (n / 256 % 16)) (hexDigit (n / 16 % 16)) (hexDigit (n % 16)) = some n := by
  unfold unit4
  rw [hexVal_digit _ (by omega), hexVal_digit _ (by omega), hexVal_digit _ (by omega), hexVal_digit _ (by omega)]
  simp only [Option.some.injEq]
  omega

theorem codePoint_char (c : Char) (s : List Char) : codePoint c.toNat s = (c, s) := by
  have hv : ¬ (0xD800 ≤ c.toNat ∧ c.toNat < 0xE000) := by
    have := c.valid
    rintro ⟨h1, h2⟩
    rcases this with h | h
    · have : c.toNat < 0xD800 := h
      omega
    · have := h.1
      have : 0xDFFF < c.toNat := this
      omega
  unfold codePoint
  rw [if_neg (by unfold isLow; simp; omega), if_neg (by unfold isHigh; simp; omega), Char.ofNat_toNat]

/-- One character of a quoted text. -/
theorem chars_step (P : Print) (c : Char) (n : Nat) (r : List Char) :
    chars (n + 1) (quoteChar P c ++ r) = if okChar P c then (chars n r).map fun y => (c :: y.1, y.2) else none := by
  have hq : P.is '"' = true := by rw [P.ascii _ (by decide)]; decide
  have hb : P.is '\\' = true := by rw [P.ascii _ (by decide)]; decide
  have esc : ∀ e x : Char, e ≠ 'u' → simpleEsc e = some x →
      chars (n + 1) (['\\', e] ++ r) = (chars n r).map fun y => (x :: y.1, y.2) := by
    intro e x h1 h2
    simp only [List.cons_append, List.nil_append, chars]
    rw [if_neg (by decide), if_neg (by decide)]
    simp only [if_true, escape, if_neg h1, h2, Option.map_some]
  have bad : ∀ (e : Char) (t : List Char), e ≠ 'u' → simpleEsc e = none → chars (n + 1) ('\\' :: e :: t) = none := by
    intro e t h1 h2
    simp only [chars]
    rw [if_neg (by decide), if_neg (by decide)]
    simp only [if_true, escape, if_neg h1, h2, Option.map_none]
  have hp : ∀ c : Char, P.is c = true → c.toNat < 128 → 32 ≤ c.toNat ∧ c.toNat < 127 := by
    intro c h1 h2
    rw [P.ascii c h2] at h1
    exact of_decide_eq_true h1
  have hn : ∀ c : Char, P.is c = false → c.toNat < 128 → ¬ (32 ≤ c.toNat ∧ c.toNat < 127) := by
    intro c h1 h2
    rw [P.ascii c h2] at h1
    exact of_decide_eq_false h1
  unfold quoteChar
  by_cases h1 : c = '"' ∨ c = '\\'
  · rw [if_pos h1]
    have ho : okChar P c = true := by
      rcases h1 with rfl | rfl
      · simp [okChar, hq]
      · simp [okChar, hb]
    rw [if_pos ho]
    exact esc c c (by rcases h1 with rfl | rfl <;> decide) (by rcases h1 with rfl | rfl <;> decide)
  · rw [if_neg h1]
    by_cases h2 : P.is c = true
    · rw [if_pos h2, if_pos (by simp [okChar, h2])]
      simp only [List.cons_append, List.nil_append, chars]
      rw [if_neg (fun h => h1 (.inl h)), if_neg (by intro h; have := hp c h2 (by omega); omega), if_neg (fun h => h1 (.inr h))]
    · rw [if_neg h2]
      have h2' : P.is c = false := by simpa using h2
      have hn' := hn c h2'
      by_cases e7 : c.toNat = 7
      · rw [if_pos e7, if_neg (by simp [okChar, h2', e7])]
        exact bad 'a' r (by decide) (by decide)
      rw [if_neg e7]
      by_cases e8 : c.toNat = 8
      · rw [if_pos e8, if_pos (by simp [okChar, e8]), toNat_inj e8]
        exact esc 'b' _ (by decide) (by decide)
      rw [if_neg e8]
      by_cases e12 : c.toNat = 12
      · rw [if_pos e12, if_pos (by simp [okChar, e12]), toNat_inj e12]
        exact esc 'f' _ (by decide) (by decide)
      rw [if_neg e12]
      by_cases e10 : c.toNat = 10
      · rw [if_pos e10, if_pos (by simp [okChar, e10]), toNat_inj e10]
        exact esc 'n' _ (by decide) (by decide)
      rw [if_neg e10]
      by_cases e13 : c.toNat = 13
      · rw [if_pos e13, if_pos (by simp [okChar, e13]), toNat_inj e13]
        exact esc 'r' _ (by decide) (by decide)
      rw [if_neg e13]
      by_cases e9 : c.toNat = 9
      · rw [if_pos e9, if_pos (by simp [okChar, e9]), toNat_inj e9]
        exact esc 't' _ (by decide) (by decide)
      rw [if_neg e9]
      by_cases e11 : c.toNat = 11
      · rw [if_pos e11, if_neg (by simp [okChar, h2', e11])]
        exact bad 'v' r (by decide) (by decide)
      rw [if_neg e11]
      by_cases hx : c.toNat < 32 ∨ c.toNat = 127
      · rw [if_pos hx, if_neg (by simp [okChar, h2', e8, e9, e10, e12, e13]; omega)]
        exact bad 'x' _ (by decide) (by decide)
      rw [if_neg hx]
      by_cases hu : c.toNat < 65536
      · rw [if_pos hu, if_pos (by
          have : 128 ≤ c.toNat := by
            by_cases h : c.toNat < 128
            · have := hn' h; omega
            · omega
          simp [okChar, hu, this])]
        simp only [List.cons_append, List.nil_append, Json.hex4, chars]
        rw [if_neg (by decide), if_neg (by decide)]
        simp only [if_true, escape, unit4_hex4 hu, Option.map_some, codePoint_char]
      · rw [if_neg hu, if_neg (by simp [okChar, h2', e8, e9, e10, e12, e13]; omega)]
        exact bad 'U' _ (by decide) (by decide)

theorem quoteChar_ne_nil (P : Print) (c : Char) : quoteChar P c ≠ [] := by
  unfold quoteChar
  repeat' split
  all_goals simp

/-- A quoted text is the JSON string of the same characters if JSON has the escapes used, and no JSON text otherwise. -/
theorem chars_quote (P : Print) (r : List Char) : ∀ (s : List Char) (n : Nat), (s.flatMap (quoteChar P)).length < n →
    chars n (s.flatMap (quoteChar P) ++ '"' :: r) = if s.all (okChar P) then some (s, r) else none
  | [], 0, h => by simp at h
  | [], n + 1, _ => by simp [chars]
  | c :: s, n, h => by
    have hl : 0 < (quoteChar P c).length := List.length_pos_iff.2 (quoteChar_ne_nil P c)
    rw [List.flatMap_cons, List.length_append] at h
    obtain ⟨n, rfl⟩ : ∃ m, n = m + 1 := ⟨n - 1, by omega⟩
    rw [List.flatMap_cons, List.append_assoc, chars_step, chars_quote P r s n (by omega), List.all_cons]
    cases okChar P c
    · simp
    · cases s.all (okChar P) <;> simp

/-! ### Numbers -/

/-- What follows a value in an array or object, or nothing. -/
def Stop (r : List Char) : Prop := ∀ c ∈ r.head?, c = ',' ∨ c = ']' ∨ c = '}'

theorem Stop.nil : Stop [] := by intro c h; cases h

theorem Stop.cons {c : Char} (h : c = ',' ∨ c = ']' ∨ c = '}') (r : List Char) : Stop (c :: r) := by
  intro d hd; cases hd; exact h

theorem isDig_eq : isDig = Cast.isDigit := rfl

theorem span_digits {ds r : List Char} (h : ∀ c ∈ ds, isDig c = true) (hr : ∀ c ∈ r.head?, isDig c = false) :
    (ds ++ r).takeWhile isDig = ds ∧ (ds ++ r).dropWhile isDig = r := by
  cases r with
  | nil => rw [List.append_nil]; exact ⟨takeWhile_all h, dropWhile_all h⟩
  | cons c r => exact takeWhile_stop h (hr c rfl)

theorem Stop.noDig {r : List Char} (h : Stop r) : ∀ c ∈ r.head?, isDig c = false := by
  intro c hc
  rcases h c hc with rfl | rfl | rfl <;> decide

theorem Stop.exp {r : List Char} (h : Stop r) : expPart r = some (1, r) := by
  cases r with
  | nil => rfl
  | cons c r =>
    rw [expPart, if_neg]
    rcases h c rfl with rfl | rfl | rfl <;> decide

theorem Stop.frac {r : List Char} (h : Stop r) : fracPart r = some ([], r) := by
  cases r with
  | nil => rfl
  | cons c r =>
    rw [fracPart, if_neg]
    rcases h c rfl with rfl | rfl | rfl <;> decide

/-- A number is read up to a comma or closing bracket. -/
theorem unsigned_text {d : Char} {ds Q r : List Char} (hD : ∀ c ∈ d :: ds, isDig c = true) (h0 : d = '0' → ds = [])
    (hQ : ∀ c ∈ Q, isDig c = true) (hr : Stop r) :
    unsigned ((d :: ds) ++ ((if Q = [] then [] else '.' :: Q) ++ r)) = some (mkRat (digVal ((d :: ds) ++ Q)) (10 ^ Q.length), r) := by
  have hz : ¬ (d = '0' ∧ ds ≠ []) := fun h => h.2 (h0 h.1)
  have one : ∀ x : Rat, x * 1 = x := fun x => by grind
  by_cases hn : Q = []
  · subst hn
    have hs := span_digits hD hr.noDig
    simp only [if_true, List.nil_append, List.append_nil, unsigned, intPart, hs, if_neg hz, hr.frac, hr.exp, one]
  · have hs := span_digits (ds := d :: ds) (r := '.' :: (Q ++ r)) hD (by intro c hc; cases hc; decide)
    have hs2 := span_digits hQ hr.noDig
    simp only [if_neg hn, List.cons_append] at hs ⊢
    simp only [unsigned, intPart, hs, if_neg hz, fracPart, if_true, hs2, if_neg hn, hr.exp, one, List.cons_append]

theorem decNat_noZero (n : Nat) : ∃ d ds, decNat n = d :: ds ∧ (d = '0' → ds = []) ∧ (d = '0' → n = 0) := by
  induction n using Nat.strongRecOn with
  | _ n ih =>
    rw [decNat_eq]
    have hd : ∀ k, k < 10 → digitChar k = '0' → k = 0 := by decide
    split
    · rename_i h
      exact ⟨_, [], rfl, fun _ => rfl, fun e => hd n h e⟩
    · obtain ⟨d, ds, h1, h2, h3⟩ := ih (n / 10) (by omega)
      rw [h1]
      refine ⟨d, _, rfl, fun e => ?_, fun e => ?_⟩
      · have := h3 e; omega
      · have := h3 e; omega

theorem digVal_eq : ∀ (s : List Char) (a n : Nat), digitsVal a s = some n → s.foldl (fun a c => a * 10 + (c.toNat - 48)) a = n
  | [], a, n, h => by simpa [digitsVal] using h
  | c :: s, a, n, h => by
    simp only [digitsVal, digitVal] at h
    split at h
    · rename_i d heq
      split at heq
      · cases heq; exact digVal_eq s _ n h
      · cases heq
    · cases h

theorem digVal_decNat (n : Nat) : digVal (decNat n) = n := digVal_eq _ _ _ (digitsVal_decNat n)

theorem isDig_decNat (n : Nat) : ∀ c ∈ decNat n, isDig c = true := fun c hc => decide_eq_true (decNat_digits n c hc)

theorem unsigned_decNat (n : Nat) {r : List Char} (hr : Stop r) : unsigned (decNat n ++ r) = some ((n : Rat), r) := by
  obtain ⟨d, ds, h1, h2, _⟩ := decNat_noZero n
  have hd := isDig_decNat n
  have hv := digVal_decNat n
  rw [h1] at hd hv ⊢
  have := unsigned_text (Q := []) hd h2 (by simp) hr
  simpa only [if_true, List.nil_append, List.append_nil, hv, List.length_nil, Nat.pow_zero, Rat.mkRat_one, Rat.intCast_natCast] using this

theorem number_unsigned {d : Char} {s r : List Char} {x : Rat} (hs : s.head? = some d) (hd : isDig d = true)
    (h : unsigned s = some (x, r)) (neg : Bool) :
    number ((if neg then ['-'] else []) ++ s) = some (if neg then -x else x, r) := by
  obtain ⟨s, rfl⟩ : ∃ s', s = d :: s' := by
    cases s with
    | nil => cases hs
    | cons e s => cases hs; exact ⟨s, rfl⟩
  cases neg with
  | true =>
    show number ('-' :: d :: s) = _
    rw [number, if_pos rfl, h]
    rfl
  | false =>
    show number (d :: s) = _
    rw [number, if_neg (by rintro rfl; revert hd; decide), h]
    rfl

theorem number_decInt (i : Int) {r : List Char} (hr : Stop r) : number (decInt i ++ r) = some ((i : Rat), r) := by
  have hu := unsigned_decNat i.natAbs hr
  obtain ⟨d, ds, h1, _, _⟩ := decNat_noZero i.natAbs
  have hd := isDig_decNat i.natAbs d (by rw [h1]; simp)
  have hn := number_unsigned (by rw [h1]; rfl) hd hu (decide (i < 0))
  simp only [decide_eq_true_eq] at hn
  have e : decInt i ++ r = (if i < 0 then ['-'] else []) ++ (decNat i.natAbs ++ r) := by
    unfold decInt
    split <;> rfl
  rw [e, hn]
  have e : ((i.natAbs : Nat) : Rat) = (((i.natAbs : Nat) : Int) : Rat) := (Rat.intCast_natCast _).symm
  rw [e]
  congr 2
  split
  · have : ((i.natAbs : Nat) : Int) = -i := by omega
    rw [this, Rat.intCast_neg]
    grind
  · have : ((i.natAbs : Nat) : Int) = i := by omega
    rw [this]

/-- The decimal the text of a NUMERIC or BIGNUMERIC value writes: the value rounded to 9 or 38 digits after the point. -/
def rounded (r : Rat) (big : Bool) : Rat :=
  mkRat (if r.num < 0 then -(Cast.units (Cast.places big) r : Int) else Cast.units (Cast.places big) r) (10 ^ Cast.places big)

theorem number_numText (x : Rat) (big : Bool) {r : List Char} (hr : Stop r) :
    number (Cast.numText x big ++ r) = some (rounded x big, r) := by
  have hdec := Cast.decimalDigits_text (Cast.places big) (Cast.units (Cast.places big) x)
  rw [Cast.numText_eq]
  unfold rounded
  have hQ : ∀ c ∈ trimRight (padDigits (Cast.places big) (Cast.units (Cast.places big) x % 10 ^ Cast.places big)) ['0'], isDig c = true := by
    intro c hc
    obtain ⟨j, hj⟩ := trimRight_zeros (padDigits (Cast.places big) (Cast.units (Cast.places big) x % 10 ^ Cast.places big))
    exact decide_eq_true (padDigits_digits (Cast.places big) (Cast.units (Cast.places big) x % 10 ^ Cast.places big) c (by rw [hj]; simp [hc]))
  generalize trimRight (padDigits (Cast.places big) (Cast.units (Cast.places big) x % 10 ^ Cast.places big)) ['0'] = Q at *
  generalize Cast.units (Cast.places big) x / 10 ^ Cast.places big = m at *
  obtain ⟨d, ds, h1, h2, _⟩ := decNat_noZero m
  have hD := isDig_decNat m
  rw [h1] at hD hdec ⊢
  have hu := unsigned_text hD h2 hQ hr
  have hval : mkRat (digVal ((d :: ds) ++ Q) : Int) (10 ^ Q.length) = mkRat (Cast.units (Cast.places big) x : Int) (10 ^ Cast.places big) := by
    have hex : ∃ v, digitsVal 0 ((d :: ds) ++ Q) = some v := by
      have : ∀ (s : List Char) (a : Nat), (∀ c ∈ s, isDig c = true) → ∃ v, digitsVal a s = some v := by
        intro s
        induction s with
        | nil => intro a _; exact ⟨a, rfl⟩
        | cons c s ih =>
          intro a h
          have hc := of_decide_eq_true (h c (by simp))
          obtain ⟨v, hv⟩ := ih (a * 10 + (c.toNat - 48)) fun e he => h e (by simp [he])
          exact ⟨v, by simp only [digitsVal, digitVal, if_pos hc, hv]⟩
      exact this _ 0 (by
        intro c hc
        rcases List.mem_append.1 hc with h | h
        · exact hD c h
        · exact hQ c h)
    obtain ⟨v, hv⟩ := hex
    have hdv : digVal ((d :: ds) ++ Q) = v := digVal_eq _ _ _ hv
    rw [hdv]
    have hD' : ∀ c ∈ d :: ds, Cast.isDigit c = true := hD
    have hQ' : ∀ c ∈ Q, Cast.isDigit c = true := hQ
    unfold Cast.decimalDigits at hdec
    by_cases hq : Q = []
    · subst hq
      rw [List.append_nil] at hv
      simp only [if_true, List.append_nil, takeWhile_all hD', dropWhile_all hD', parseNat, reduceCtorEq, if_false, hv, Option.map_some,
        Option.some.injEq] at hdec
      rw [← hdec]
      simp [Rat.mkRat_one, Rat.intCast_natCast]
    · have hs := takeWhile_stop (m := Q) (a := '.') hD' (by decide)
      have hall : Q.all Cast.isDigit = true := List.all_eq_true.2 hQ'
      have hne : (d :: ds) ++ Q ≠ [] := by simp
      simp only [if_neg hq, hs, hall, and_self, if_true, parseNat, if_neg hne, hv, Option.map_some, Option.some.injEq] at hdec
      exact hdec
  rw [hval] at hu
  have := number_unsigned rfl (hD d (by simp)) hu (decide (x.num < 0))
  simp only [List.append_assoc, decide_eq_true_eq] at this ⊢
  rw [this]
  congr 2
  split
  · rw [Rat.neg_mkRat]
  · rfl

/-! ### Times -/

/-- Digits followed by a dash or colon: a number is read at most up to there. -/
theorem number_then {ds : List Char} (hds : ds ≠ []) (hD : ∀ c ∈ ds, isDig c = true) (neg : Bool) {c : Char} (hc : c = '-' ∨ c = ':') (r : List Char) :
    number ((if neg then ['-'] else []) ++ (ds ++ c :: r)) = none ∨
      ∃ x, number ((if neg then ['-'] else []) ++ (ds ++ c :: r)) = some (x, c :: r) := by
  have hcd : isDig c = false := by rcases hc with rfl | rfl <;> decide
  have hs := takeWhile_stop (m := r) hD hcd
  obtain ⟨d, ds, rfl⟩ := List.exists_cons_of_ne_nil hds
  have hf : fracPart (c :: r) = some ([], c :: r) := by
    rw [fracPart, if_neg]
    rcases hc with rfl | rfl <;> decide
  have he : expPart (c :: r) = some (1, c :: r) := by
    rw [expPart, if_neg]
    rcases hc with rfl | rfl <;> decide
  have hu : unsigned ((d :: ds) ++ c :: r) = none ∨ ∃ x, unsigned ((d :: ds) ++ c :: r) = some (x, c :: r) := by
    by_cases hz : d = '0' ∧ ds ≠ []
    · left
      simp only [unsigned, intPart, hs.1, if_pos hz]
    · right
      exact ⟨_, by simp only [unsigned, intPart, hs, if_neg hz, hf, he]; rfl⟩
  have hd := hD d (by simp)
  rcases hu with hu | ⟨x, hu⟩
  · left
    cases neg with
    | true =>
      show number ('-' :: ((d :: ds) ++ c :: r)) = none
      rw [number, if_pos rfl, hu]
      rfl
    | false =>
      show number (d :: (ds ++ c :: r)) = none
      rw [number, if_neg (by rintro rfl; revert hd; decide)]
      exact hu
  · right
    exact ⟨_, number_unsigned rfl hd hu neg⟩

theorem pad_ne_nil (w n : Nat) (hw : 0 < w) : pad w n ≠ [] := by
  unfold pad
  split
  · intro h
    have := padDigits_length w n
    rw [h] at this
    simp at this
    omega
  · exact decNat_ne_nil n

theorem date_text (t : Int) (r : List Char) : ∃ (neg : Bool) (ds r' : List Char), dateText t ++ r = (if neg then ['-'] else []) ++ (ds ++ '-' :: r') ∧
    ds ≠ [] ∧ ∀ c ∈ ds, isDig c = true := by
  unfold dateText padInt
  simp only [List.append_assoc, List.cons_append]
  refine ⟨decide (yearOf (tDay t) < 0), pad 4 (yearOf (tDay t)).natAbs, pad 2 (monthOf (tDay t)).toNat ++ '-' :: (pad 2 (dayOf (tDay t)).toNat ++ r), ?_, pad_ne_nil _ _ (by omega), Cast.pad_digits _ _⟩
  · simp only [decide_eq_true_eq]
    split <;> rfl

theorem clock_text (t : Int) (r : List Char) : ∃ (neg : Bool) (ds r' : List Char), clockText 6 t ++ r = (if neg then ['-'] else []) ++ (ds ++ ':' :: r') ∧
    ds ≠ [] ∧ ∀ c ∈ ds, isDig c = true := by
  unfold clockText
  simp only [List.append_assoc, List.cons_append]
  exact ⟨false, pad 2 (tHour t).toNat, _, rfl, pad_ne_nil _ _ (by omega), Cast.pad_digits _ _⟩

/-- The text of a date or time starts with digits, a dash before them possibly, that a dash or colon ends. -/
theorem time_text {k : TimeKind} {t : Int} {s : List Char} (h : Cast.toStr (.time k t) = .ok s) (r : List Char) :
    ∃ (neg : Bool) (ds : List Char) (c : Char) (r' : List Char), s ++ r = (if neg then ['-'] else []) ++ (ds ++ c :: r') ∧ ds ≠ [] ∧ (∀ c ∈ ds, isDig c = true) ∧ (c = '-' ∨ c = ':') := by
  cases k with
  | date => cases h; obtain ⟨neg, ds, r', h⟩ := date_text t r; exact ⟨neg, ds, '-', r', h.1, h.2.1, h.2.2, .inl rfl⟩
  | datetime =>
    cases h
    obtain ⟨neg, ds, r', h⟩ := date_text t ('T' :: clockText 6 t ++ r)
    exact ⟨neg, ds, '-', r', by rw [← h.1]; simp [timeText], h.2.1, h.2.2, .inl rfl⟩
  | time => cases h; obtain ⟨neg, ds, r', h⟩ := clock_text t r; exact ⟨neg, ds, ':', r', h.1, h.2.1, h.2.2, .inr rfl⟩
  | timestamp =>
    cases h
    obtain ⟨neg, ds, r', h⟩ := date_text t ('T' :: (clockText 9 t ++ ['Z']) ++ r)
    exact ⟨neg, ds, '-', r', by rw [← h.1]; simp, h.2.1, h.2.2, .inl rfl⟩

/-! ### BYTES -/

theorem base64_ok (P : Print) : ∀ b : List UInt8, (Base64.encode b).all (okChar P) = true := by
  have hd : ∀ n, okChar P (Base64.digit n) = true := by
    intro n
    have hb : ∀ m, m < 26 → (Char.ofNat (65 + m)).toNat < 128 ∧ 32 ≤ (Char.ofNat (65 + m)).toNat ∧ (Char.ofNat (65 + m)).toNat < 127 := by decide
    have hl : ∀ m, m < 26 → (Char.ofNat (97 + m)).toNat < 128 ∧ 32 ≤ (Char.ofNat (97 + m)).toNat ∧ (Char.ofNat (97 + m)).toNat < 127 := by decide
    have hn : ∀ m, m < 10 → (Char.ofNat (48 + m)).toNat < 128 ∧ 32 ≤ (Char.ofNat (48 + m)).toNat ∧ (Char.ofNat (48 + m)).toNat < 127 := by decide
    have fin : ∀ c : Char, c.toNat < 128 ∧ 32 ≤ c.toNat ∧ c.toNat < 127 → okChar P c = true := by
      intro c h
      unfold okChar
      rw [P.ascii c h.1, decide_eq_true h.2]
      rfl
    unfold Base64.digit
    split
    · exact fin _ (hb _ (by omega))
    split
    · exact fin _ (hl _ (by omega))
    split
    · exact fin _ (hn _ (by omega))
    split
    · exact fin _ (by decide)
    · exact fin _ (by decide)
  have he : okChar P '=' = true := by unfold okChar; rw [P.ascii _ (by decide)]; rfl
  intro b
  fun_induction Base64.encode b with
  | case1 a b c rest n ih => simp only [List.all_cons, hd, ih, Bool.and_self]
  | case2 => simp [hd, he]
  | case3 => simp [hd, he]
  | case4 => rfl

end Verif.ToJson
