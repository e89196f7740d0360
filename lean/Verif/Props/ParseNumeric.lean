import Verif.Model.ParseNumeric
import Verif.Props.Cast

/-! # C226: PARSE_NUMERIC and PARSE_BIGNUMERIC; C105 again -/

namespace Verif.ParseNumeric
open Verif.Go Verif.Go.RatScan Verif.Cast Verif.Val
open Verif.Codec (takeWhile_all dropWhile_all takeWhile_stop)

/-! ### Specification -/

/-- An exponent, possibly none, and its value. -/
def Exponent (t : List Char) (x : Int) : Prop :=
  (t = [] ∧ x = 0) ∨ ∃ e sg σ ds, (e = 'e' ∨ e = 'E') ∧ Sign sg σ ∧ ds ≠ [] ∧ (∀ c ∈ ds, Digit c) ∧ t = e :: (sg ++ ds) ∧ x = σ * value 10 ds

/-- A decimal literal: sign, digits with at most one point, exponent.  It denotes `n · 10^(x - f)`: `n` all its digits, `x` the exponent,
`f` the number of digits after the point. -/
def Literal (s : List Char) (n x : Int) (f : Nat) : Prop :=
  ∃ sg σ a b t, Sign sg σ ∧ a ++ b ≠ [] ∧ (∀ c ∈ a ++ b, Digit c) ∧ Exponent t x ∧
    ((b = [] ∧ s = sg ++ (a ++ t)) ∨ s = sg ++ (a ++ '.' :: (b ++ t))) ∧ n = σ * value 10 (a ++ b) ∧ f = b.length

/-- `n · 10^k`. -/
def scaled (n k : Int) : Rat := mkRat (n * 10 ^ k.toNat) (10 ^ (-k).toNat)

/-- Texts without the characters of Go's other notations: fractions, underscores, other bases, binary exponents. -/
def Plain (s : List Char) : Prop := ∀ c ∈ s, c ∉ ['/', '_', 'b', 'B', 'o', 'O', 'x', 'X', 'p', 'P']

/-- The numbers of NUMERIC: at most 9 digits after the point and 29 before it. -/
def IsNumeric (q : Rat) : Prop := ∃ n : Int, q = mkRat n (10 ^ 9) ∧ n.natAbs < 10 ^ 38

/-- C226 at full strength: PARSE_NUMERIC of a decimal literal that denotes a NUMERIC is that number, every other text is an error, NULL gives no
panic. -/
def C226_full : Prop :=
  (∀ s q, parseNumeric false (some s) = .ok (q, false) ↔ ∃ n x f, Literal s n x f ∧ q = scaled n (x - f) ∧ IsNumeric q) ∧
  parseNumeric false none ≠ .panic

/-! ### The scanner -/

theorem value_foldl (ds : List Char) (h : ∀ c ∈ ds, Digit c) (v : Nat) :
    ds.foldl (fun a c => a * 10 + digitOf c) v
      = ds.foldl (fun a c => a * 10 + (if c.toNat ≤ 57 then c.toNat - 48 else if c.toNat ≤ 70 then c.toNat - 55 else c.toNat - 87)) v := by
  induction ds generalizing v with
  | nil => rfl
  | cons d ds ih =>
    obtain ⟨h1, h2⟩ := h d List.mem_cons_self
    have e : digitOf d = d.toNat - 48 := by unfold digitOf; simp [h1, h2]
    simp only [List.foldl_cons, e, if_pos h2]
    exact ih (fun c hc => h c (List.mem_cons_of_mem _ hc)) _

theorem digit_lt {c : Char} (h : Digit c) : digitOf c < 10 ∧ c ≠ '.' ∧ c ≠ '_' := by
  obtain ⟨h1, h2⟩ := h
  refine ⟨by unfold digitOf; simp only [h1, h2, and_self, if_true]; omega, ?_, ?_⟩
  · rintro rfl; revert h1; decide
  · rintro rfl; revert h2; decide

theorem digitOf_lt {c : Char} : digitOf c < 10 ↔ Digit c := by
  constructor
  · intro h
    unfold digitOf at h
    simp only at h
    split at h
    · rename_i h1; exact h1
    · split at h
      · omega
      · split at h <;> omega
  · intro h; exact (digit_lt h).1

theorem scan_digits (frac : Bool) (ds t : List Char) (h : ∀ c ∈ ds, Digit c) (m : Mant) :
    scanDigits 10 frac m (ds ++ t)
      = scanDigits 10 frac { m with val := ds.foldl (fun a c => a * 10 + digitOf c) m.val, count := m.count + ds.length, prev := if ds = [] then m.prev else .digit } t := by
  induction ds generalizing m with
  | nil => rfl
  | cons d ds ih =>
    obtain ⟨h1, h2, h3⟩ := digit_lt (h d List.mem_cons_self)
    rw [List.cons_append, scanDigits, if_neg (by simp [h2]), if_neg h3, if_pos h1, ih (fun c hc => h c (List.mem_cons_of_mem _ hc))]
    simp only [List.foldl_cons, List.length_cons, reduceCtorEq, if_false, ite_self]
    congr 2
    omega

/-- The text does not go on with a digit or an underscore. -/
def Stops (t : List Char) : Prop := ∀ c r, t = c :: r → ¬ Digit c ∧ c ≠ '_'

theorem scan_stop (frac : Bool) (t : List Char) (h : Stops t) (hp : ∀ r, t = '.' :: r → frac = false) (m : Mant) : scanDigits 10 frac m t = (m, t) := by
  cases t with
  | nil => rfl
  | cons c r =>
    obtain ⟨h1, h2⟩ := h c r rfl
    have h3 : ¬ (c = '.' ∧ frac = true) := by
      rintro ⟨rfl, h'⟩
      rw [hp r rfl] at h'
      cases h'
    rw [scanDigits, if_neg h3, if_neg h2, if_neg (fun hh => h1 (digitOf_lt.1 hh))]

theorem natScan_plain (s : List Char) (h : Plain s) : natScan true s = finish 10 false (scanDigits 10 true ⟨0, 0, none, .dot, false⟩ s) := by
  cases s with
  | nil => rfl
  | cons c r =>
    unfold natScan
    simp only
    split
    · rename_i hc
      subst hc
      have e : scanDigits 10 true ⟨0, 0, none, .dot, false⟩ ('0' :: r) = scanDigits 10 true ⟨0, 1, none, .digit, false⟩ r := by
        rw [scanDigits]
        have : digitOf '0' = 0 := by decide
        simp [this]
      rw [e]
      cases r with
      | nil => rfl
      | cons d r' =>
        have := h d (by simp)
        simp only [List.mem_cons, not_or] at this
        simp [this]
    · rfl

theorem value_append2 (a b : List Char) (ha : ∀ c ∈ a ++ b, Digit c) :
    b.foldl (fun a c => a * 10 + digitOf c) (a.foldl (fun a c => a * 10 + digitOf c) 0) = value 10 (a ++ b) := by
  rw [← List.foldl_append, value_foldl (a ++ b) ha]
  rfl

/-- Mantissa with a point. -/
theorem natScan_point (a b t : List Char) (h : ∀ c ∈ a ++ b, Digit c) (ht : Stops t) (hp : Plain (a ++ '.' :: (b ++ t))) :
    natScan true (a ++ '.' :: (b ++ t)) = ⟨value 10 (a ++ b), 10, -(b.length : Int), decide (a ++ b = []), t⟩ := by
  rw [natScan_plain _ hp, scan_digits true a _ (fun c hc => h c (by simp [hc])), scanDigits, if_pos ⟨rfl, rfl⟩,
    scan_digits false b _ (fun c hc => h c (by simp [hc])), scan_stop false t ht (fun _ _ => rfl)]
  have hv := value_append2 a b h
  simp only [finish, hv]
  have h1 : ¬ (if a = [] then Prev.dot else Prev.digit) = Prev.sep := by split <;> simp
  have h2 : ¬ (if b = [] then Prev.dot else Prev.digit) = Prev.sep := by split <;> simp
  simp only [h1, h2, decide_false, Bool.or_false, Bool.false_or, Bool.false_eq_true, and_false, if_false, Scanned.mk.injEq, true_and, and_true]
  refine ⟨by omega, ?_⟩
  rw [decide_eq_decide]
  cases a <;> cases b <;> simp

/-- Mantissa without a point. -/
theorem natScan_int (a t : List Char) (h : ∀ c ∈ a, Digit c) (ht : Stops t) (hd : ∀ r, t ≠ '.' :: r) (hp : Plain (a ++ t)) :
    natScan true (a ++ t) = ⟨value 10 a, 10, a.length, decide (a = []), t⟩ := by
  rw [natScan_plain _ hp, scan_digits true a _ h, scan_stop true t ht (fun r e => absurd e (hd r))]
  have hv := value_append2 a [] (by simpa using h)
  rw [List.append_nil] at hv
  simp only [List.foldl_nil] at hv
  simp only [finish, hv]
  have h1 : ¬ (if a = [] then Prev.dot else Prev.digit) = Prev.sep := by split <;> simp
  simp only [h1, decide_false, Bool.or_false, Bool.false_or, Bool.false_eq_true, and_false, if_false, Scanned.mk.injEq, true_and, and_true]
  refine ⟨by omega, ?_⟩
  rw [decide_eq_decide]
  cases a <;> simp

theorem exp_digits (ds t : List Char) (h : ∀ c ∈ ds, Digit c) (ht : Stops t) (n : Nat) (hd : Bool) (p : Prev) (b : Bool) :
    expDigits n hd p b (ds ++ t)
      = ((ds.foldl (fun a c => a * 10 + digitOf c) n, hd || !ds.isEmpty, if ds = [] then p else .digit, b), t) := by
  induction ds generalizing n hd p with
  | nil =>
    cases t with
    | nil => simp [expDigits]
    | cons c r =>
      obtain ⟨h1, h2⟩ := ht c r rfl
      simp only [List.nil_append, expDigits, List.foldl_nil, List.isEmpty_nil, Bool.not_true, Bool.or_false, if_true]
      rw [if_neg (show ¬ (48 ≤ c.toNat ∧ c.toNat ≤ 57) from h1), if_neg h2]
  | cons d ds ih =>
    have h1 := h d List.mem_cons_self
    have e : digitOf d = d.toNat - 48 := by unfold digitOf; simp [h1.1, h1.2]
    rw [List.cons_append, expDigits, if_pos (show 48 ≤ d.toNat ∧ d.toNat ≤ 57 from h1), ih (fun c hc => h c (List.mem_cons_of_mem _ hc))]
    simp only [List.foldl_cons, e, List.isEmpty_cons, Bool.not_false, Bool.or_true, Bool.true_or, reduceCtorEq, if_false, ite_self]

theorem value_single (ds : List Char) (h : ∀ c ∈ ds, Digit c) : ds.foldl (fun a c => a * 10 + digitOf c) 0 = value 10 ds := by
  have := value_append2 ds [] (by simpa using h)
  simpa using this

theorem scanSign_of (sg : List Char) (σ : Int) (h : Sign sg σ) (s : List Char) (hs : ∀ c r, s = c :: r → c ≠ '-' ∧ c ≠ '+') :
    scanSign (sg ++ s) = (decide (σ = -1), s) := by
  rcases h with ⟨rfl, rfl⟩ | ⟨rfl, rfl⟩ | ⟨rfl, rfl⟩
  · cases s with
    | nil => rfl
    | cons c r =>
      obtain ⟨h1, h2⟩ := hs c r rfl
      simp [scanSign, h1, h2]
  · rfl
  · rfl

/-- Every text is a sign and the rest. -/
theorem scanSign_split (s : List Char) : ∃ sg σ, Sign sg σ ∧ s = sg ++ (scanSign s).2 ∧ (scanSign s).1 = decide (σ = -1) := by
  cases s with
  | nil => exact ⟨[], 1, .inl ⟨rfl, rfl⟩, rfl, rfl⟩
  | cons c r =>
    simp only [scanSign]
    split
    · rename_i h; subst h; exact ⟨['-'], -1, .inr (.inr ⟨rfl, rfl⟩), rfl, rfl⟩
    · split
      · rename_i h; subst h; exact ⟨['+'], 1, .inr (.inl ⟨rfl, rfl⟩), rfl, rfl⟩
      · exact ⟨[], 1, .inl ⟨rfl, rfl⟩, rfl, rfl⟩

/-- Every text is its leading digits and the rest. -/
theorem digits_split (s : List Char) : ∃ a t, s = a ++ t ∧ (∀ c ∈ a, Digit c) ∧ ∀ c r, t = c :: r → ¬ Digit c := by
  refine ⟨s.takeWhile isDigit, s.dropWhile isDigit, (List.takeWhile_append_dropWhile).symm, ?_, ?_⟩
  · intro c hc
    exact (isDigit_digit c).1 (List.all_eq_true.1 (List.all_takeWhile (p := isDigit) (l := s)) c hc)
  · intro c r h hd
    have := List.head?_dropWhile_not isDigit s
    rw [h] at this
    simp only [List.head?_cons] at this
    rw [(isDigit_digit c).2 hd] at this
    cases this

theorem plain_stops {t : List Char} (h : Plain t) (hd : ∀ c r, t = c :: r → ¬ Digit c) : Stops t := by
  intro c r e
  refine ⟨hd c r e, ?_⟩
  have := h c (by rw [e]; simp)
  simp only [List.mem_cons, not_or] at this
  exact this.2.1

theorem plain_sub {s t : List Char} (h : Plain s) (hs : ∀ c ∈ t, c ∈ s) : Plain t := fun c hc => h c (hs c hc)

theorem sign_mul (σ : Int) (sg : List Char) (h : Sign sg σ) (n : Nat) : (if decide (σ = -1) = true then -(n : Int) else n) = σ * n := by
  rcases h with ⟨_, rfl⟩ | ⟨_, rfl⟩ | ⟨_, rfl⟩ <;> simp

/-- The exponent of a plain text: what is accepted. -/
theorem scanExponent_iff (t : List Char) (h : Plain t) (x : Int) (eb : Nat) :
    scanExponent t = some (x, eb, []) ↔ Exponent t x ∧ InI64 x ∧ eb = 10 := by
  constructor
  · intro he
    cases t with
    | nil =>
      simp only [scanExponent, Option.some.injEq, Prod.mk.injEq] at he
      obtain ⟨rfl, rfl, _⟩ := he
      exact ⟨.inl ⟨rfl, rfl⟩, by decide, rfl⟩
    | cons c s =>
      have hc := h c (by simp)
      simp only [List.mem_cons, not_or] at hc
      rw [scanExponent.eq_def] at he
      dsimp only at he
      by_cases hce : c = 'e' ∨ c = 'E'
      · rw [if_pos (by rcases hce with h | h <;> simp [h])] at he
        obtain ⟨sg, σ, h1, h2, h3⟩ := scanSign_split s
        obtain ⟨ds, r, h4, h5, h6⟩ := digits_split (scanSign s).2
        have hst : Stops r := plain_stops (plain_sub h (fun c hc => by rw [h2, h4]; simp [hc])) h6
        rw [h4] at h2
        rw [h3, h4, exp_digits ds r h5 hst, value_single ds h5] at he
        simp only at he
        rw [sign_mul σ sg h1, if_pos hce] at he
        have hsep : (if ds = [] then Prev.dot else Prev.digit) ≠ Prev.sep := by split <;> decide
        simp only [hsep, Bool.false_eq_true, or_false] at he
        split at he
        · cases he
        · rename_i hn
          simp only [not_or] at hn
          simp only [Option.some.injEq, Prod.mk.injEq] at he
          obtain ⟨hx, heb, hr⟩ := he
          subst hr
          refine ⟨.inr ⟨c, sg, σ, ds, hce, h1, ?_, h5, by rw [h2, List.append_nil], hx.symm⟩, ?_, heb.symm⟩
          · intro e
            rw [e] at hn
            simp at hn
          · rw [← hx]
            exact Decidable.not_not.1 hn.2
      · rw [if_neg (by
          rintro (h | h | h | h)
          · exact hce (.inl h)
          · exact hce (.inr h)
          · exact hc.2.2.2.2.2.2.2.2.1 h
          · exact hc.2.2.2.2.2.2.2.2.2.1 h)] at he
        simp at he
  · rintro ⟨hx, hi, rfl⟩
    rcases hx with ⟨rfl, rfl⟩ | ⟨e, sg, σ, ds, he, hsg, hne, hds, rfl, rfl⟩
    · rfl
    · rw [scanExponent.eq_def]
      dsimp only
      rw [if_pos (by rcases he with h | h <;> simp [h])]
      have hh : ∀ c r, ds = c :: r → c ≠ '-' ∧ c ≠ '+' := by
        intro c r e
        have := hds c (by rw [e]; simp)
        constructor <;> rintro rfl <;> revert this <;> unfold Digit <;> decide
      have hsd := exp_digits ds [] hds (by intro c r h; cases h) 0 false .dot false
      rw [List.append_nil] at hsd
      rw [scanSign_of sg σ hsg ds hh]
      simp only
      rw [hsd, value_single ds hds]
      simp only [sign_mul σ sg hsg, hne, if_false]
      rw [if_neg (by
        simp only [hi, not_true, Bool.false_or, Bool.false_eq_true, reduceCtorEq, or_false, Bool.not_eq_eq_eq_not, Bool.not_false]
        cases ds with
        | nil => exact absurd rfl hne
        | cons _ _ => simp)]
      rw [if_pos he]

theorem pow_ten (k : Nat) : 5 ^ k * 2 ^ k = 10 ^ k := by rw [← Nat.mul_pow]

theorem scale_eq (neg : Bool) (m : Nat) (k : Int) :
    scale neg m k k = if k.natAbs ≤ 1000000 then (scaled (if neg then -(m : Int) else m) k, true) else ((m : Rat), false) := by
  unfold scale
  by_cases h : k.natAbs ≤ 1000000
  · rw [if_neg (by omega), if_pos h]
    dsimp only
    rw [if_neg (by omega)]
    congr 1
    unfold scaled
    rcases Int.lt_trichotomy k 0 with hk | hk | hk
    · have e1 : ¬ k > 0 := by omega
      have e2 : k.toNat = 0 := by omega
      have e3 : (-k).toNat = k.natAbs := by omega
      simp only [e1, hk, if_false, if_true, e2, e3, Int.pow_zero, Int.mul_one, pow_ten]
    · subst hk
      simp
    · have e1 : ¬ k < 0 := by omega
      have e2 : (-k).toNat = 0 := by omega
      have e3 : k.toNat = k.natAbs := by omega
      have e4 : ((m * 5 ^ k.natAbs * 2 ^ k.natAbs : Nat) : Int) = (m : Int) * 10 ^ k.natAbs := by
        rw [Nat.mul_assoc, pow_ten]; simp
      simp only [e1, show k > 0 from hk, if_false, if_true, e2, e3, Nat.pow_zero, e4]
      cases neg
      · simp
      · simp [Int.neg_mul]
  · rw [if_pos (by omega), if_neg h]

/-- Every plain text is digits, perhaps a point and digits, and a rest; nat.scan finds these. -/
theorem mantissa (t : List Char) (h : Plain t) : ∃ a b r fc,
    (∀ c ∈ a ++ b, Digit c) ∧ ((b = [] ∧ t = a ++ r ∧ ∀ r', r ≠ '.' :: r') ∨ t = a ++ '.' :: (b ++ r)) ∧ (∀ c r', r = c :: r' → ¬ Digit c) ∧
    natScan true t = ⟨value 10 (a ++ b), 10, fc, decide (a ++ b = []), r⟩ ∧ (if fc < 0 then fc else 0) = -(b.length : Int) := by
  obtain ⟨a, r, e, ha, hr⟩ := digits_split t
  by_cases hp : ∃ r', r = '.' :: r'
  · obtain ⟨r', rfl⟩ := hp
    obtain ⟨b, r2, e2, hb, hr2⟩ := digits_split r'
    subst e2
    have hd : ∀ c ∈ a ++ b, Digit c := by
      intro c hc
      rcases List.mem_append.1 hc with hc | hc
      · exact ha c hc
      · exact hb c hc
    have hst : Stops r2 := plain_stops (plain_sub h (fun c hc => by rw [e]; simp [hc])) hr2
    rw [e] at h ⊢
    exact ⟨a, b, r2, _, hd, .inr rfl, hr2, natScan_point a b r2 hd hst h, by split <;> omega⟩
  · have hp' : ∀ r', r ≠ '.' :: r' := fun r' e => hp ⟨r', e⟩
    have hst : Stops r := plain_stops (plain_sub h (fun c hc => by rw [e]; simp [hc])) hr
    rw [e] at h ⊢
    refine ⟨a, [], r, a.length, by simpa using ha, .inl ⟨rfl, rfl, hp'⟩, hr, ?_, ?_⟩
    · rw [List.append_nil]
      exact natScan_int a r ha hst hp' h
    · rw [if_neg (by omega)]; rfl

theorem scaled_zero (k : Int) : scaled 0 k = 0 := by
  unfold scaled
  rw [Int.zero_mul, Rat.zero_mkRat]

theorem sign_zero {σ : Int} {sg : List Char} (h : Sign sg σ) (n : Int) : σ * n = 0 ↔ n = 0 := by
  rcases h with ⟨_, rfl⟩ | ⟨_, rfl⟩ | ⟨_, rfl⟩ <;> omega

/-- Once the mantissa is read. -/
theorem setFloat_of {s t : List Char} {σ : Int} (hs : scanSign s = (decide (σ = -1), t)) {v : Nat} {fc : Int} {r : List Char} {f : Nat}
    {bad : Bool} (hm : natScan true t = ⟨v, 10, fc, bad, r⟩) (hf : (if fc < 0 then fc else 0) = -(f : Int)) :
    setFloat s = if bad then ((v : Rat), false) else match scanExponent r with
      | none => ((v : Rat), false)
      | some (x, eb, rest) =>
        if rest ≠ [] then ((v : Rat), false) else if v = 0 then (0, true)
        else scale (decide (σ = -1)) v (-(f : Int) + (if eb = 10 then x else 0)) (-(f : Int) + x) := by
  unfold setFloat
  simp only [hs, hm, hf]
  cases bad
  · simp only [Bool.false_eq_true, if_false, if_true, show ¬ (10 = 8) by decide, show ¬ (10 = 16) by decide]
    rfl
  · simp only [if_true]

theorem setFloat_iff (s : List Char) (h : Plain s) (q : Rat) :
    setFloat s = (q, true) ↔ ∃ n x f, Literal s n x f ∧ InI64 x ∧ (n = 0 ∨ (x - f).natAbs ≤ 1000000) ∧ q = scaled n (x - f) := by
  constructor
  · intro he
    obtain ⟨sg, σ, hsg, hs, hneg⟩ := scanSign_split s
    generalize ht : (scanSign s).2 = t at hs
    have hs' : scanSign s = (decide (σ = -1), t) := Prod.ext hneg ht
    obtain ⟨a, b, r, fc, hd, hform, hr, hm, hf⟩ := mantissa t (plain_sub h (fun c hc => by rw [hs]; simp [hc]))
    rw [setFloat_of hs' hm hf] at he
    split at he
    · cases he
    · rename_i hne
      have hne : a ++ b ≠ [] := by simpa using hne
      have hpr : Plain r := plain_sub h (fun c hc => by
        rw [hs]
        rcases hform with ⟨_, e, _⟩ | e <;> rw [e] <;> simp [hc])
      cases hx : scanExponent r with
      | none => rw [hx] at he; cases he
      | some p =>
        obtain ⟨x, eb, rest⟩ := p
        rw [hx] at he
        simp only at he
        split at he
        · cases he
        · rename_i hrest
          have hrest : rest = [] := Decidable.not_not.1 hrest
          subst hrest
          obtain ⟨hexp, hi, rfl⟩ := (scanExponent_iff r hpr x eb).1 hx
          refine ⟨σ * value 10 (a ++ b), x, b.length, ⟨sg, σ, a, b, r, hsg, hne, hd, hexp, ?_, rfl, rfl⟩, hi, ?_⟩
          · rcases hform with ⟨h1, h2, _⟩ | h2
            · exact .inl ⟨h1, by rw [hs, h2]⟩
            · exact .inr (by rw [hs, h2])
          · split at he
            · rename_i hv
              cases he
              rw [hv]
              refine ⟨.inl (by simp), ?_⟩
              simp [scaled_zero]
            · rename_i hv
              have ek : -(b.length : Int) + x = x - b.length := by omega
              simp only [if_true, ek] at he
              rw [scale_eq, sign_mul σ sg hsg] at he
              split at he
              · rename_i hk
                cases he
                exact ⟨.inr hk, rfl⟩
              · cases he
  · rintro ⟨n, x, f, ⟨sg, σ, a, b, t, hsg, hne, hd, hexp, hform, rfl, rfl⟩, hi, hb, rfl⟩
    have hst : Stops t ∧ ∀ r, t ≠ '.' :: r := by
      rcases hexp with ⟨rfl, _⟩ | ⟨e, sg2, σ2, ds, he, _, _, _, rfl, _⟩
      · exact ⟨fun c r e => (by cases e), by simp⟩
      · constructor
        · intro c r e2
          cases e2
          rcases he with rfl | rfl <;> exact ⟨by unfold Digit; decide, by decide⟩
        · intro r e2
          cases e2
          rcases he with h | h <;> revert h <;> decide
    have key : ∀ body fc, s = sg ++ body → natScan true body = ⟨value 10 (a ++ b), 10, fc, decide (a ++ b = []), t⟩ →
        (if fc < 0 then fc else 0) = -(b.length : Int) → (∀ c r, body = c :: r → c ≠ '-' ∧ c ≠ '+') → setFloat s = (scaled (σ * value 10 (a ++ b)) (x - b.length), true) := by
      intro body fc hs hm hf hh
      have hpt : Plain t := plain_sub h (fun c hc => by rcases hform with ⟨_, e⟩ | e <;> rw [e] <;> simp [hc])
      have hs' : scanSign s = (decide (σ = -1), body) := by rw [hs]; exact scanSign_of sg σ hsg body hh
      rw [setFloat_of hs' hm hf, (scanExponent_iff t hpt x 10).2 ⟨hexp, hi, rfl⟩]
      have ek : -(b.length : Int) + x = x - b.length := by omega
      simp only [hne, decide_false, Bool.false_eq_true, if_false, ne_eq, not_true, if_true, ek]
      by_cases hv : value 10 (a ++ b) = 0
      · rw [if_pos hv, hv]
        simp [scaled_zero]
      · rw [if_neg hv, scale_eq, sign_mul σ sg hsg, if_pos]
        rcases hb with hb | hb
        · rw [sign_zero hsg] at hb
          omega
        · exact hb
    have digitHead : ∀ c, Digit c → c ≠ '-' ∧ c ≠ '+' := by
      intro c hc
      constructor <;> rintro rfl <;> revert hc <;> unfold Digit <;> decide
    rcases hform with ⟨rfl, e⟩ | e
    · rw [List.append_nil] at hne hd
      refine key (a ++ t) a.length e ?_ (by rw [if_neg (by omega)]; rfl) ?_
      · rw [List.append_nil]
        exact natScan_int a t hd hst.1 hst.2 (plain_sub h (fun c hc => by rw [e]; simp [List.mem_append.1 hc]))
      · intro c r e2
        cases a with
        | nil => exact absurd rfl hne
        | cons d ds => cases e2; exact digitHead _ (hd _ (by simp))
    · refine key (a ++ '.' :: (b ++ t)) (-(b.length : Int)) e (natScan_point a b t hd hst.1 (plain_sub h (fun c hc => by rw [e]; exact List.mem_append_right _ hc)))
        (by split <;> omega) ?_
      intro c r e2
      cases a with
      | nil => cases e2; decide
      | cons d ds => cases e2; exact digitHead _ (hd _ (by simp))

theorem setString_plain (s : List Char) (h : Plain s) : RatScan.setString s = setFloat s := by
  unfold RatScan.setString
  split
  · rename_i e; subst e; rfl
  · rw [if_neg]
    intro hm
    have := h '/' hm
    simp at this

/-- A text without its sign. -/
def unsigned : List Char → List Char
  | [] => []
  | c :: r => if c = '-' ∨ c = '+' then r else c :: r

/-- The digits after the point a text begins with, if it begins with one. -/
def afterPoint : List Char → List Char
  | [] => []
  | c :: r => if c = '.' then r.takeWhile isDigit else []

/-- The number written by the digits a text begins with, the sign and the point being ignored: 15 for `-1.5x`, 0 for `abc`. -/
def leading (s : List Char) : Nat :=
  value 10 ((unsigned s).takeWhile isDigit ++ afterPoint ((unsigned s).dropWhile isDigit))

theorem scanSign_unsigned (s : List Char) : (scanSign s).2 = unsigned s := by
  cases s with
  | nil => rfl
  | cons c r =>
    simp only [scanSign, unsigned]
    by_cases h1 : c = '-'
    · simp [h1]
    · by_cases h2 : c = '+' <;> simp [h1, h2]

theorem take_digits {a r : List Char} (ha : ∀ c ∈ a, Digit c) (hr : ∀ c r', r = c :: r' → ¬ Digit c) :
    (a ++ r).takeWhile isDigit = a ∧ (a ++ r).dropWhile isDigit = r := by
  have ha' : ∀ c ∈ a, isDigit c = true := fun c hc => (isDigit_digit c).2 (ha c hc)
  cases r with
  | nil => rw [List.append_nil]; exact ⟨takeWhile_all ha', dropWhile_all ha'⟩
  | cons c r' =>
    have : isDigit c = false := by
      rcases Bool.eq_false_or_eq_true (isDigit c) with h | h
      · exact absurd ((isDigit_digit c).1 h) (hr c r' rfl)
      · exact h
    exact takeWhile_stop ha' this

theorem leading_of {s a b r : List Char} (hd : ∀ c ∈ a ++ b, Digit c) (hr : ∀ c r', r = c :: r' → ¬ Digit c)
    (hform : (b = [] ∧ unsigned s = a ++ r ∧ ∀ r', r ≠ '.' :: r') ∨ unsigned s = a ++ '.' :: (b ++ r)) : leading s = value 10 (a ++ b) := by
  have ha : ∀ c ∈ a, Digit c := fun c hc => hd c (by simp [hc])
  unfold leading
  rcases hform with ⟨rfl, e, hp⟩ | e
  · rw [e, (take_digits ha hr).1, (take_digits ha hr).2]
    congr 2
    cases r with
    | nil => rfl
    | cons c r' =>
      rw [afterPoint, if_neg]
      rintro rfl
      exact hp r' rfl
  · have hpt : ∀ c r', '.' :: (b ++ r) = c :: r' → ¬ Digit c := by
      intro c r' e
      cases e
      unfold Digit
      decide
    rw [e, (take_digits ha hpt).1, (take_digits ha hpt).2, afterPoint, if_pos rfl, (take_digits (fun c hc => hd c (by simp [hc])) hr).1]

theorem setFloat_left (s : List Char) (h : Plain s) (hf : (setFloat s).2 = false) : (setFloat s).1 = (leading s : Rat) := by
  obtain ⟨sg, σ, hsg, hs, hneg⟩ := scanSign_split s
  have hl := scanSign_unsigned s
  generalize ht : (scanSign s).2 = t at hs hl
  have hs' : scanSign s = (decide (σ = -1), t) := Prod.ext hneg ht
  obtain ⟨a, b, r, fc, hd, hform, hr, hm, hfc⟩ := mantissa t (plain_sub h (fun c hc => by rw [hs]; simp [hc]))
  rw [leading_of hd hr (by rw [← hl]; exact hform)]
  rw [setFloat_of hs' hm hfc] at hf ⊢
  split
  · rfl
  · rename_i hbad
    rw [if_neg hbad] at hf
    have hpr : Plain r := plain_sub h (fun c hc => by
      rw [hs]
      rcases hform with ⟨_, e, _⟩ | e <;> rw [e] <;> simp [hc])
    cases hx : scanExponent r with
    | none => rfl
    | some p =>
      obtain ⟨x, eb, rest⟩ := p
      rw [hx] at hf
      simp only at hf ⊢
      split
      · rfl
      · rename_i hrest
        rw [if_neg hrest] at hf
        have hrest : rest = [] := Decidable.not_not.1 hrest
        subst hrest
        obtain ⟨_, _, rfl⟩ := (scanExponent_iff r hpr x eb).1 hx
        split
        · rename_i hv; rw [if_pos hv] at hf; cases hf
        · rename_i hv
          rw [if_neg hv] at hf
          simp only [if_true] at hf ⊢
          rw [scale_eq] at hf ⊢
          split
          · rename_i hk; rw [if_pos hk] at hf; cases hf
          · rfl

/-! ### C226 -/

/-- A decimal literal that Go's big.Rat takes: its exponent is an int64 and it shifts the digits by at most a million places. -/
def Accepted (s : List Char) (q : Rat) : Prop :=
  ∃ n x f, Literal s n x f ∧ InI64 x ∧ (n = 0 ∨ (x - f).natAbs ≤ 1000000) ∧ q = scaled n (x - f)

/-- C226, partial: on texts without the characters of Go's other notations PARSE_NUMERIC and PARSE_BIGNUMERIC give exactly the numbers the decimal
literals denote, all digits being kept, and an error for every other text.  Missing: the other notations (below), the range and
scale of NUMERIC and BIGNUMERIC (not checked), NULL (panics). -/
theorem C226_partial (s : List Char) (h : Plain s) (big : Bool) :
    (∀ q, parseNumeric big (some s) = .ok (q, big) ↔ Accepted s q) ∧ (parseNumeric big (some s) = .err ↔ ¬ ∃ q, Accepted s q) := by
  have key : ∀ q, parseNumeric big (some s) = .ok (q, big) ↔ Accepted s q := by
    intro q
    unfold Accepted
    rw [← setFloat_iff s h q]
    unfold parseNumeric
    dsimp only
    rw [setString_plain s h]
    generalize setFloat s = p
    obtain ⟨v, ok⟩ := p
    cases ok <;> simp
  refine ⟨key, ?_⟩
  constructor
  · rintro e ⟨q, hq⟩
    rw [(key q).2 hq] at e
    cases e
  · intro hn
    unfold parseNumeric
    dsimp only
    split
    · rename_i hok
      exact absurd ⟨_, (key _).1 (by unfold parseNumeric; dsimp only; rw [if_pos hok])⟩ hn
    · rfl

/-- A number has one text value: the number an accepted text denotes is determined by it. -/
theorem accepted_unique {s : List Char} (h : Plain s) {q q' : Rat} (h1 : Accepted s q) (h2 : Accepted s q') : q = q' := by
  have e1 := ((C226_partial s h false).1 q).2 h1
  have e2 := ((C226_partial s h false).1 q').2 h2
  rw [e1] at e2
  simpa using e2

/-- NULL panics. -/
theorem C226_null_panics (big : Bool) : parseNumeric big none = .panic := rfl

theorem natScan_whole (a : List Char) (h : ∀ c ∈ a, Digit c) (h0 : a ≠ []) (hz : a.head? ≠ some '0') :
    natScan false a = ⟨value 10 a, 10, a.length, false, []⟩ := by
  cases a with
  | nil => exact absurd rfl h0
  | cons c r =>
    have hc : c ≠ '0' := fun e => hz (by simp [e])
    unfold natScan
    dsimp only
    rw [if_neg hc]
    have e := scan_digits false (c :: r) [] h ⟨0, 0, none, .dot, false⟩
    rw [List.append_nil] at e
    rw [e, scan_stop false [] (fun c r e => by cases e) (fun _ e => by cases e)]
    have hv := value_append2 (c :: r) [] (by simpa using h)
    rw [List.append_nil] at hv
    simp only [List.foldl_nil] at hv
    simp only [finish, hv]
    simp

theorem value_pos (c : Char) (r : List Char) (h : ∀ d ∈ c :: r, Digit d) (hz : c ≠ '0') : value 10 (c :: r) ≠ 0 := by
  have hmono : ∀ (r : List Char) (v : Nat), v ≠ 0 → r.foldl (fun a c => a * 10 + digitOf c) v ≠ 0 := by
    intro r
    induction r with
    | nil => exact fun v h => h
    | cons d r ih => exact fun v h => ih _ (by dsimp only; omega)
  have hv := value_append2 (c :: r) [] (by simpa using h)
  rw [List.append_nil] at hv
  simp only [List.foldl_nil] at hv
  rw [← hv, List.foldl_cons]
  apply hmono
  obtain ⟨h1, h2⟩ := h c (by simp)
  have : c.toNat ≠ 48 := fun e => hz (Char.toNat_inj.1 e)
  unfold digitOf
  simp only [h1, h2, and_self, if_true]
  omega

/-- A fraction is accepted: PARSE_NUMERIC('a/b') is the exact quotient, which no NUMERIC may be.  (Numbers that begin with 0 are octal here.) -/
theorem C226_fraction (sg : List Char) (σ : Int) (hsg : Sign sg σ) (a b : List Char) (ha : ∀ c ∈ a, Digit c) (hb : ∀ c ∈ b, Digit c) (ha0 : a ≠ []) (hb0 : b ≠ [])
    (haz : a.head? ≠ some '0') (hbz : b.head? ≠ some '0') (big : Bool) :
    parseNumeric big (some (sg ++ (a ++ '/' :: b))) = .ok (mkRat (σ * value 10 a) (value 10 b), big) := by
  have hns : ∀ c ∈ sg ++ a, decide (c ≠ '/') = true := by
    intro c hc
    apply decide_eq_true
    rintro rfl
    rcases List.mem_append.1 hc with hc | hc
    · rcases hsg with ⟨rfl, _⟩ | ⟨rfl, _⟩ | ⟨rfl, _⟩ <;> revert hc <;> decide
    · have := ha _ hc
      revert this
      unfold Digit
      decide
  have hsplit := takeWhile_stop (p := fun c => decide (c ≠ '/')) (m := b) (a := '/') hns (by decide)
  have hi : scanInt (sg ++ a) = (σ * value 10 a, true) := by
    unfold scanInt
    rw [if_neg (by simp [ha0])]
    have hs := scanSign_of sg σ hsg a (by
      intro c r e
      have := ha c (by rw [e]; simp)
      constructor <;> rintro rfl <;> revert this <;> unfold Digit <;> decide)
    simp only [hs, natScan_whole a ha ha0 haz, Bool.false_eq_true, if_false, decide_true]
    congr 1
    exact sign_mul σ sg hsg _
  have hbv : value 10 b ≠ 0 := by
    cases b with
    | nil => exact absurd rfl hb0
    | cons c r => exact value_pos c r hb (fun e => hbz (by simp [e]))
  have hfin : RatScan.setString (sg ++ a ++ '/' :: b) = (mkRat (σ * value 10 a) (value 10 b), true) := by
    unfold RatScan.setString
    rw [if_neg (by simp), if_pos (by simp)]
    simp only [hsplit.1, hsplit.2, hi]
    simp only [List.drop_succ_cons, List.drop_zero, natScan_whole b hb hb0 hbz, hbv, ratio, if_false, Bool.true_eq_false, ne_eq, not_false_eq_true, and_self, decide_true]
  rw [← List.append_assoc]
  unfold parseNumeric
  simp only [hfin, if_true]

/-- A fraction whose denominator is zero is an error, whatever the numerator. -/
theorem C226_zero_denominator (s : List Char) (hs : '/' ∉ s) (big : Bool) : parseNumeric big (some (s ++ ['/', '0'])) = .err := by
  have hsplit := takeWhile_stop (p := fun c => decide (c ≠ '/')) (l := s) (m := ['0']) (a := '/') (by
    intro c hc
    apply decide_eq_true
    rintro rfl
    exact hs hc) (by decide)
  have hfin : (RatScan.setString (s ++ ['/', '0'])).2 = false := by
    unfold RatScan.setString
    rw [if_neg (by simp), if_pos (by simp)]
    simp only [hsplit.1, hsplit.2]
    split
    · rfl
    · have h0 : (RatScan.natScan false ['0']).val = 0 := by decide_cbv
      simp only [List.drop_succ_cons, List.drop_zero, h0, ne_eq, not_true_eq_false, and_false, decide_false]
  unfold parseNumeric
  simp only [hfin, Bool.false_eq_true, if_false]

example : parseNumeric false (some "12/0".toList) = .err := C226_zero_denominator "12".toList (by decide) false

/-- Go's other notations are accepted: other bases, binary exponents, underscores, numbers out of range. -/
theorem C226_other_notations :
    parseNumeric false (some "0x1F".toList) = .ok (31, false) ∧ parseNumeric false (some "0b101".toList) = .ok (5, false) ∧
    parseNumeric false (some "1_000".toList) = .ok (1000, false) ∧ parseNumeric false (some "1p3".toList) = .ok (8, false) ∧
    parseNumeric false (some "1/010".toList) = .ok (mkRat 1 8, false) ∧ parseNumeric false (some "1e50".toList) = .ok (10 ^ 50, false) ∧
    parseNumeric false (some "1e-20".toList) = .ok (mkRat 1 (10 ^ 20), false) := by decide_cbv

/-- PARSE_NUMERIC(NULL) panics. -/
theorem C226_full_false : ¬ C226_full := by
  rintro ⟨_, h⟩
  exact h rfl

/-- Also without NULL: PARSE_NUMERIC('1/3') is no error. -/
theorem C226_third : parseNumeric false (some "1/3".toList) = .ok (mkRat 1 3, false) ∧ ¬ IsNumeric (mkRat 1 3) := by
  refine ⟨by decide_cbv, ?_⟩
  rintro ⟨n, hn, _⟩
  rw [Rat.mkRat_eq_iff (by decide) (by decide)] at hn
  omega

example : Plain "-12.50E+3".toList ∧ Literal "-12.50E+3".toList (-1250) 3 2 ∧ scaled (-1250) (3 - 2) = -12500 :=
  ⟨by unfold Plain; decide, ⟨['-'], -1, ['1', '2'], ['5', '0'], ['E', '+', '3'], .inr (.inr ⟨rfl, rfl⟩), by decide, by unfold Digit; decide,
    .inr ⟨'E', ['+'], 1, ['3'], .inr rfl, .inr (.inl ⟨rfl, rfl⟩), by decide, by unfold Digit; decide, rfl, by decide⟩, .inr rfl, by decide, rfl⟩, by decide_cbv⟩

/-! ### C105: what CAST to NUMERIC does with every text -/

/-- What the model of CAST leaves open is Rat.SetString: with it nothing is open. -/
theorem setString_cast (s : List Char) : Cast.setString (fun s => (RatScan.setString s).1) s = (RatScan.setString s).1 := by
  unfold Cast.setString
  split
  · rename_i hl
    cases hd : decimal s with
    | none => rfl
    | some q =>
      rw [Option.getD_some]
      obtain ⟨sg, σ, a, b, h1, h2, h3, h4, rfl⟩ := (decimal_iff s q).1 hd
      have hdig : ∀ c, Digit c → c ∉ ['/', '_', 'b', 'B', 'o', 'O', 'x', 'X', 'p', 'P'] ∧ decide (c ≠ '.') = true := by
        intro c hc
        constructor
        · intro hm
          simp only [List.mem_cons, List.not_mem_nil, or_false] at hm
          rcases hm with rfl | rfl | rfl | rfl | rfl | rfl | rfl | rfl | rfl | rfl <;> revert hc <;> unfold Digit <;> decide
        · apply decide_eq_true
          rintro rfl
          revert hc
          unfold Digit
          decide
      have hsgc : ∀ c ∈ sg, c ∉ ['/', '_', 'b', 'B', 'o', 'O', 'x', 'X', 'p', 'P'] ∧ decide (c ≠ '.') = true := by
        rcases h1 with ⟨rfl, _⟩ | ⟨rfl, _⟩ | ⟨rfl, _⟩ <;> decide
      have hplain : Plain s := by
        intro c hc
        rcases h4 with ⟨rfl, e⟩ | e <;> rw [e] at hc <;> simp only [List.mem_append, List.mem_cons] at hc
        · rcases hc with hc | hc
          · exact (hsgc c hc).1
          · exact (hdig c (h3 c (by simp [hc]))).1
        · rcases hc with hc | hc | rfl | hc
          · exact (hsgc c hc).1
          · exact (hdig c (h3 c (by simp [hc]))).1
          · decide
          · exact (hdig c (h3 c (by simp [hc]))).1
      have hlen : b.length ≤ 1000000 := by
        rcases h4 with ⟨rfl, e⟩ | e
        · simp
        · rw [e, dropWhile_pass sg _ (fun c hc => (hsgc c hc).2), dropWhile_pass a _ (fun c hc => (hdig c (h3 c (by simp [hc]))).2)] at hl
          rw [List.dropWhile_cons, if_neg (by decide), List.length_cons] at hl
          omega
      have := (setFloat_iff s hplain (scaled (σ * value 10 (a ++ b)) (0 - b.length))).2
        ⟨_, 0, b.length, ⟨sg, σ, a, b, [], h1, h2, h3, .inl ⟨rfl, rfl⟩, by simpa using h4, rfl, rfl⟩, by decide, .inr (by omega), rfl⟩
      rw [setString_plain s hplain, this]
      unfold scaled
      have e1 : ((0 : Int) - b.length).toNat = 0 := by omega
      have e2 : (-((0 : Int) - b.length)).toNat = b.length := by omega
      simp only [e1, e2, Int.pow_zero, Int.mul_one]
  · rfl

/-- C105, exactly: on a text without the characters of Go's other notations CAST to NUMERIC is the number of the literal if it is one (exponents
included), and otherwise the number written by the digits the text begins with, sign and point being ignored. -/
theorem C105_exact_partial (s : List Char) (h : Plain s) (big : Bool) :
    ∃ q, cast (fun s => (RatScan.setString s).1) .str (.num big) false (.str s) = .ok (.num q big) ∧
      (Accepted s q ∨ ((¬ ∃ q', Accepted s q') ∧ q = (leading s : Rat))) := by
  refine ⟨(RatScan.setString s).1, ?_, ?_⟩
  · have := setString_cast s
    simp [Cast.cast, castValue, toStr, toRat, this]
  · rw [setString_plain s h]
    rcases Bool.eq_false_or_eq_true (setFloat s).2 with hf | hf
    · exact .inl ((setFloat_iff s h _).1 (Prod.ext rfl hf))
    · refine .inr ⟨?_, setFloat_left s h hf⟩
      rintro ⟨q', hq⟩
      rw [(setFloat_iff s h q').2 hq] at hf
      cases hf

/-- CAST('-1.5x' AS NUMERIC) is 15. -/
theorem C105_dirty : cast (fun s => (RatScan.setString s).1) .str (.num false) false (.str "-1.5x".toList) = .ok (.num 15 false) := by rfl

example : Plain "-1.5 ".toList ∧ leading "-1.5 ".toList = 15 := by unfold Plain; decide_cbv

end Verif.ParseNumeric
