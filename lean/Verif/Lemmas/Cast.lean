import Verif.Model.Cast
import Verif.Lemmas.Codec

/-!
# Conversions to text can be read back
-/

namespace Verif.Cast

open Go Verif.Val Codec

/-! ### Times -/

theorem matchClasses_digits (ps : List (Char → Bool)) (rest : List Char) : ∀ ds : List Char, (∀ c ∈ ds, isDigit c = true) →
    matchClasses (List.replicate ds.length isDigit ++ ps) (ds ++ rest) = matchClasses ps rest
  | [], _ => rfl
  | d :: ds, h => by
    simp only [List.length_cons, List.replicate_succ, List.cons_append, matchClasses, h d (by simp), if_true]
    exact matchClasses_digits ps rest ds fun c hc => h c (by simp [hc])

theorem pad_digits (w n : Nat) : ∀ c ∈ pad w n, isDigit c = true := by
  intro c hc
  unfold isDigit
  unfold pad at hc
  split at hc
  · exact decide_eq_true (padDigits_digits w n c hc)
  · exact decide_eq_true (decNat_digits n c hc)

theorem matchClasses_pad {w n : Nat} (h : n < 10 ^ w) (ps : List (Char → Bool)) (rest : List Char) :
    matchClasses (List.replicate w isDigit ++ ps) (pad w n ++ rest) = matchClasses ps rest := by
  have hl : (pad w n).length = w := by unfold pad; rw [if_pos h, padDigits_length]
  have := matchClasses_digits ps rest (pad w n) (pad_digits w n)
  rw [hl] at this
  exact this

theorem dateClasses_text (t : Int) (h0 : 0 ≤ yearOf (tDay t)) (h1 : yearOf (tDay t) ≤ 9999) (ps : List (Char → Bool)) (rest : List Char) :
    matchClasses (dateClasses ++ ps) (dateText t ++ rest) = matchClasses ps rest := by
  obtain ⟨m1, m12, d1, dl⟩ := civil_valid (tDay t)
  have hl := (monthLen_bound (yearOf (tDay t)) m1 m12).2
  unfold dateText padInt
  rw [if_neg (by omega)]
  simp only [List.append_assoc, List.cons_append]
  have e : dateClasses ++ ps = List.replicate 4 isDigit ++ (lit '-' :: (List.replicate 2 isDigit ++ (lit '-' :: (List.replicate 2 isDigit ++ ps)))) := rfl
  rw [e, matchClasses_pad (by omega)]
  have hm : ∀ (ps : List (Char → Bool)) s, matchClasses (lit '-' :: ps) ('-' :: s) = matchClasses ps s := fun _ _ => rfl
  rw [hm, matchClasses_pad (by omega), hm, matchClasses_pad (by omega)]

theorem clockClasses_text (w : Nat) (t : Int) (ps : List (Char → Bool)) (rest : List Char) :
    matchClasses (clockClasses ++ ps) (clockText w t ++ rest) = matchClasses ps (fracText w t ++ rest) := by
  have h := tFields t
  have hb : 0 ≤ tod t ∧ tod t < dayNs := by unfold tod dayNs; omega
  have b1 : 0 ≤ tHour t ∧ tHour t < 24 := by unfold tHour tod dayNs hour; omega
  have b2 : 0 ≤ tMinute t ∧ tMinute t < 60 := by unfold tMinute tod dayNs hour minute; omega
  have b3 : 0 ≤ tSecond t ∧ tSecond t < 60 := by unfold tSecond tod dayNs minute sec; omega
  unfold clockText
  simp only [List.append_assoc, List.cons_append]
  have e : clockClasses ++ ps = List.replicate 2 isDigit ++ (lit ':' :: (List.replicate 2 isDigit ++ (lit ':' :: (List.replicate 2 isDigit ++ ps)))) := rfl
  have hm : ∀ (ps : List (Char → Bool)) s, matchClasses (lit ':' :: ps) (':' :: s) = matchClasses ps s := fun _ _ => rfl
  rw [e, matchClasses_pad (by omega), hm, matchClasses_pad (by omega), hm, matchClasses_pad (by omega)]

theorem isTime_date (t : Int) (h0 : 0 ≤ yearOf (tDay t)) (h1 : yearOf (tDay t) ≤ 9999) (rest : List Char) :
    isTime (dateText t ++ rest) = false := by
  have hl : (pad 4 (yearOf (tDay t)).natAbs).length = 4 := by unfold pad; rw [if_pos (by omega), padDigits_length]
  have hd := pad_digits 4 (yearOf (tDay t)).natAbs
  unfold dateText padInt isTime
  rw [if_neg (by omega)]
  revert hl hd
  generalize pad 4 (yearOf (tDay t)).natAbs = ds
  intro hl hd
  match ds, hl with
  | [a, b, c, d], _ =>
    have ha := hd a (by simp)
    have hb := hd b (by simp)
    have hc := hd c (by simp)
    have hc' : lit ':' c = false := by
      unfold lit
      unfold isDigit at hc
      simp only [decide_eq_true_eq] at hc
      apply decide_eq_false
      rintro rfl
      revert hc
      decide
    simp [clockClasses, matchClasses, ha, hb, hc']

theorem strTime_date (t : Int) (h0 : 0 ≤ yearOf (tDay t)) (h1 : yearOf (tDay t) ≤ 9999) : strTime (dateText t) = .ok (t - tod t) := by
  have hd : isDate (dateText t) = true := by
    have := dateClasses_text t h0 h1 [] []
    rw [List.append_nil, List.append_nil] at this
    unfold isDate
    rw [this]
    rfl
  unfold strTime
  rw [if_pos hd, parseDate_text t h0 h1]

theorem parseTimestamp_text {w : Nat} (hw : w ≤ 9) (t : Int) (h0 : 0 ≤ yearOf (tDay t)) (h1 : yearOf (tDay t) ≤ 9999)
    (z : List Char) (hz : z = [] ∨ z = ['Z']) :
    parseTimestamp (dateText t ++ 'T' :: (clockText w t ++ z)) = some (t - tNano t % 10 ^ (9 - w)) := by
  unfold parseTimestamp
  rw [parseDatePart_text t _ h0 h1]
  simp only [true_or, if_true]
  have hh : ∀ c, z.head? = some c → ¬ (48 ≤ c.toNat ∧ c.toNat ≤ 57) ∧ c ≠ '.' ∧ c ≠ ',' := by
    rcases hz with rfl | rfl
    · intro c hc; simp at hc
    · intro c hc
      simp at hc
      subst hc
      decide
  rw [parseClockPart_text hw t z hh]
  have hzone : parseZone z = some 0 := by rcases hz with rfl | rfl <;> rfl
  simp only [hzone, Option.map_some]
  congr 1
  have e : tDate (yearOf (tDay t)) (monthOf (tDay t)) (dayOf (tDay t)) 0 0 0 0 = tDay t * dayNs := by
    unfold tDate
    rw [daysOf_civil]
    omega
  rw [e]
  unfold tod tDay dayNs
  omega

theorem isDate_longer (t : Int) (h0 : 0 ≤ yearOf (tDay t)) (h1 : yearOf (tDay t) ≤ 9999) (c : Char) (r : List Char) :
    isDate (dateText t ++ c :: r) = false := by
  have := dateClasses_text t h0 h1 [] (c :: r)
  rw [List.append_nil] at this
  unfold isDate
  rw [this]
  rfl

theorem strTime_datetime (t : Int) (h0 : 0 ≤ yearOf (tDay t)) (h1 : yearOf (tDay t) ≤ 9999) :
    strTime (dateText t ++ 'T' :: clockText 6 t) = .ok (t - tNano t % 10 ^ (9 - 6)) := by
  unfold strTime
  rw [if_neg (by rw [isDate_longer t h0 h1]; decide)]
  have e1 : parseDatetimeV (dateText t ++ 'T' :: clockText 6 t) = some (t - tNano t % 10 ^ (9 - 6)) := by
    unfold parseDatetimeV
    rw [parseDatetime_text (by omega) 'T' t h0 h1]
    rfl
  have e2 := parseTimestamp_text (w := 6) (by omega) t h0 h1 [] (.inl rfl)
  rw [List.append_nil] at e2
  rw [isTime_date t h0 h1]
  split
  · rename_i heq
    split at heq
    · rw [e1] at heq; cases heq; rfl
    · rw [if_neg (by decide), e2] at heq; cases heq; rfl
  · rename_i heq
    split at heq
    · rw [e1] at heq; cases heq
    · rw [if_neg (by decide), e2] at heq; cases heq

theorem strTime_timestamp (t : Int) (h0 : 0 ≤ yearOf (tDay t)) (h1 : yearOf (tDay t) ≤ 9999) :
    strTime (dateText t ++ 'T' :: (clockText 9 t ++ ['Z'])) = .ok t := by
  have hdt : isDatetime (dateText t ++ 'T' :: (clockText 9 t ++ ['Z'])) = false := by
    unfold isDatetime
    rw [dateClasses_text t h0 h1]
    have hs : ∀ (ps : List (Char → Bool)) s, matchClasses (sepClass :: ps) ('T' :: s) = matchClasses ps s := fun _ _ => rfl
    have e := clockClasses_text 9 t [] ['Z']
    rw [List.append_nil] at e
    rw [hs, e]
    simp [matchClasses]
  unfold strTime
  rw [if_neg (by rw [isDate_longer t h0 h1]; decide), if_neg (by rw [hdt]; decide), if_neg (by rw [isTime_date t h0 h1]; decide),
    parseTimestamp_text (by omega) t h0 h1 ['Z'] (.inr rfl)]
  simp

theorem clock_third (w : Nat) (t : Int) (rest : List Char) : ∃ a b r, clockText w t ++ rest = a :: b :: ':' :: r ∧ isDigit a = true ∧ isDigit b = true := by
  have b1 : 0 ≤ tHour t ∧ tHour t < 24 := by unfold tHour tod dayNs hour; omega
  have hl : (pad 2 (tHour t).toNat).length = 2 := by unfold pad; rw [if_pos (by omega), padDigits_length]
  have hd := pad_digits 2 (tHour t).toNat
  unfold clockText
  revert hl hd
  generalize pad 2 (tHour t).toNat = ds
  intro hl hd
  match ds, hl with
  | [a, b], _ => exact ⟨a, b, _, rfl, hd a (by simp), hd b (by simp)⟩

theorem strTime_time (t : Int) : strTime (clockText 6 t) = .ok (tDate 0 1 1 0 0 0 0 + (tod t - tNano t % 10 ^ (9 - 6))) := by
  have h3 : isDate (clockText 6 t) = false ∧ isDatetime (clockText 6 t) = false := by
    obtain ⟨a, b, r, e, ha, hb⟩ := clock_third 6 t []
    rw [List.append_nil] at e
    have hc : isDigit ':' = false := by decide
    rw [e]
    simp [isDate, isDatetime, dateClasses, matchClasses, ha, hb, hc]
  have ht : isTime (clockText 6 t) = true := by
    have := clockClasses_text 6 t [] []
    rw [List.append_nil, List.append_nil, List.append_nil] at this
    unfold isTime
    rw [this]
    rfl
  unfold strTime
  rw [if_neg (by rw [h3.1]; decide), if_neg (by rw [h3.2]; decide), if_pos ht, parseClock_text (by omega) t]

/-! ### Numbers -/

theorem decInt_no_x (i : Int) : has0x (decInt i) = false := by
  have h : ∀ s : List Char, (∀ c ∈ s, c = '-' ∨ (48 ≤ c.toNat ∧ c.toNat ≤ 57)) → has0x s = false := by
    intro s
    induction s with
    | nil => intro _; rfl
    | cons c s ih =>
      intro h
      simp only [has0x]
      rw [ih fun d hd => h d (by simp [hd]), Bool.or_false]
      cases s with
      | nil => simp
      | cons d s =>
        have := h d (by simp)
        have hx : decide (d = 'x' ∨ d = 'X') = false := by
          apply decide_eq_false
          rintro (rfl | rfl)
          · revert this; decide
          · revert this; decide
        simp [hx]
  exact h _ (decInt_chars i)

theorem strInt_decInt {i : Int} (h : InI64 i) : strInt (decInt i) = .ok i := by
  unfold strInt
  rw [if_neg (Json.decInt_ne_nil i), decInt_no_x, if_neg (by decide), parseInt64_decInt h]

theorem isDigit_iff (c : Char) : isDigit c = true ↔ 48 ≤ c.toNat ∧ c.toNat ≤ 57 := by unfold isDigit; exact decide_eq_true_iff

theorem dropWhile_append_stop {α} {p : α → Bool} {a : α} (ha : p a = false) (m : List α) : ∀ l : List α,
    (l ++ a :: m).dropWhile p = l.dropWhile p ++ a :: m
  | [] => by simp [List.dropWhile_cons, ha]
  | x :: l => by
    simp only [List.cons_append, List.dropWhile_cons]
    split
    · exact dropWhile_append_stop ha m l
    · rfl

/-- The text of a decimal number: the digits, a point and the digits after it without trailing zeros. -/
theorem trim_point {D P : List Char} (hD : ∀ c ∈ D, isDigit c = true) (hD0 : D ≠ []) (hP : ∀ c ∈ P, isDigit c = true) (S : List Char) :
    trimRight (trimRight (S ++ (D ++ '.' :: P)) ['0']) ['.'] =
      S ++ (D ++ (if trimRight P ['0'] = [] then [] else '.' :: trimRight P ['0'])) := by
  have h1 : trimRight (S ++ (D ++ '.' :: P)) ['0'] = S ++ (D ++ '.' :: trimRight P ['0']) := by
    unfold trimRight
    simp only [List.reverse_append, List.reverse_cons, List.append_assoc, List.cons_append, List.nil_append]
    rw [dropWhile_append_stop (by decide)]
    simp
  have hQ : ∀ c ∈ trimRight P ['0'], isDigit c = true := by
    intro c hc
    obtain ⟨j, hj⟩ := trimRight_zeros P
    exact hP c (by rw [hj]; simp [hc])
  have hnd : ∀ c, isDigit c = true → decide (c ∈ ['.']) = false := by
    intro c hc
    apply decide_eq_false
    rintro h
    simp only [List.mem_singleton] at h
    subst h
    revert hc
    decide
  rw [h1]
  generalize trimRight P ['0'] = Q at hQ
  have hlast : ∀ (X Y : List Char), Y ≠ [] → (∀ c ∈ Y, isDigit c = true) → trimRight (X ++ Y) ['.'] = X ++ Y := by
    intro X Y h0 h
    unfold trimRight
    have h0' : Y.reverse ≠ [] := by simpa using h0
    have h' : ∀ c ∈ Y.reverse, isDigit c = true := fun c hc => h c (by simpa using hc)
    rw [List.reverse_append]
    obtain ⟨c, r, e⟩ := List.exists_cons_of_ne_nil h0'
    rw [e] at h' ⊢
    rw [List.cons_append, List.dropWhile_cons, hnd c (h' c (by simp)), if_neg (by decide), ← List.cons_append, ← e]
    simp
  cases Q with
  | nil =>
    rw [if_pos rfl]
    have e : trimRight (S ++ (D ++ ['.'])) ['.'] = trimRight (S ++ D) ['.'] := by
      unfold trimRight
      simp
    rw [e, hlast S D hD0 hD, List.append_nil]
  | cons q Q =>
    rw [if_neg (by simp)]
    have := hlast (S ++ (D ++ ['.'])) (q :: Q) (by simp) hQ
    simpa using this

/-- The digits after the point that NUMERIC and BIGNUMERIC texts have at most. -/
def places (big : Bool) : Nat := if big then 38 else 9

theorem numText_eq (r : Rat) (big : Bool) : numText r big =
    (if r.num < 0 then ['-'] else []) ++ (decNat (units (places big) r / 10 ^ places big) ++
      (if trimRight (padDigits (places big) (units (places big) r % 10 ^ places big)) ['0'] = [] then []
        else '.' :: trimRight (padDigits (places big) (units (places big) r % 10 ^ places big)) ['0'])) := by
  unfold numText floatString
  exact trim_point (fun c hc => (isDigit_iff c).2 (decNat_digits _ c hc)) (decNat_ne_nil _)
    (fun c hc => (isDigit_iff c).2 (padDigits_digits _ _ c hc)) _

theorem digitsVal_shift (a v : Nat) : ∀ (b : Nat) (s : List Char), digitsVal b s = some v →
    digitsVal (a + b) s = some (a * 10 ^ s.length + v)
  | b, [], h => by simp only [digitsVal, Option.some.injEq] at h ⊢; simp [h]
  | b, c :: s, h => by
    simp only [digitsVal] at h ⊢
    cases hd : digitVal c with
    | none => rw [hd] at h; cases h
    | some d =>
      rw [hd] at h
      simp only at h ⊢
      have := digitsVal_shift (a * 10) v (b * 10 + d) s h
      rw [show (a + b) * 10 + d = a * 10 + (b * 10 + d) by omega, this, List.length_cons, Nat.pow_succ, Nat.mul_assoc,
        Nat.mul_comm 10]

theorem decimalDigits_text (p n : Nat) :
    decimalDigits (decNat (n / 10 ^ p) ++ (if trimRight (padDigits p (n % 10 ^ p)) ['0'] = [] then []
        else '.' :: trimRight (padDigits p (n % 10 ^ p)) ['0'])) = some (mkRat n (10 ^ p)) := by
  have hD : ∀ c ∈ decNat (n / 10 ^ p), isDigit c = true := fun c hc => (isDigit_iff c).2 (decNat_digits _ c hc)
  obtain ⟨j, hj⟩ := trimRight_zeros (padDigits p (n % 10 ^ p))
  have hlen := congrArg List.length hj
  have hval := congrArg (digitsVal 0) hj
  rw [padDigits_length, List.length_append, List.length_replicate] at hlen
  rw [digitsVal_padDigits, digitsVal_append, Nat.mod_eq_of_lt (Nat.mod_lt _ (Nat.pow_pos (by omega)))] at hval
  have hQ : ∀ c ∈ trimRight (padDigits p (n % 10 ^ p)) ['0'], isDigit c = true := by
    intro c hc
    exact (isDigit_iff c).2 (padDigits_digits p (n % 10 ^ p) c (by rw [hj]; simp [hc]))
  generalize trimRight (padDigits p (n % 10 ^ p)) ['0'] = Q at *
  cases hv : digitsVal 0 Q with
  | none => rw [hv] at hval; cases hval
  | some v =>
    rw [hv, Option.bind_some, digitsVal_zeros] at hval
    have hval : n % 10 ^ p = v * 10 ^ j := by simpa using hval
    have hdm := Nat.div_add_mod n (10 ^ p)
    split
    · rename_i h0
      subst h0
      simp only [digitsVal, Option.some.injEq] at hv
      subst hv
      rw [List.append_nil]
      unfold decimalDigits
      rw [dropWhile_all hD, takeWhile_all hD]
      simp only [parseNat_decNat, Option.map_some, Option.some.injEq]
      have e : (n : Int) = ((n / 10 ^ p : Nat) : Int) * ((10 ^ p : Nat) : Int) := by
        rw [← Int.natCast_mul, Nat.mul_comm]
        congr 1
        omega
      have h1 := Rat.mkRat_mul_right (n := ((n / 10 ^ p : Nat) : Int)) (d := 1) (Nat.pos_iff_ne_zero.1 (Nat.pow_pos (n := p) (show 0 < 10 by omega)))
      rw [Nat.one_mul, ← e, Rat.mkRat_one] at h1
      exact h1.symm
    · unfold decimalDigits
      have hp : isDigit '.' = false := by decide
      have hd0 : (decNat (n / 10 ^ p)).dropWhile isDigit = [] := dropWhile_all hD
      rw [dropWhile_append_stop hp, hd0, (takeWhile_stop hD hp).1]
      have hall : Q.all isDigit = true := List.all_eq_true.2 hQ
      have hpn : parseNat (decNat (n / 10 ^ p) ++ Q) = some (n / 10 ^ p * 10 ^ Q.length + v) := by
        unfold parseNat
        rw [if_neg (by simp [decNat_ne_nil]), digitsVal_append, digitsVal_decNat, Option.bind_some]
        have := digitsVal_shift (n / 10 ^ p) v 0 Q hv
        rw [Nat.add_zero] at this
        exact this
      simp only [List.nil_append, hall, and_self, if_true, hpn, Option.map_some, Option.some.injEq]
      have e : (n / 10 ^ p * 10 ^ Q.length + v) * 10 ^ j = n := by
        rw [Nat.add_mul, Nat.mul_assoc, ← Nat.pow_add, ← hlen, ← hval, Nat.mul_comm]
        exact hdm
      have h1 := Rat.mkRat_mul_right (n := ((n / 10 ^ p * 10 ^ Q.length + v : Nat) : Int)) (d := 10 ^ Q.length) (Nat.pos_iff_ne_zero.1 (Nat.pow_pos (n := j) (show 0 < 10 by omega)))
      rw [← Int.natCast_mul, e, ← Nat.pow_add, ← hlen] at h1
      exact h1.symm

/-- The text of a number is the decimal it is read as. -/
theorem decimal_numText (r : Rat) (big : Bool) :
    decimal (numText r big) = some (mkRat (if r.num < 0 then -(units (places big) r : Int) else units (places big) r) (10 ^ places big)) := by
  rw [numText_eq]
  have h := decimalDigits_text (places big) (units (places big) r)
  split
  · simp only [List.cons_append, List.nil_append, decimal, if_true]
    rw [h, Option.map_some, Rat.neg_mkRat]
  · obtain ⟨c, cs, e, h1, h2⟩ := decNat_head (units (places big) r / 10 ^ places big)
    rw [List.nil_append]
    rw [e, List.cons_append] at h ⊢
    rw [decimal, if_neg h1, if_neg h2, h]

/-- A number with at most `p` digits after the point is a whole number of units. -/
theorem units_exact (p : Nat) (n : Int) : units p (mkRat n (10 ^ p)) = n.natAbs := by
  have hp : 0 < 10 ^ p := Nat.pow_pos (by omega)
  have h : (mkRat n (10 ^ p)).num * ((10 ^ p : Nat) : Int) = n * ((mkRat n (10 ^ p)).den : Int) := by
    have := (Rat.mkRat_eq_iff (Rat.den_nz (mkRat n (10 ^ p))) (by omega : (10 ^ p : Nat) ≠ 0)).1 (Rat.mkRat_self (mkRat n (10 ^ p)))
    exact this
  have hd := Nat.pos_of_ne_zero (Rat.den_nz (mkRat n (10 ^ p)))
  unfold units
  generalize (mkRat n (10 ^ p)).den = d at *
  generalize (mkRat n (10 ^ p)).num = a at *
  have h' : a.natAbs * 10 ^ p = n.natAbs * d := by
    have := congrArg Int.natAbs h
    rwa [Int.natAbs_mul, Int.natAbs_mul, Int.natAbs_natCast, Int.natAbs_natCast] at this
  rw [Nat.mul_assoc, h']
  have e : 2 * (n.natAbs * d) + d = d + 2 * d * n.natAbs := by
    rw [Nat.mul_comm n.natAbs d, Nat.mul_assoc, Nat.add_comm]
  rw [e, Nat.add_mul_div_left _ _ (by omega), Nat.div_eq_of_lt (by omega), Nat.zero_add]

theorem sign_mkRat (p : Nat) (n : Int) : (mkRat n (10 ^ p)).num < 0 ↔ n < 0 := by
  have hp : 0 < 10 ^ p := Nat.pow_pos (by omega)
  have h : (mkRat n (10 ^ p)).num * ((10 ^ p : Nat) : Int) = n * ((mkRat n (10 ^ p)).den : Int) := by
    have := (Rat.mkRat_eq_iff (Rat.den_nz (mkRat n (10 ^ p))) (by omega : (10 ^ p : Nat) ≠ 0)).1 (Rat.mkRat_self (mkRat n (10 ^ p)))
    exact this
  have hd := Nat.pos_of_ne_zero (Rat.den_nz (mkRat n (10 ^ p)))
  generalize (mkRat n (10 ^ p)).den = d at *
  generalize (mkRat n (10 ^ p)).num = a at *
  have hp' : (0 : Int) < ((10 ^ p : Nat) : Int) := by exact_mod_cast hp
  have hd' : (0 : Int) < (d : Int) := by exact_mod_cast hd
  constructor
  · intro ha
    have := Int.mul_neg_of_neg_of_pos ha hp'
    rw [h] at this
    by_cases hn : n < 0
    · exact hn
    · have := Int.mul_nonneg (by omega : 0 ≤ n) (by omega : 0 ≤ (d : Int))
      omega
  · intro hn
    have := Int.mul_neg_of_neg_of_pos hn hd'
    rw [← h] at this
    by_cases ha : a < 0
    · exact ha
    · have := Int.mul_nonneg (by omega : 0 ≤ a) (by omega : 0 ≤ ((10 ^ p : Nat) : Int))
      omega

theorem dropWhile_pass {p : Char → Bool} : ∀ (a b : List Char), (∀ c ∈ a, p c = true) → (a ++ b).dropWhile p = b.dropWhile p
  | [], _, _ => rfl
  | c :: a, b, h => by
    rw [List.cons_append, List.dropWhile_cons, if_pos (h c (by simp))]
    exact dropWhile_pass a b (fun d hd => h d (by simp [hd]))

theorem dropWhile_length {p : Char → Bool} : ∀ (a : List Char), (a.dropWhile p).length ≤ a.length
  | [] => Nat.le_refl _
  | c :: a => by
    rw [List.dropWhile_cons]
    have := dropWhile_length (p := p) a
    split <;> simp only [List.length_cons] <;> omega

/-- A number's text has few digits after the point. -/
theorem numText_short (r : Rat) (big : Bool) : ((numText r big).dropWhile fun c => decide (c ≠ '.')).length ≤ 1000001 := by
  have hd : ∀ c, isDigit c = true → decide (c ≠ '.') = true := by
    rintro c hc
    apply decide_eq_true
    rintro rfl
    revert hc
    decide
  rw [numText_eq, dropWhile_pass, dropWhile_pass]
  · refine Nat.le_trans (dropWhile_length _) ?_
    obtain ⟨j, hj⟩ := trimRight_zeros (padDigits (places big) (units (places big) r % 10 ^ places big))
    have hlen := congrArg List.length hj
    rw [padDigits_length, List.length_append] at hlen
    have : places big ≤ 38 := by unfold places; split <;> omega
    split
    · simp
    · rw [List.length_cons]; omega
  · exact fun c hc => hd c ((isDigit_iff c).2 (decNat_digits _ c hc))
  · split <;> simp

theorem setString_numText (other : List Char → Rat) (n : Int) (big : Bool) :
    setString other (numText (mkRat n (10 ^ places big)) big) = mkRat n (10 ^ places big) := by
  unfold setString
  rw [if_pos (numText_short _ _), decimal_numText, units_exact]
  simp only [sign_mkRat, Option.getD_some]
  congr 1
  split <;> omega

end Verif.Cast
