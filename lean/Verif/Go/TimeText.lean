import Verif.Go.Time
import Verif.Go.Strconv
import Verif.Go.Strings

/-!
# time.Time.Format and time.Parse

Part of the trusted model of Go: the layouts `2006-01-02`, `15:04:05.999999` and their combinations.
A parser takes a text and gives the value read and the rest of the text.
-/

namespace Verif.Go

/-- The last `w` decimal digits of `n`. -/
def padDigits : Nat → Nat → List Char
  | 0, _ => []
  | w + 1, n => padDigits w (n / 10) ++ [digitChar (n % 10)]

/-- time.appendInt of a number that is not negative: at least `w` digits. -/
def pad (w n : Nat) : List Char := if n < 10 ^ w then padDigits w n else decNat n

/-- time.appendInt -/
def padInt (w : Nat) (n : Int) : List Char := if n < 0 then '-' :: pad w n.natAbs else pad w n.natAbs

/-- Format("2006-01-02") -/
def dateText (t : Int) : List Char :=
  padInt 4 (yearOf (tDay t)) ++ '-' :: (pad 2 (monthOf (tDay t)).toNat ++ '-' :: pad 2 (dayOf (tDay t)).toNat)

/-- The fraction of a second of the layouts `.999999` (`w` is 6) and `.999999999` (9): the trailing zeros are dropped. -/
def fracText (w : Nat) (t : Int) : List Char :=
  match trimRight (padDigits w ((tNano t).toNat / 10 ^ (9 - w))) ['0'] with
  | [] => []
  | ds => '.' :: ds

/-- Format("15:04:05.999999") (or nine digits) -/
def clockText (w : Nat) (t : Int) : List Char :=
  pad 2 (tHour t).toNat ++ ':' :: (pad 2 (tMinute t).toNat ++ ':' :: (pad 2 (tSecond t).toNat ++ fracText w t))

/-- Exactly `k` digits. -/
def takeDigits (k : Nat) (s : List Char) : Option (Nat × List Char) :=
  if s.length < k then none else (digitsVal 0 (s.take k)).map fun n => (n, s.drop k)

/-- A fixed character. -/
def takeChar (c : Char) : List Char → Option (List Char)
  | [] => none
  | d :: s => if d = c then some s else none

/-- The part of time.Parse for `2006-01-02`: year, month and day.  The day is checked against the month. -/
def parseDatePart (s : List Char) : Option (Int × Int × Int × List Char) :=
  match takeDigits 4 s with
  | none => none
  | some (y, s) => match takeChar '-' s with
    | none => none
    | some s => match takeDigits 2 s with
      | none => none
      | some (m, s) => match takeChar '-' s with
        | none => none
        | some s => match takeDigits 2 s with
          | none => none
          | some (d, s) =>
            if 1 ≤ m ∧ m ≤ 12 ∧ 1 ≤ d ∧ (d : Int) ≤ monthLen y m then some (y, m, d, s) else none

/-- The hour `15`: one or two digits. -/
def takeHour (s : List Char) : Option (Nat × List Char) :=
  match takeDigits 2 s with
  | some r => some r
  | none => takeDigits 1 s

/-- The fraction of a second: any number of digits after a point or a comma, the first nine count; nothing otherwise. -/
def takeFrac (s : List Char) : Nat × List Char :=
  match s with
  | [] => (0, s)
  | c :: r =>
    let ds := r.takeWhile fun c => decide (48 ≤ c.toNat ∧ c.toNat ≤ 57)
    if (c = '.' ∨ c = ',') ∧ ds ≠ [] then
      ((digitsVal 0 (ds.take 9)).getD 0 * 10 ^ (9 - ds.length), r.drop ds.length)
    else (0, s)

/-- The part of time.Parse for `15:04:05.999999`: the nanoseconds since midnight. -/
def parseClockPart (s : List Char) : Option (Int × List Char) :=
  match takeHour s with
  | none => none
  | some (h, s) => match takeChar ':' s with
    | none => none
    | some s => match takeDigits 2 s with
      | none => none
      | some (mi, s) => match takeChar ':' s with
        | none => none
        | some s => match takeDigits 2 s with
          | none => none
          | some (se, s) =>
            if h < 24 ∧ mi < 60 ∧ se < 60 then
              some (h * hour + mi * minute + se * sec + (takeFrac s).1, (takeFrac s).2)
            else none

/-- time.Parse("2006-01-02", s) -/
def parseDate (s : List Char) : Option Int :=
  match parseDatePart s with
  | some (y, m, d, []) => some (tDate y m d 0 0 0 0)
  | _ => none

/-- time.Parse("2006-01-02T15:04:05.999999", s), `sep` being the character between the two halves. -/
def parseDatetime (sep : Char) (s : List Char) : Option Int :=
  match parseDatePart s with
  | some (y, m, d, s) => match takeChar sep s with
    | some s => match parseClockPart s with
      | some (k, []) => some (tDate y m d 0 0 0 0 + k)
      | _ => none
    | none => none
  | none => none

/-- time.Parse("15:04:05.999999", s): year 0, January 1. -/
def parseClock (s : List Char) : Option Int :=
  match parseClockPart s with
  | some (k, []) => some (tDate 0 1 1 0 0 0 0 + k)
  | _ => none

/-! ### Reading what was written -/

theorem padDigits_length (w n : Nat) : (padDigits w n).length = w := by
  induction w generalizing n with
  | zero => rfl
  | succ w ih => simp [padDigits, ih]

theorem padDigits_digits (w n : Nat) : ∀ c ∈ padDigits w n, 48 ≤ c.toNat ∧ c.toNat ≤ 57 := by
  induction w generalizing n with
  | zero => intro c hc; simp [padDigits] at hc
  | succ w ih =>
    intro c hc
    rw [padDigits, List.mem_append] at hc
    rcases hc with hc | hc
    · exact ih _ c hc
    · simp at hc; subst hc; rw [digitChar_toNat (by omega)]; omega

theorem digitsVal_padDigits (w n : Nat) : digitsVal 0 (padDigits w n) = some (n % 10 ^ w) := by
  induction w generalizing n with
  | zero => simp [padDigits, digitsVal, Nat.mod_one]
  | succ w ih =>
    rw [padDigits, digitsVal_append, ih]
    simp only [Option.bind_some, digitsVal, digitVal_digitChar (Nat.mod_lt n (by omega : 0 < 10))]
    congr 1
    rw [Nat.pow_succ, Nat.mul_comm (10 ^ w) 10, Nat.mod_mul]
    omega

theorem takeDigits_pad {w n : Nat} (h : n < 10 ^ w) (rest : List Char) : takeDigits w (pad w n ++ rest) = some (n, rest) := by
  unfold takeDigits pad
  rw [if_pos h]
  have hl := padDigits_length w n
  rw [if_neg (by rw [List.length_append, hl]; omega)]
  rw [List.take_append_of_le_length (by omega), List.take_of_length_le (by omega), digitsVal_padDigits, Nat.mod_eq_of_lt h]
  simp [List.drop_append, hl]

theorem takeChar_cons (c : Char) (s : List Char) : takeChar c (c :: s) = some s := by simp [takeChar]

/-- Reading a date gives year, month and day back. -/
theorem parseDatePart_text (t : Int) (rest : List Char) (h0 : 0 ≤ yearOf (tDay t)) (h1 : yearOf (tDay t) ≤ 9999) :
    parseDatePart (dateText t ++ rest) = some (yearOf (tDay t), monthOf (tDay t), dayOf (tDay t), rest) := by
  obtain ⟨m1, m12, d1, dl⟩ := civil_valid (tDay t)
  have hl := (monthLen_bound (yearOf (tDay t)) m1 m12).2
  unfold dateText
  obtain ⟨y, hy⟩ := Int.eq_ofNat_of_zero_le h0
  obtain ⟨m, hm⟩ := Int.eq_ofNat_of_zero_le (show 0 ≤ monthOf (tDay t) by omega)
  obtain ⟨d, hd⟩ := Int.eq_ofNat_of_zero_le (show 0 ≤ dayOf (tDay t) by omega)
  rw [hy, hm, hd] at dl
  rw [hy, hm] at hl
  rw [hm] at m1 m12
  rw [hd] at d1
  rw [hy] at h0 h1
  rw [hy, hm, hd]
  simp only [padInt, if_neg (show ¬ (y : Int) < 0 by omega), Int.natAbs_natCast, Int.toNat_natCast, List.append_assoc,
    List.cons_append, parseDatePart]
  rw [takeDigits_pad (by omega)]
  simp only [takeChar_cons]
  rw [takeDigits_pad (by omega)]
  simp only [takeChar_cons]
  rw [takeDigits_pad (by omega)]
  simp only
  rw [if_pos (by omega)]

theorem digitsVal_zeros (a j : Nat) : digitsVal a (List.replicate j '0') = some (a * 10 ^ j) := by
  induction j generalizing a with
  | zero => simp [digitsVal]
  | succ j ih =>
    rw [List.replicate_succ, digitsVal]
    rw [show digitVal '0' = some 0 from by decide]
    simp only [Nat.add_zero]
    rw [ih, Nat.pow_succ]
    congr 1
    rw [Nat.mul_assoc, Nat.mul_comm 10]

theorem dropWhile_replicate (s : List Char) : ∃ j, s = List.replicate j '0' ++ s.dropWhile fun c => decide (c ∈ ['0']) := by
  induction s with
  | nil => exact ⟨0, rfl⟩
  | cons c s ih =>
    by_cases hc : c = '0'
    · subst hc
      obtain ⟨j, hj⟩ := ih
      refine ⟨j + 1, ?_⟩
      rw [List.dropWhile_cons_of_pos (by simp), List.replicate_succ, List.cons_append, ← hj]
    · exact ⟨0, by rw [List.dropWhile_cons_of_neg (by simpa using hc)]; rfl⟩

theorem trimRight_zeros (s : List Char) : ∃ j, s = trimRight s ['0'] ++ List.replicate j '0' := by
  obtain ⟨j, hj⟩ := dropWhile_replicate s.reverse
  refine ⟨j, ?_⟩
  unfold trimRight
  have := congrArg List.reverse hj
  rw [List.reverse_reverse, List.reverse_append, List.reverse_replicate] at this
  exact this

/-- Reading the fraction of a second gives the digits written. -/
theorem takeFrac_text {w : Nat} (hw : w ≤ 9) (t : Int) (rest : List Char) (hr : ∀ c, rest.head? = some c → ¬ (48 ≤ c.toNat ∧ c.toNat ≤ 57) ∧ c ≠ '.' ∧ c ≠ ',') :
    takeFrac (fracText w t ++ rest) = ((tNano t).toNat / 10 ^ (9 - w) * 10 ^ (9 - w), rest) := by
  obtain ⟨j, hj⟩ := trimRight_zeros (padDigits w ((tNano t).toNat / 10 ^ (9 - w)))
  have hlt : (tNano t).toNat / 10 ^ (9 - w) < 10 ^ w := by
    apply Nat.div_lt_of_lt_mul
    rw [← Nat.pow_add, show 9 - w + w = 9 by omega]
    unfold tNano tod sec; omega
  have hval := digitsVal_padDigits w ((tNano t).toNat / 10 ^ (9 - w))
  rw [Nat.mod_eq_of_lt hlt] at hval
  have hlen := padDigits_length w ((tNano t).toNat / 10 ^ (9 - w))
  have hdig := padDigits_digits w ((tNano t).toNat / 10 ^ (9 - w))
  unfold fracText
  generalize (tNano t).toNat / 10 ^ (9 - w) = v at *
  rw [hj, digitsVal_append] at hval
  rw [hj, List.length_append, List.length_replicate] at hlen
  cases hd : trimRight (padDigits w v) ['0'] with
  | nil =>
    rw [hd] at hval
    simp only [digitsVal, Option.bind_some, digitsVal_zeros, Nat.zero_mul, Option.some.injEq] at hval
    subst hval
    simp only [List.nil_append, Nat.zero_mul]
    cases rest with
    | nil => rfl
    | cons c r =>
      obtain ⟨-, h2, h3⟩ := hr c rfl
      simp only [takeFrac]
      rw [if_neg (by rintro ⟨h | h, -⟩ <;> contradiction)]
  | cons x ds =>
    have hdg : ∀ c ∈ x :: ds, (fun c : Char => decide (48 ≤ c.toNat ∧ c.toNat ≤ 57)) c = true := by
      intro c hc
      have := hdig c (by rw [hj, hd]; simp at hc ⊢; rcases hc with h | h <;> simp [h])
      simp [this]
    have htw : ((x :: ds) ++ rest).takeWhile (fun c : Char => decide (48 ≤ c.toNat ∧ c.toNat ≤ 57)) = x :: ds := by
      rw [List.takeWhile_append_of_pos hdg]
      cases rest with
      | nil => simp
      | cons c r => rw [List.takeWhile_cons_of_neg (by simpa using (hr c rfl).1)]; simp
    rw [hd] at hval hlen
    simp only [List.cons_append] at htw ⊢
    simp only [takeFrac, htw]
    rw [if_pos ⟨Or.inl trivial, by simp⟩]
    have hle : (x :: ds).length ≤ 9 := by omega
    rw [List.take_of_length_le hle]
    cases hv : digitsVal 0 (x :: ds) with
    | none => rw [hv] at hval; simp at hval
    | some u =>
      rw [hv] at hval
      simp only [Option.bind_some, digitsVal_zeros, Option.some.injEq] at hval
      rw [Option.getD_some, ← hval, Nat.mul_assoc, ← Nat.pow_add]
      congr 1
      · congr 2; omega
      · simp

/-- Reading a time of day gives it back, cut to `w` digits of the second. -/
theorem parseClockPart_text {w : Nat} (hw : w ≤ 9) (t : Int) (rest : List Char) (hr : ∀ c, rest.head? = some c → ¬ (48 ≤ c.toNat ∧ c.toNat ≤ 57) ∧ c ≠ '.' ∧ c ≠ ',') :
    parseClockPart (clockText w t ++ rest) = some (tod t - tNano t % 10 ^ (9 - w), rest) := by
  have hf := tFields t
  have hb : 0 ≤ tHour t ∧ tHour t < 24 ∧ 0 ≤ tMinute t ∧ tMinute t < 60 ∧ 0 ≤ tSecond t ∧ tSecond t < 60 ∧ 0 ≤ tNano t := by
    unfold tHour tMinute tSecond tNano tod hour minute sec dayNs; omega
  have htf := takeFrac_text hw t rest hr
  unfold clockText
  obtain ⟨h, hh⟩ := Int.eq_ofNat_of_zero_le (show 0 ≤ tHour t by omega)
  obtain ⟨m, hm⟩ := Int.eq_ofNat_of_zero_le (show 0 ≤ tMinute t by omega)
  obtain ⟨s, hs⟩ := Int.eq_ofNat_of_zero_le (show 0 ≤ tSecond t by omega)
  obtain ⟨n, hn⟩ := Int.eq_ofNat_of_zero_le (show 0 ≤ tNano t by omega)
  rw [hh, hm, hs, hn] at hf hb
  rw [hn] at htf
  rw [hh, hm, hs, hn]
  simp only [Int.toNat_natCast, List.append_assoc, List.cons_append, parseClockPart, takeHour] at *
  rw [takeDigits_pad (by omega)]
  simp only [takeChar_cons]
  rw [takeDigits_pad (by omega)]
  simp only [takeChar_cons]
  rw [takeDigits_pad (by omega)]
  simp only
  rw [if_pos (by omega), htf]
  have : ((n / 10 ^ (9 - w) * 10 ^ (9 - w) : Nat) : Int) = n - (n : Int) % 10 ^ (9 - w) := by
    have h1 := Nat.div_add_mod n (10 ^ (9 - w))
    rw [Nat.mul_comm] at h1
    have h2 : ((n % 10 ^ (9 - w) : Nat) : Int) = (n : Int) % 10 ^ (9 - w) := by simp
    omega
  simp only [this]
  congr 2
  omega

/-- time.Parse undoes Format on dates of the years 0 to 9999. -/
theorem parseDate_text (t : Int) (h0 : 0 ≤ yearOf (tDay t)) (h1 : yearOf (tDay t) ≤ 9999) :
    parseDate (dateText t) = some (t - tod t) := by
  have := parseDatePart_text t [] h0 h1
  rw [List.append_nil] at this
  unfold parseDate
  rw [this]
  simp only [tDate, daysOf_civil]
  have := tDay_tod t
  congr 1; omega

theorem parseDatetime_text {w : Nat} (hw : w ≤ 9) (sep : Char) (t : Int) (h0 : 0 ≤ yearOf (tDay t)) (h1 : yearOf (tDay t) ≤ 9999) :
    parseDatetime sep (dateText t ++ sep :: clockText w t) = some (t - tNano t % 10 ^ (9 - w)) := by
  unfold parseDatetime
  rw [parseDatePart_text t _ h0 h1]
  simp only [takeChar_cons]
  have := parseClockPart_text hw t [] (by simp)
  rw [List.append_nil] at this
  rw [this]
  simp only [tDate, daysOf_civil]
  have := tDay_tod t
  congr 1; omega

theorem parseClock_text {w : Nat} (hw : w ≤ 9) (t : Int) :
    parseClock (clockText w t) = some (tDate 0 1 1 0 0 0 0 + (tod t - tNano t % 10 ^ (9 - w))) := by
  unfold parseClock
  have := parseClockPart_text hw t [] (by simp)
  rw [List.append_nil] at this
  rw [this]

example : dateText 0 = "1970-01-01".toList := by decide
example : clockText 6 (hour * 13 + 5 * sec + 120000000) = "13:00:05.12".toList := by decide
example : parseDatetime 'T' "1970-01-01T00:00:01.5".toList = some 1500000000 := by decide
example : parseDate "1970-02-29".toList = none := by decide

end Verif.Go
