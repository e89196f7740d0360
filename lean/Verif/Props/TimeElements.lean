import Verif.Props.TimeFormat

/-!
# The elements of time formats: C115–C119
-/

namespace Verif.TimeFormat

open Go Verif.Val

/-! ### C115: one after the other -/

/-- The units of a format: characters that stand for themselves, elements of one letter and combinations with E. -/
inductive Unit' where
  | lit (c : Char)
  | el (c : Char)
  | comb (m : List Char)

@[inherit_doc Unit'] def Unit'.text : Unit' → List Char
  | .lit c => [c]
  | .el c => ['%', c]
  | .comb m => '%' :: 'E' :: m

@[inherit_doc Unit'] def Unit'.Ok : Unit' → Prop
  | .lit c => c ≠ '%'
  | .el c => c ≠ 'E' ∧ kinds c ≠ none
  | .comb m => ∃ c, ∀ g, combo (m ++ g) = some (c, g)

/-- `a`, then `b`. -/
def andThen (a b : Res (List Char)) : Res (List Char) := a.bind fun s => b.bind fun s' => .ok (s ++ s')

/-- C115: the text of a format is the text of its first unit and the text of the rest. -/
def C115_full : Prop := ∀ (zone : List Char) (k : TimeKind) (t : T) (u : Unit') (f s : List Char), u.Ok → format zone k t f = .ok s →
  format zone k t (u.text ++ f) = andThen (format zone k t u.text) (.ok s)

theorem combo_ok {m : List Char} {c : Combo} (h : ∀ g, combo (m ++ g) = some (c, g)) : combo m = some (c, []) := by
  have := h []
  rwa [List.append_nil] at this

/-- C115, partial: all but the combinations, and these at the end.  Missing: the character after a combination is lost. -/
theorem C115_partial (zone : List Char) (k : TimeKind) (t : T) (f s : List Char) (hf : format zone k t f = .ok s) :
    (∀ c, (Unit'.lit c).Ok → format zone k t ((Unit'.lit c).text ++ f) = .ok (c :: s)) ∧
    (∀ c, (Unit'.el c).Ok → format zone k t ((Unit'.el c).text ++ f) = andThen (format zone k t (Unit'.el c).text) (.ok s)) ∧
    (∀ m, (Unit'.comb m).Ok → f = [] → format zone k t ((Unit'.comb m).text ++ f) = andThen (format zone k t (Unit'.comb m).text) (.ok s)) ∧
    (∀ m d, (Unit'.comb m).Ok → format zone k t ((Unit'.comb m).text ++ d :: f) = andThen (format zone k t (Unit'.comb m).text) (.ok s)) := by
  refine ⟨?_, ?_, ?_, ?_⟩
  · intro c hc
    show format zone k t (c :: f) = _
    rw [format_lit zone k t hc, hf]
    rfl
  · intro c ⟨h1, h2⟩
    show format zone k t ('%' :: c :: f) = andThen (format zone k t ['%', c]) _
    cases e : kinds c with
    | none => exact absurd e h2
    | some ks =>
      by_cases hk : k ∈ ks
      · rw [format_elem zone k t h1 e hk, format_elem zone k t h1 e hk, format_nil, hf]
        unfold andThen
        cases formatElem zone t c <;> simp [Res.bind]
      · have : ∀ g, format zone k t ('%' :: c :: g) = .err := by
          intro g
          rw [format, if_pos rfl]
          simp only [if_neg h1]
          rw [e]
          simp only [if_neg hk]
        rw [this, this]
        rfl
  · intro m ⟨c, hc⟩ hnil
    subst hnil
    rw [List.append_nil]
    have : s = [] := by rw [format_nil] at hf; injection hf with hf; exact hf.symm
    subst this
    cases format zone k t (Unit'.comb m).text <;> simp [andThen, Res.bind]
  · intro m d ⟨c, hc⟩
    show format zone k t ('%' :: 'E' :: (m ++ d :: f)) = andThen (format zone k t ('%' :: 'E' :: m)) _
    by_cases hk : k ∈ c.kinds
    · rw [format_combo zone k t (hc (d :: f)) hk, format_combo zone k t (combo_ok hc) hk]
      show (format zone k t f).bind _ = andThen ((format zone k t []).bind _) _
      rw [hf, format_nil]
      simp [andThen, Res.bind]
    · have : ∀ g g', combo g = some (c, g') → format zone k t ('%' :: 'E' :: g) = .err := by
        intro g g' e
        rw [format, if_pos rfl]
        simp only [if_true]
        split
        · rfl
        · rename_i m' g'' h
          rw [e] at h
          injection h with h
          injection h with e1 e2
          subst e1
          rw [if_neg hk]
      rw [this _ _ (hc (d :: f)), this _ _ (combo_ok hc)]
      rfl

theorem comb_ok (p : Char) (h : p ∈ ['1', '2', '3', '4', '5', '6', '*']) : (Unit'.comb [p, 'S']).Ok := by
  simp only [List.mem_cons, List.not_mem_nil, or_false] at h
  rcases h with rfl | rfl | rfl | rfl | rfl | rfl | rfl <;> exact ⟨_, fun g => rfl⟩

/-- FORMAT_TIME("%E3S!", t) lacks the exclamation mark. -/
theorem C115_full_false : ¬ C115_full := by
  intro h
  have hs : format [] .time { wall := 0, off := 0 } ['!'] = .ok ['!'] := by rw [format_lit _ _ _ (by decide), format_nil]; rfl
  have h1 := h [] .time { wall := 0, off := 0 } (.comb ['3', 'S']) ['!'] ['!'] (comb_ok '3' (by decide)) hs
  have h2 := (C115_partial [] .time { wall := 0, off := 0 } [] [] (format_nil _ _ _)).2.2.2 ['3', 'S'] '!' (comb_ok '3' (by decide))
  have h3 := h1.symm.trans h2
  have h4 : format [] .time { wall := 0, off := 0 } (Unit'.comb ['3', 'S']).text = .ok ['0', '0', '.', '0', '0', '0'] := by
    show format _ _ _ ('%' :: 'E' :: ['3', 'S']) = _
    rw [format_combo _ _ _ (show combo ['3', 'S'] = some (.frac 3, []) from rfl) (by decide)]
    show (format _ _ _ []).bind _ = _
    rw [format_nil]
    rfl
  rw [h4] at h3
  injection h3 with h3
  revert h3
  decide

/-! ### C116: the clock -/

/-- Two digits. -/
def dd (n : Nat) : List Char := [digitChar (n / 10), digitChar (n % 10)]
/-- Two places, the first one a space if it would be zero. -/
def sd (n : Nat) : List Char := if n < 10 then [' ', digitChar n] else dd n
/-- The hour on a clock with twelve. -/
def twelve (h : Nat) : Nat := if h % 12 = 0 then 12 else h % 12

/-- What the elements of the clock show at hour `h`, minute `m`, second `s`. -/
def clockSpec (h m s : Nat) (c : Char) : Option (List Char) :=
  if c = 'H' then some (dd h) else if c = 'k' then some (sd h) else if c = 'I' then some (dd (twelve h)) else if c = 'l' then some (sd (twelve h))
  else if c = 'M' then some (dd m) else if c = 'S' then some (dd s) else if c = 'R' then some (dd h ++ ':' :: dd m)
  else if c ∈ ['T', 'X'] then some (dd h ++ ':' :: (dd m ++ ':' :: dd s))
  else if c = 'p' then some (if h < 12 then ['A', 'M'] else ['P', 'M']) else if c = 'P' then some (if h < 12 then ['a', 'm'] else ['p', 'm'])
  else none

/-- C116: the elements of the clock. -/
def C116_full : Prop := ∀ (zone : List Char) (t : T) (c : Char) (s : List Char),
  clockSpec (tHour t.wall).toNat (tMinute t.wall).toNat (tSecond t.wall).toNat c = some s → formatElem zone t c = .ok s

theorem two_dd {n : Int} (h0 : 0 ≤ n) (h1 : n < 100) : two n = dd n.toNat := by
  rw [two_eq h0 h1]
  show [digitChar (n.toNat / 10 % 10), digitChar (n.toNat % 10)] = _
  rw [Nat.mod_eq_of_lt (by omega : n.toNat / 10 < 10)]
  rfl

theorem dec_small {n : Int} (h0 : 0 ≤ n) : decInt n = decNat n.toNat := by
  unfold decInt
  rw [if_neg (by omega)]
  congr 1
  omega

theorem decNat_one {n : Nat} (h : n < 10) : decNat n = [digitChar n] := by rw [decNat_eq, if_pos h]
theorem decNat_two {n : Nat} (h0 : 10 ≤ n) (h : n < 100) : decNat n = dd n := by
  rw [decNat_eq, if_neg (by omega), decNat_one (by omega)]; rfl

theorem spaced_sd {n : Int} (h0 : 0 ≤ n) (h1 : n < 100) : spaced n = sd n.toNat := by
  unfold spaced sd
  rw [dec_small h0]
  by_cases h : n.toNat < 10
  · rw [decNat_one h, if_pos h]; rfl
  · rw [decNat_two (by omega) (by omega), if_neg h]; rfl

theorem clock_bounds (w : Int) : (0 ≤ tHour w ∧ tHour w < 24) ∧ (0 ≤ tMinute w ∧ tMinute w < 60) ∧ (0 ≤ tSecond w ∧ tSecond w < 60) :=
  have h := fieldsOf_valid w
  ⟨h.2.2.1, h.2.2.2.1, h.2.2.2.2.1⟩

theorem digitChar_inj {a b : Nat} (ha : a < 10) (hb : b < 10) (h : digitChar a = digitChar b) : a = b := by
  have h1 := digitChar_toNat ha
  have h2 := digitChar_toNat hb
  rw [h, h2] at h1
  omega

theorem dd_inj {a b : Nat} (ha : a < 100) (hb : b < 100) (h : dd a = dd b) : a = b := by
  unfold dd at h
  simp only [List.cons.injEq, and_true] at h
  have h1 := digitChar_inj (by omega) (by omega) h.1
  have h2 := digitChar_inj (by omega) (by omega) h.2
  omega

theorem digitChar_space {d : Nat} (h : d < 10) : digitChar d ≠ ' ' := by
  intro e
  have := digitChar_toNat h
  rw [e] at this
  have : (' ' : Char).toNat = 32 := rfl
  omega

theorem sd_inj {a b : Nat} (ha : a < 100) (hb : b < 100) (h : sd a = sd b) : a = b := by
  unfold sd at h
  split at h <;> split at h
  · simp only [List.cons.injEq, and_true, true_and] at h
    exact digitChar_inj (by omega) (by omega) h
  · simp only [dd, List.cons.injEq, and_true] at h
    exact absurd h.1.symm (digitChar_space (by omega))
  · simp only [dd, List.cons.injEq, and_true] at h
    exact absurd h.1 (digitChar_space (by omega))
  · exact dd_inj ha hb h

/-- C116, partial: all elements but %I and %l; these are right exactly at the hours 1 to 12, and exactly at the hours other
than 0 and 12. -/
theorem C116_partial (zone : List Char) (t : T) :
    (∀ c s, c ≠ 'I' → c ≠ 'l' → clockSpec (tHour t.wall).toNat (tMinute t.wall).toNat (tSecond t.wall).toNat c = some s → formatElem zone t c = .ok s) ∧
    (formatElem zone t 'I' = .ok (dd (twelve (tHour t.wall).toNat)) ↔ 1 ≤ tHour t.wall ∧ tHour t.wall ≤ 12) ∧
    (formatElem zone t 'l' = .ok (sd (twelve (tHour t.wall).toNat)) ↔ tHour t.wall ≠ 0 ∧ tHour t.wall ≠ 12) := by
  obtain ⟨⟨h0, h1⟩, ⟨m0, m1⟩, s0, s1⟩ := clock_bounds t.wall
  have H := two_dd h0 (by omega)
  have M := two_dd m0 (by omega)
  have S := two_dd s0 (by omega)
  have hlt : (decide ((tHour t.wall).toNat < 12)) = decide (tHour t.wall < 12) := by
    by_cases h : tHour t.wall < 12
    · rw [decide_eq_true h, decide_eq_true (by omega)]
    · rw [decide_eq_false h, decide_eq_false (by omega)]
  refine ⟨?_, ?_, ?_⟩
  · intro c s hI hl h
    unfold clockSpec at h
    split at h
    · subst c; injection h with h; subst h; exact congrArg Res.ok H
    · split at h
      · subst c; injection h with h; subst h; exact congrArg Res.ok (spaced_sd h0 (by omega))
      · split at h
        · subst c; injection h with h; subst h; exact congrArg Res.ok M
        · split at h
          · subst c; injection h with h; subst h; exact congrArg Res.ok S
          · split at h
            · subst c; injection h with h; subst h; rw [← H, ← M]; rfl
            · split at h
              · rename_i hc
                injection h with h; subst h; rw [← H, ← M, ← S]
                simp only [List.mem_cons, List.not_mem_nil, or_false] at hc
                rcases hc with rfl | rfl <;> rfl
              · split at h
                · subst c; injection h with h; subst h
                  show Res.ok (if tHour t.wall < 12 then _ else _) = _
                  by_cases h : tHour t.wall < 12
                  · rw [if_pos h, if_pos (by omega)]
                  · rw [if_neg h, if_neg (by omega)]
                · split at h
                  · subst c; injection h with h; subst h
                    show Res.ok (if tHour t.wall < 12 then _ else _) = _
                    by_cases h : tHour t.wall < 12
                    · rw [if_pos h, if_pos (by omega)]
                    · rw [if_neg h, if_neg (by omega)]
                  · cases h
  · show Res.ok (two (tHour t.wall)) = _ ↔ _
    rw [H]
    constructor
    · intro h
      injection h with h
      have := dd_inj (by omega) (by unfold twelve; split <;> omega) h
      unfold twelve at this
      split at this <;> omega
    · intro h
      congr 2
      unfold twelve
      split <;> omega
  · show Res.ok (spaced (tHour t.wall % 12)) = _ ↔ _
    rw [spaced_sd (by omega) (by omega)]
    constructor
    · intro h
      injection h with h
      have := sd_inj (by omega) (by unfold twelve; split <;> omega) h
      unfold twelve at this
      split at this <;> omega
    · intro h
      congr 2
      unfold twelve
      split <;> omega

/-- FORMAT_TIME("%I", TIME "13:00:00") is 13. -/
theorem C116_full_false : ¬ C116_full := by
  intro h
  have := (C116_partial [] { wall := 13 * hour, off := 0 }).2.1.1 (h _ _ _ _ rfl)
  revert this
  decide

example : clockSpec 13 5 9 'l' = some [' ', '1'] ∧ clockSpec 0 5 9 'I' = some ['1', '2'] ∧ clockSpec 13 5 9 'T' = some ['1', '3', ':', '0', '5', ':', '0', '9'] := by decide

/-! ### C117: the calendar -/

/-- What the elements of the calendar show for the day number `n`; `none` for other elements. -/
def calendarSpec (n : Int) (c : Char) : Option (List Char) :=
  let y := (yearOf n).toNat
  let m := (monthOf n).toNat
  let d := (dayOf n).toNat
  if c = 'm' then some (dd m) else if c = 'd' then some (dd d) else if c = 'e' then some (sd d)
  else if c = 'y' then some (dd (y % 100)) else if c = 'C' then some (dd (y / 100))
  else if c = 'F' then some (dd (y / 100) ++ (dd (y % 100) ++ '-' :: (dd m ++ '-' :: dd d)))
  else if c ∈ ['D', 'x'] then some (dd m ++ '/' :: (dd d ++ '/' :: dd (y % 100)))
  else if c = 'j' then some (digitChar ((ydayOf n + 1).toNat / 100) :: dd ((ydayOf n + 1).toNat % 100))
  else if c = 'Q' then some [digitChar ((m - 1) / 3 + 1)]
  else if c = 'u' then some [digitChar ((weekday n + 6) % 7 + 1).toNat]
  else if c = 'w' then some [digitChar (weekday n).toNat]
  else if c = 'V' then some (dd (isoWeek n).toNat)
  else none

/-- C117: the elements of the calendar, in the years 1 to 9999. -/
def C117_full : Prop := ∀ (zone : List Char) (t : T) (c : Char) (s : List Char), 1 ≤ t.year → t.year ≤ 9999 → calendarSpec (tDay t.wall) c = some s → formatElem zone t c = .ok s

theorem isoWeek_bounds (n : Int) : 1 ≤ isoWeek n ∧ isoWeek n ≤ 53 := by
  have h := ydayOf_spec (thursday n)
  have h2 := yearLen_pos (yearOf (thursday n))
  unfold isoWeek
  omega

theorem pad4_dd {y : Int} (h0 : 0 ≤ y) (h1 : y ≤ 9999) : padInt 4 y = dd (y.toNat / 100) ++ dd (y.toNat % 100) := by
  unfold padInt pad
  rw [if_neg (by omega), if_pos (by omega)]
  have e : y.natAbs = y.toNat := by omega
  rw [e]
  show [digitChar (y.toNat / 10 / 10 / 10 % 10), digitChar (y.toNat / 10 / 10 % 10), digitChar (y.toNat / 10 % 10), digitChar (y.toNat % 10)] =
    [digitChar (y.toNat / 100 / 10), digitChar (y.toNat / 100 % 10), digitChar (y.toNat % 100 / 10), digitChar (y.toNat % 100 % 10)]
  have e1 : y.toNat / 10 / 10 / 10 % 10 = y.toNat / 100 / 10 := by omega
  have e2 : y.toNat / 10 / 10 % 10 = y.toNat / 100 % 10 := by omega
  have e3 : y.toNat / 10 % 10 = y.toNat % 100 / 10 := by omega
  have e4 : y.toNat % 10 = y.toNat % 100 % 10 := by omega
  rw [e1, e2, e3, ← e4]

theorem decNat_three {n : Nat} (h0 : 100 ≤ n) (h : n < 1000) : decNat n = digitChar (n / 100) :: dd (n % 100) := by
  rw [decNat_eq, if_neg (by omega), decNat_two (by omega) (by omega)]
  show [digitChar (n / 10 / 10), digitChar (n / 10 % 10), digitChar (n % 10)] = [_, digitChar (n % 100 / 10), digitChar (n % 100 % 10)]
  have e1 : n / 10 / 10 = n / 100 := by omega
  have e2 : n / 10 % 10 = n % 100 / 10 := by omega
  have e3 : n % 10 = n % 100 % 10 := by omega
  rw [e1, e2, ← e3]

theorem decNat_4 {n : Nat} (h0 : 1000 ≤ n) (h : n < 10000) : decNat n = dd (n / 100) ++ dd (n % 100) := by
  rw [decNat_eq, if_neg (by omega), decNat_three (by omega) (by omega)]
  show [digitChar (n / 10 / 100), digitChar (n / 10 % 100 / 10), digitChar (n / 10 % 100 % 10), digitChar (n % 10)] =
    [digitChar (n / 100 / 10), digitChar (n / 100 % 10), digitChar (n % 100 / 10), digitChar (n % 100 % 10)]
  have e1 : n / 10 / 100 = n / 100 / 10 := by omega
  have e2 : n / 10 % 100 / 10 = n / 100 % 10 := by omega
  have e3 : n / 10 % 100 % 10 = n % 100 / 10 := by omega
  have e4 : n % 10 = n % 100 % 10 := by omega
  rw [e1, e2, e3, ← e4]

theorem decNat_shorter {n : Nat} (h : n < 1000) : (decNat n).length ≤ 3 ∧ (n < 100 → (decNat n).length ≤ 2) := by
  by_cases h1 : n < 10
  · rw [decNat_one h1]; simp
  · by_cases h2 : n < 100
    · rw [decNat_two (by omega) h2]; simp [dd]
    · rw [decNat_three (by omega) h]; simp [dd]; omega

/-- C117, partial: %m, %d, %F, %y are right.  %e is right exactly from the 10th on, %C, %D and %x exactly from the year 1000
on, %j exactly from the 100th day of the year on, %V exactly from the week 10 on; %u and %w show the week, not the weekday. -/
theorem C117_partial (zone : List Char) (t : T) (y1 : 1 ≤ t.year) (y2 : t.year ≤ 9999) :
    (∀ c ∈ ['m', 'd', 'F', 'y'], ∀ s, calendarSpec (tDay t.wall) c = some s → formatElem zone t c = .ok s) ∧
    (∀ s, calendarSpec (tDay t.wall) 'e' = some s → (formatElem zone t 'e' = .ok s ↔ 10 ≤ t.day)) ∧
    (∀ s, calendarSpec (tDay t.wall) 'C' = some s → (formatElem zone t 'C' = .ok s ↔ 1000 ≤ t.year)) ∧
    (∀ c ∈ ['D', 'x'], ∀ s, calendarSpec (tDay t.wall) c = some s → (formatElem zone t c = .ok s ↔ 1000 ≤ t.year)) ∧
    (∀ s, calendarSpec (tDay t.wall) 'j' = some s → (formatElem zone t 'j' = .ok s ↔ 99 ≤ ydayOf (tDay t.wall))) ∧
    (∀ s, calendarSpec (tDay t.wall) 'V' = some s → (formatElem zone t 'V' = .ok s ↔ 10 ≤ isoWeek (tDay t.wall))) ∧
    (∀ s, calendarSpec (tDay t.wall) 'u' = some s → (formatElem zone t 'u' = .ok s ↔ isoWeek (tDay t.wall) = (weekday (tDay t.wall) + 6) % 7 + 1)) ∧
    (∀ s, calendarSpec (tDay t.wall) 'w' = some s → (formatElem zone t 'w' = .ok s ↔ isoWeek (tDay t.wall) = weekday (tDay t.wall) + 1)) := by
  obtain ⟨m1, m2, d1, d2⟩ := civil_valid (tDay t.wall)
  have d3 : dayOf (tDay t.wall) ≤ 31 := by have := monthLen_bound (yearOf (tDay t.wall)) m1 m2; omega
  have yd := ydayOf_spec (tDay t.wall)
  have yl := yearLen_pos (yearOf (tDay t.wall))
  have iw := isoWeek_bounds (tDay t.wall)
  have wd : 0 ≤ weekday (tDay t.wall) ∧ weekday (tDay t.wall) < 7 := by unfold weekday; omega
  have ey : t.year = yearOf (tDay t.wall) := rfl
  have em : t.month = monthOf (tDay t.wall) := rfl
  have ed : t.day = dayOf (tDay t.wall) := rfl
  have M := two_dd (n := monthOf (tDay t.wall)) (by omega) (by omega)
  have D := two_dd (n := dayOf (tDay t.wall)) (by omega) (by omega)
  have Y := pad4_dd (y := yearOf (tDay t.wall)) (by omega) (by omega)
  refine ⟨?_, ?_, ?_, ?_, ?_, ?_, ?_, ?_⟩
  · intro c hc s h
    simp only [List.mem_cons, List.not_mem_nil, or_false] at hc
    rcases hc with rfl | rfl | rfl | rfl
    · cases h; rw [← M]; rfl
    · cases h; rw [← D]; rfl
    · cases h
      show Res.ok (padInt 4 (yearOf (tDay t.wall)) ++ '-' :: (two (monthOf (tDay t.wall)) ++ '-' :: two (dayOf (tDay t.wall)))) = _
      rw [Y, M, D, List.append_assoc]
    · cases h
      show Res.ok ((padInt 4 (yearOf (tDay t.wall))).drop ((padInt 4 (yearOf (tDay t.wall))).length - 2)) = _
      rw [Y]; rfl
  · intro s h
    cases h
    show Res.ok (two (dayOf (tDay t.wall))) = _ ↔ _
    rw [D, ed]
    unfold sd
    split
    · constructor
      · intro h
        injection h with h
        simp only [dd, List.cons.injEq] at h
        exact absurd h.1 (digitChar_space (by omega))
      · omega
    · constructor
      · omega
      · intro; rfl
  · intro s h
    cases h
    show upTo 2 (decInt (yearOf (tDay t.wall))) = _ ↔ _
    rw [dec_small (by omega), ey]
    generalize hn : (yearOf (tDay t.wall)).toNat = n
    have e : yearOf (tDay t.wall) = n := by omega
    rw [e]
    constructor
    · intro h
      unfold upTo at h
      split at h
      · injection h with h
        by_cases h1 : n < 10
        · rw [decNat_one h1] at *; simp at *
        · by_cases h2 : n < 100
          · rw [decNat_two (by omega) h2] at h
            have h : dd n = dd (n / 100) := h
            have := dd_inj h2 (by omega) h
            omega
          · by_cases h3 : n < 1000
            · rw [decNat_three (by omega) h3] at h
              have h : dd (n / 10) = dd (n / 100) := by
                rw [← h]
                show [digitChar (n / 10 / 10), digitChar (n / 10 % 10)] = [digitChar (n / 100), digitChar (n % 100 / 10)]
                rw [show n / 10 / 10 = n / 100 by omega, show n / 10 % 10 = n % 100 / 10 by omega]
              have := dd_inj (by omega) (by omega) h
              omega
            · omega
      · cases h
    · intro h
      rw [decNat_4 (by omega) (by omega)]
      rfl
  · intro c hc s h
    have hf : formatElem zone t c = (from' 2 (decInt (yearOf (tDay t.wall)))).bind fun y => .ok (two (monthOf (tDay t.wall)) ++ '/' :: (two (dayOf (tDay t.wall)) ++ '/' :: y)) := by
      simp only [List.mem_cons, List.not_mem_nil, or_false] at hc
      rcases hc with rfl | rfl <;> rfl
    have hs : s = dd (monthOf (tDay t.wall)).toNat ++ '/' :: (dd (dayOf (tDay t.wall)).toNat ++ '/' :: dd ((yearOf (tDay t.wall)).toNat % 100)) := by
      simp only [List.mem_cons, List.not_mem_nil, or_false] at hc
      rcases hc with rfl | rfl <;> (cases h; rfl)
    rw [hf, hs, M, D, dec_small (by omega), ey]
    generalize hn : (yearOf (tDay t.wall)).toNat = n
    have e : yearOf (tDay t.wall) = n := by omega
    rw [e]
    constructor
    · intro h
      unfold from' at h
      split at h
      · rw [Res.bind'_ok] at h
        injection h with h
        have h := List.append_inj_right h rfl
        simp only [List.cons.injEq, true_and] at h
        have h := List.append_inj_right h rfl
        simp only [List.cons.injEq, true_and] at h
        have hl := congrArg List.length h
        simp only [List.length_drop, dd, List.length_cons, List.length_nil] at hl
        by_cases h3 : n < 1000
        · have := decNat_shorter h3; omega
        · omega
      · cases h
    · intro h
      rw [decNat_4 (by omega) (by omega)]
      rfl
  · intro s h
    cases h
    show Res.ok (decInt (ydayOf (tDay t.wall) + 1)) = _ ↔ _
    rw [dec_small (by omega)]
    generalize hn : (ydayOf (tDay t.wall) + 1).toNat = n
    constructor
    · intro h
      injection h with h
      have hl := congrArg List.length h
      by_cases h3 : n < 100
      · have := (decNat_shorter (n := n) (by omega)).2 h3
        simp [dd] at hl
        omega
      · omega
    · intro h
      rw [decNat_three (by omega) (by omega)]
  · intro s h
    cases h
    show Res.ok (decInt (isoWeek (tDay t.wall))) = _ ↔ _
    rw [dec_small (by omega)]
    generalize hn : (isoWeek (tDay t.wall)).toNat = n
    constructor
    · intro h
      injection h with h
      by_cases h3 : n < 10
      · rw [decNat_one h3] at h; simp [dd] at h
      · omega
    · intro h
      rw [decNat_two (by omega) (by omega)]
  · intro s h
    cases h
    show Res.ok (decInt (isoWeek (tDay t.wall))) = _ ↔ _
    rw [dec_small (by omega)]
    constructor
    · intro h
      injection h with h
      by_cases h3 : (isoWeek (tDay t.wall)).toNat < 10
      · rw [decNat_one h3] at h
        simp only [List.cons.injEq, and_true] at h
        have := digitChar_inj h3 (by omega) h
        omega
      · rw [decNat_two (by omega) (by omega)] at h; simp [dd] at h
    · intro h
      rw [h, decNat_one (by omega)]
  · intro s h
    cases h
    show Res.ok (decInt (isoWeek (tDay t.wall) - 1)) = _ ↔ _
    rw [dec_small (by omega)]
    constructor
    · intro h
      injection h with h
      by_cases h3 : (isoWeek (tDay t.wall) - 1).toNat < 10
      · rw [decNat_one h3] at h
        simp only [List.cons.injEq, and_true] at h
        have := digitChar_inj h3 (by omega) h
        omega
      · rw [decNat_two (by omega) (by omega)] at h; simp [dd] at h
    · intro h
      rw [show isoWeek (tDay t.wall) - 1 = weekday (tDay t.wall) by omega, decNat_one (by omega)]

/-- FORMAT_DATE("%e", DATE "1970-01-01") is 01. -/
theorem C117_full_false : ¬ C117_full := by
  intro h
  have := ((C117_partial [] { wall := 0, off := 0 } (by decide) (by decide)).2.1 _ rfl).1 (h _ _ 'e' _ (by decide) (by decide) rfl)
  revert this
  decide

/-- %Q is right exactly but for the days from the 90th on in March, from the 180th on in June and from the 270th on in
September. -/
theorem C117_quarter (zone : List Char) (t : T) (s : List Char) (h : calendarSpec (tDay t.wall) 'Q' = some s) :
    formatElem zone t 'Q' = .ok s ↔ ¬ ((t.month = 3 ∧ 90 ≤ ydayOf (tDay t.wall) + 1) ∨ (t.month = 6 ∧ 180 ≤ ydayOf (tDay t.wall) + 1) ∨ (t.month = 9 ∧ 270 ≤ ydayOf (tDay t.wall) + 1)) := by
  cases h
  obtain ⟨m1, m2, d1, d2⟩ := civil_valid (tDay t.wall)
  have em : t.month = monthOf (tDay t.wall) := rfl
  rw [em]
  show Res.ok (if ydayOf (tDay t.wall) + 1 < 90 then ['1'] else if ydayOf (tDay t.wall) + 1 < 180 then ['2'] else if ydayOf (tDay t.wall) + 1 < 270 then ['3'] else ['4']) = _ ↔ _
  have e : dayOf (tDay t.wall) = ydayOf (tDay t.wall) - monthBefore (isLeap (yearOf (tDay t.wall))) (monthOf (tDay t.wall)) + 1 := rfl
  have hl : monthLen (yearOf (tDay t.wall)) (monthOf (tDay t.wall)) = monthBefore (isLeap (yearOf (tDay t.wall))) (monthOf (tDay t.wall) + 1) - monthBefore (isLeap (yearOf (tDay t.wall))) (monthOf (tDay t.wall)) := rfl
  rw [hl] at d2
  rw [e] at d1 d2
  generalize ydayOf (tDay t.wall) = yd at *
  generalize isLeap (yearOf (tDay t.wall)) = l at *
  generalize monthOf (tDay t.wall) = m at *
  clear e hl em
  have q : (Res.ok (if yd + 1 < 90 then ['1'] else if yd + 1 < 180 then ['2'] else if yd + 1 < 270 then ['3'] else ['4']) = Res.ok [digitChar ((m.toNat - 1) / 3 + 1)]) ↔
      (if yd + 1 < 90 then 1 else if yd + 1 < 180 then 2 else if yd + 1 < 270 then 3 else 4 : Nat) = (m.toNat - 1) / 3 + 1 := by
    have e : (if yd + 1 < 90 then ['1'] else if yd + 1 < 180 then ['2'] else if yd + 1 < 270 then ['3'] else ['4']) =
        [digitChar (if yd + 1 < 90 then 1 else if yd + 1 < 180 then 2 else if yd + 1 < 270 then 3 else 4)] := by
      repeat' split
      all_goals rfl
    rw [e]
    constructor
    · intro h
      injection h with h
      simp only [List.cons.injEq, and_true] at h
      exact digitChar_inj (by repeat' split
                              all_goals omega) (by omega) h
    · intro h; rw [h]
  rw [q]
  rcases month_cases m1 m2 with h | h | h | h | h | h | h | h | h | h | h | h <;> subst h <;> cases l <;> simp [monthBefore] at d1 d2 <;>
    (repeat' split) <;> omega

/-- FORMAT_DATE("%Q", DATE "1970-03-31") is 2. -/
theorem C117_quarter_false : ¬ ∀ (zone : List Char) (t : T) (s : List Char), calendarSpec (tDay t.wall) 'Q' = some s → formatElem zone t 'Q' = .ok s := by
  intro h
  have h1 := h [] { wall := 89 * dayNs, off := 0 } ['1'] (by decide)
  have h2 : formatElem [] { wall := 89 * dayNs, off := 0 } 'Q' = .ok ['2'] := rfl
  rw [h2] at h1
  injection h1 with h1
  revert h1
  decide

/-! ### C118: fractions of a second -/

theorem parseInt64_pad {w n : Nat} (hw : 0 < w) (h : n < 10 ^ w) (hn : InI64 n) : parseInt64 (padDigits w n) = some (n : Int) := by
  have hl := padDigits_length w n
  have hd := padDigits_digits w n
  have e := digitsVal_padDigits w n
  rw [Nat.mod_eq_of_lt h] at e
  cases hs : padDigits w n with
  | nil => rw [hs] at hl; simp at hl; omega
  | cons c cs =>
    rw [hs] at hd e
    have hc := hd c (by simp)
    have h1 : c ≠ '-' := by rintro rfl; revert hc; decide
    have h2 : c ≠ '+' := by rintro rfl; revert hc; decide
    unfold parseInt64 parseSigned
    simp only [if_neg h1, if_neg h2]
    have : parseNat (c :: cs) = some n := by unfold parseNat; rw [if_neg (by simp), e]
    rw [this]
    simp only [Option.map_some]
    rw [if_pos hn]

theorem padDigits_zero (w n : Nat) : padDigits (w + 1) (n * 10) = padDigits w n ++ ['0'] := by
  show padDigits w (n * 10 / 10) ++ [digitChar (n * 10 % 10)] = _
  rw [show n * 10 / 10 = n by omega, show n * 10 % 10 = 0 by omega]
  rfl

theorem padDigits_nine (n : Nat) : (padDigits 9 n).take 6 = padDigits 6 (n / 1000) := by
  have e : padDigits 9 n = padDigits 6 (n / 10 / 10 / 10) ++ [digitChar (n / 10 / 10 % 10), digitChar (n / 10 % 10), digitChar (n % 10)] := by
    show padDigits 6 _ ++ _ ++ _ ++ _ = _
    simp
  rw [e, List.take_append_of_le_length (by rw [padDigits_length]; omega), List.take_of_length_le (by rw [padDigits_length]; omega)]
  congr 1
  omega

/-- Seconds to the microsecond are read back. -/
theorem frac_read {f : F} (v : f.Valid) (s n : Int) (hs : 0 ≤ s ∧ s < 60) (hn : 0 ≤ n ∧ n < 1000000000) (hu : n % 1000 = 0) :
    fracP 6 (two s ++ '.' :: (pad 9 n.toNat).take 6) f.t = .ok ([], F.t { f with s := s, n := n }) := by
  have hp : pad 9 n.toNat = padDigits 9 n.toNat := by unfold pad; rw [if_pos (by omega)]
  have h2 := two_eq (n := s) (by omega) (by omega)
  have hl2 := padDigits_length 2 s.toNat
  have hd2 : ∀ c ∈ padDigits 2 s.toNat, (digitVal c).isSome = true := fun c hc => isSome_digit (padDigits_digits 2 _ c hc)
  have hl6 := padDigits_length 6 (n.toNat / 1000)
  have hd6 : ∀ c ∈ padDigits 6 (n.toNat / 1000), (digitVal c).isSome = true := fun c hc => isSome_digit (padDigits_digits 6 _ c hc)
  have dot : (digitVal '.').isSome = false := by decide
  rw [hp, padDigits_nine, h2]
  have e1 : (padDigits 2 s.toNat ++ '.' :: padDigits 6 (n.toNat / 1000)).takeWhile (fun c => (digitVal c).isSome) = padDigits 2 s.toNat :=
    takeWhile_append_stop hd2 (by intro c hc; simp at hc; subst hc; exact dot)
  have e2 : (padDigits 2 s.toNat ++ '.' :: padDigits 6 (n.toNat / 1000)).dropWhile (fun c => (digitVal c).isSome) = '.' :: padDigits 6 (n.toNat / 1000) := by
    have := List.takeWhile_append_dropWhile (p := fun c => (digitVal c).isSome) (l := padDigits 2 s.toNat ++ '.' :: padDigits 6 (n.toNat / 1000))
    rw [e1] at this
    exact List.append_cancel_left this
  have e3 : fracAt (padDigits 2 s.toNat ++ '.' :: padDigits 6 (n.toNat / 1000)) = some (padDigits 2 s.toNat, some (padDigits 6 (n.toNat / 1000))) := by
    unfold fracAt
    simp only [e1, e2]
    rw [if_neg (by omega)]
    simp only [if_true, takeWhile_all hd6]
  have e4 : fracFind (padDigits 2 s.toNat ++ '.' :: padDigits 6 (n.toNat / 1000)) = some (padDigits 2 s.toNat, some (padDigits 6 (n.toNat / 1000))) := by
    cases hc : padDigits 2 s.toNat ++ '.' :: padDigits 6 (n.toNat / 1000) with
    | nil => simp at hc
    | cons c r => rw [hc] at e3; unfold fracFind; rw [e3]; rfl
  have e5 : parseInt64 (padDigits 2 s.toNat) = some s := by
    rw [parseInt64_pad (by decide) (by omega) (by unfold InI64; omega)]
    congr 1
    omega
  have e6 : (padDigits 6 (n.toNat / 1000)).take 6 = padDigits 6 (n.toNat / 1000) := List.take_of_length_le (by omega)
  have e7 : padDigits 6 (n.toNat / 1000) ++ List.replicate (9 - 6) '0' = padDigits 9 n.toNat := by
    have a1 := padDigits_zero 6 (n.toNat / 1000)
    have a2 := padDigits_zero 7 (n.toNat / 1000 * 10)
    have a3 := padDigits_zero 8 (n.toNat / 1000 * 10 * 10)
    rw [show n.toNat / 1000 * 10 * 10 * 10 = n.toNat by omega, a2, a1] at a3
    rw [a3]
    simp [List.replicate]
  have e8 : parseInt64 (padDigits 9 n.toNat) = some n := by
    rw [parseInt64_pad (by decide) (by omega) (by unfold InI64; omega)]
    congr 1
    omega
  have hf := F.fields v
  unfold fracP
  simp only [e4, e5, e6, hl6, hl2, e7, e8]
  have e9 : (padDigits 2 s.toNat ++ '.' :: padDigits 6 (n.toNat / 1000)).drop (2 + (6 + 1)) = [] := by
    refine List.drop_of_length_le ?_
    simp only [List.length_append, List.length_cons, hl2, hl6]
    omega
  rw [e9, hf.1, hf.2.1, hf.2.2.1, hf.2.2.2.1, hf.2.2.2.2.1]
  rfl

/-- C118: a format with the date, the hour, the minute and, at its end, the seconds with a fraction gives every
microsecond back. -/
theorem C118 (zone : List Char) (ansic : List Char → Option Int) (k : TimeKind) (w : Int) (hu : w % 1000 = 0) (y1 : 1 ≤ yearOf (tDay w)) (y2 : yearOf (tDay w) ≤ 9999)
    (ps : List Piece) (hok : ∀ p ∈ ps, p.Ok k) (ho : Ordered false false ps) (ha : Apart (yearOf (tDay w)) ps) (hy : ¬ EndsY ps) (p : Char) (hp : p ∈ ['6', '*'])
    (hd : k = .time ∧ 0 ≤ w ∧ w < dayNs ∨ (k = .datetime ∨ k = .timestamp) ∧ Has ps ['d', 'e', 'F']) (hh : Has ps ['H', 'R', 'T', 'X']) (hm : Has ps ['M', 'R', 'T', 'X']) :
    ∃ s, format zone k { wall := w, off := 0 } (fmt ps ++ ['%', 'E', p, 'S']) = .ok s ∧ PARSE ansic k (fmt ps ++ ['%', 'E', p, 'S']) s = .ok (.time k w) := by
  have vx := fieldsOf_valid w
  have hk : k ∈ (Combo.frac 6).kinds := by
    rcases hd with ⟨rfl, _⟩ | ⟨rfl | rfl, _⟩ <;> decide
  have hc : combo [p, 'S'] = some (.frac 6, []) := by
    simp only [List.mem_cons, List.not_mem_nil, or_false] at hp
    rcases hp with rfl | rfl <;> rfl
  obtain ⟨s, h1, hinv, _, h4⟩ := pieces_read zone ansic k vx y1 y2 ps epoch false false hok ho ha (by simp) (by simp) ⟨epoch_valid, .inl rfl⟩
  have h1' := h1 ['%', 'E', p, 'S']
  rw [format_combo zone k _ hc hk] at h1'
  have et : (fieldsOf w).t = { wall := w, off := 0 } := fieldsOf_t w
  have hfmt : Combo.format (fieldsOf w).t (.frac 6) = two (tSecond w) ++ '.' :: (pad 9 (tNano w).toNat).take 6 := by rw [et]; rfl
  have hsol : Solid (two (tSecond w) ++ '.' :: (pad 9 (tNano w).toNat).take 6) := by
    have := clock_bounds w
    exact (solid_two (by omega) (by omega)).append _
  obtain ⟨seen', hp', e⟩ := h4 ['%', 'E', p, 'S'] (two (tSecond w) ++ '.' :: (pad 9 (tNano w).toNat).take 6) _ [] [] hsol.2 (fun h => (hy h).elim) (by simp) (.inl rfl)
  refine ⟨s ++ (two (tSecond w) ++ '.' :: (pad 9 (tNano w).toNat).take 6), ?_, ?_⟩
  · rw [et] at h1'
    rw [h1']
    show ((format zone k _ []).bind _).bind _ = _
    rw [format_nil, Res.bind'_ok, Res.bind'_ok, ← et, hfmt, List.append_nil]
  · rw [loop_combo k ansic hc hk _ rfl hsol.1] at e
    have hs := vx.2.2.2.2.1
    have hn := vx.2.2.2.2.2
    have hfr := frac_read hinv.1 (tSecond w) (tNano w) hs hn (by unfold tNano tod dayNs sec; omega)
    have hcp : (Combo.frac 6).parse = fracP 6 := rfl
    simp only [hcp] at e
    rw [hfr, Res.bind'_ok, loop_nil, epoch_t] at e
    unfold PARSE
    rw [parse_eq (t := { wall := w, off := 0 }) (seen := 'E' :: seen') (ampm := []) (by simp [hp'])]
    · rw [Res.bind'_ok]
      congr 2
      split
      · simp
      · rfl
    · rw [e]
      congr 2
      rw [← et]
      show F.t _ = F.t _
      congr 1
      have dflt : k = .time ∧ 0 ≤ w ∧ w < dayNs → fieldsOf w = { fieldsOf w with y := 1970, mo := 1, d := 1 } := by
        intro h
        have : tDay w = 0 := by unfold tDay; have := h.2; unfold dayNs at *; omega
        unfold fieldsOf
        rw [this]
        rfl
      refine F.ext' ?_ ?_ ?_ ?_ ?_ rfl rfl
      · refine setsAll_field F.y _ (fun c x f h => sets_y h) _ ps epoch ?_
        rcases hd with h | h
        · exact .inl (by rw [dflt h]; rfl)
        · exact .inr ((ordered_known ps false false ho h.2).1.resolve_left (by simp))
      · refine setsAll_field F.mo _ (fun c x f h => sets_mo h) _ ps epoch ?_
        rcases hd with h | h
        · exact .inl (by rw [dflt h]; rfl)
        · exact .inr ((ordered_known ps false false ho h.2).2.resolve_left (by simp))
      · refine setsAll_field F.d _ (fun c x f h => sets_d h) _ ps epoch ?_
        rcases hd with h | h
        · exact .inl (by rw [dflt h]; rfl)
        · exact .inr h.2
      · exact setsAll_field F.h _ (fun c x f h => sets_h h) _ ps epoch (.inr hh)
      · exact setsAll_field F.mi _ (fun c x f h => sets_mi h) _ ps epoch (.inr hm)

/-- %F %R:%E*S, for every microsecond of the years 1 to 9999. -/
example (zone : List Char) (ansic : List Char → Option Int) (w : Int) (hu : w % 1000 = 0) (y1 : 1 ≤ yearOf (tDay w)) (y2 : yearOf (tDay w) ≤ 9999) :
    ∃ s, format zone .timestamp { wall := w, off := 0 } (['%', 'F', ' ', '%', 'R', ':'] ++ ['%', 'E', '*', 'S']) = .ok s ∧
      PARSE ansic .timestamp (['%', 'F', ' ', '%', 'R', ':'] ++ ['%', 'E', '*', 'S']) s = .ok (.time .timestamp w) :=
  C118 zone ansic .timestamp w hu y1 y2 [.el 'F', .lit ' ', .el 'R', .lit ':']
    (by
      intro p hp
      simp only [List.mem_cons, List.not_mem_nil, or_false] at hp
      rcases hp with rfl | rfl | rfl | rfl
      · exact ⟨by decide, _, rfl, by decide⟩
      · exact (by decide : ' ' ≠ '%')
      · exact ⟨by decide, _, rfl, by decide⟩
      · exact (by decide : ':' ≠ '%'))
    (by simp [Ordered]) (by simp [Apart]) (fun h => h) '*' (by decide) (.inr ⟨.inr rfl, 'F', by simp, _, by simp, rfl⟩) ⟨'R', by simp, _, by simp, rfl⟩ ⟨'R', by simp, _, by simp, rfl⟩

/-! ### C119: the 12-hour clock -/

/-- C119: %I:%M:%S %p reads the twelve hours of the morning and the twelve of the afternoon, whatever the case of AM and PM. -/
theorem C119 (ansic : List Char → Option Int) (h m s : Int) (hh : 1 ≤ h ∧ h ≤ 12) (hm : 0 ≤ m ∧ m < 60) (hs : 0 ≤ s ∧ s < 60) (a b : Char)
    (ha : a ∈ ['a', 'A', 'p', 'P']) (hb : b ∈ ['m', 'M']) :
    PARSE ansic .time ['%', 'I', ':', '%', 'M', ':', '%', 'S', ' ', '%', 'p'] (dd h.toNat ++ ':' :: (dd m.toNat ++ ':' :: (dd s.toNat ++ [' ', a, b]))) =
      .ok (.time .time ((if a ∈ ['a', 'A'] then h % 12 else h % 12 + 12) * hour + m * minute + s * sec)) := by
  have kI : kinds 'I' = some [.time, .datetime, .timestamp] := rfl
  have kM : kinds 'M' = some [.time, .datetime, .timestamp] := rfl
  have kS : kinds 'S' = some [.time, .datetime, .timestamp] := rfl
  have kp : kinds 'p' = some [.time, .datetime, .timestamp] := rfl
  rw [← two_dd (by omega) (by omega), ← two_dd (by omega) (by omega), ← two_dd (by omega) (by omega)]
  have ne : ∀ (a : Int) (_ : 0 ≤ a) (_ : a < 100) (r : List Char), two a ++ r ≠ [] := fun a h0 h1 r => ((solid_two h0 h1).append r).1
  have ev := epoch_valid
  have v1 : F.Valid { epoch with h := h } := ⟨ev.1, ev.2.1, ⟨by show 0 ≤ h; omega, by show h < 24; omega⟩, ev.2.2.2⟩
  have v2 : F.Valid { epoch with h := h, mi := m } := ⟨ev.1, ev.2.1, v1.2.2.1, hm, ev.2.2.2.2⟩
  have v3 : F.Valid { epoch with h := h, mi := m, s := s } := ⟨ev.1, ev.2.1, v1.2.2.1, hm, hs, ev.2.2.2.2.2⟩
  have hl : loop ansic .time ['%', 'I', ':', '%', 'M', ':', '%', 'S', ' ', '%', 'p']
      { t := { wall := 0, off := 0 }, rest := two h ++ ':' :: (two m ++ ':' :: (two s ++ [' ', a, b])), over := false, seen := [], ampm := [] } =
      .ok { t := F.t { epoch with h := h, mi := m, s := s }, rest := [], over := false, seen := ['p', 'S', 'M', 'I'], ampm := [a, b] } := by
    rw [loop_elem _ _ (by decide) kI (by decide) _ _ rfl (ne h (by omega) (by omega) _)]
    show Res.bind (hour12P _ _) _ = _
    unfold hour12P
    rw [number_two (by decide) (by decide) _ (by omega) (by omega), Res.bind'_ok, ← epoch_t, setHour_t epoch_valid]
    simp only
    rw [loop_lit _ _ (by decide) (by decide) _ { t := _, rest := [], over := false, seen := ['I'], ampm := _ }]
    rw [loop_elem _ _ (by decide) kM (by decide) _ _ rfl (ne m (by omega) (by omega) _)]
    show Res.bind (minuteP _ _) _ = _
    unfold minuteP
    rw [number_two (by decide) (by decide) _ (by omega) (by omega), Res.bind'_ok, setMinute_t v1]
    simp only
    rw [loop_lit _ _ (by decide) (by decide) _ { t := _, rest := [], over := false, seen := ['M', 'I'], ampm := _ }]
    rw [loop_elem _ _ (by decide) kS (by decide) _ _ rfl (ne s (by omega) (by omega) _)]
    show Res.bind (secondP _ _) _ = _
    unfold secondP
    rw [number_two (by decide) (by decide) _ (by omega) (by omega), Res.bind'_ok, setSecond_t v2]
    simp only
    rw [loop_space]
    have hsp : ([' ', a, b] : List Char).dropWhile (fun c => c = ' ') = [a, b] := by
      simp only [List.mem_cons, List.not_mem_nil, or_false] at ha
      rcases ha with rfl | rfl | rfl | rfl <;> rfl
    simp only [hsp]
    rw [loop_elem _ _ (by decide) kp (by decide) _ _ rfl (by simp)]
    have hpp : ∀ t, parseElem ansic 'p' [a, b] t = .ok ([], t) := by
      intro t
      simp only [List.mem_cons, List.not_mem_nil, or_false] at ha hb
      rcases ha with rfl | rfl | rfl | rfl <;> rcases hb with rfl | rfl <;> rfl
    rw [hpp, Res.bind'_ok]
    simp only
    rw [loop_nil]
    rfl
  have hf := F.fields v3
  have hpost : postprocess { t := F.t { epoch with h := h, mi := m, s := s }, rest := [], over := false, seen := ['p', 'S', 'M', 'I'], ampm := [a, b] } =
      F.t { epoch with h := (if a ∈ ['a', 'A'] then h % 12 else h % 12 + 12), mi := m, s := s } := by
    unfold postprocess
    have hc : ('p' ∈ ['p', 'S', 'M', 'I'] ∧ ¬('X' ∈ ['p', 'S', 'M', 'I'] ∨ 'T' ∈ ['p', 'S', 'M', 'I'] ∨ 'R' ∈ ['p', 'S', 'M', 'I'] ∨ 'k' ∈ ['p', 'S', 'M', 'I'] ∨ 'H' ∈ ['p', 'S', 'M', 'I']) ∧ ('l' ∈ ['p', 'S', 'M', 'I'] ∨ 'I' ∈ ['p', 'S', 'M', 'I'])) := by decide
    simp only
    rw [if_pos hc]
    rw [hf.2.2.2.1, setHour_t v3, setHour_t v3]
    have hlow : lower [a, b] = ['a', 'm'] ↔ a ∈ ['a', 'A'] := by
      simp only [List.mem_cons, List.not_mem_nil, or_false] at ha hb
      rcases ha with rfl | rfl | rfl | rfl <;> rcases hb with rfl | rfl <;> decide
    by_cases hA : a ∈ ['a', 'A']
    · rw [if_pos (hlow.2 hA), if_pos hA]
    · rw [if_neg (fun e => hA (hlow.1 e)), if_neg hA]
      show F.t { epoch with h := (if h < 12 then h + 12 else h), mi := m, s := s } = _
      have : (if h < 12 then h + 12 else h) = h % 12 + 12 := by split <;> omega
      rw [this]
  unfold PARSE parse
  rw [hl, Res.bind'_ok]
  simp only [Bool.false_eq_true, if_false, ne_eq, not_true_eq_false, hpost]
  rw [Res.bind'_ok]
  congr 2
  show tDate 1970 1 1 (if a ∈ ['a', 'A'] then h % 12 else h % 12 + 12) m s 0 = _
  unfold tDate
  rw [show daysOf 1970 1 1 = 0 by decide]
  omega

end Verif.TimeFormat
