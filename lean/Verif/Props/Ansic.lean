import Verif.Go.Ansic
import Verif.Props.TimeZoneText

/-! # C287: %c -/

namespace Verif.TimeFormat

open Go Verif.Val

/-- The text of a moment as C writes it, as in `Thu Dec  5 15:30:00 2008`: the day has two places, the first of which may be a space. -/
def ctime (day month : List Char) (y d h mi s : Int) : List Char :=
  day.take 3 ++ ' ' :: (month.take 3 ++ ' ' :: ((if d < 10 then [' ', digitChar d.toNat] else dd d.toNat) ++ ' ' ::
    (dd h.toNat ++ ':' :: (dd mi.toNat ++ ':' :: (dd s.toNat ++ ' ' :: padInt 4 y)))))

/-- A moment in whole seconds of the years 1 to 9999, and the names of its weekday and its month. -/
def Moment (y m d h mi s : Int) (day month : List Char) : Prop :=
  (1 ≤ y ∧ y ≤ 9999) ∧ (1 ≤ m ∧ m ≤ 12) ∧ (1 ≤ d ∧ d ≤ Spec.daysIn y m) ∧ (0 ≤ h ∧ h < 24) ∧ (0 ≤ mi ∧ mi < 60) ∧ (0 ≤ s ∧ s < 60) ∧
    weekdays[(daysOf y m d % 7).toNat]? = some day ∧ months[m.toNat - 1]? = some month

/-- C287: %c writes a moment as C does, and reads it. -/
def C287_full : Prop := ∀ (y m d h mi s : Int) (day month : List Char), Moment y m d h mi s day month →
  FORMAT .datetime ['%', 'c'] (tDate y m d h mi s 0) = .ok (.str (ctime day month y d h mi s)) ∧
  PARSE ansic .datetime ['%', 'c'] (ctime day month y d h mi s) = .ok (.time .datetime (tDate y m d h mi s 0))

/-- The text the code writes. -/
def gotime (day month : List Char) (y d h mi s : Int) : List Char :=
  day.take 3 ++ ' ' :: (month.take 3 ++ ' ' :: (dd d.toNat ++ ' ' :: (dd h.toNat ++ ':' :: (dd mi.toNat ++ ':' :: (dd s.toNat ++ ' ' :: padInt 4 y)))))

theorem day_three {n : Int} {day : List Char} (h : weekdays[(n % 7).toNat]? = some day) :
    dayNames.getD (weekday n).toNat [] = day ∧ ∃ i, ∀ r, lookupName shortDays (day.take 3 ++ r) = some (i, r) := by
  have a : ∀ i, i < 7 → ∀ x, weekdays[i]? = some x → dayNames.getD ((i + 4) % 7) [] = x ∧ ∃ j, ∀ r, lookupName shortDays (x.take 3 ++ r) = some (j, r) := by
    intro i hi x hx
    have : i = 0 ∨ i = 1 ∨ i = 2 ∨ i = 3 ∨ i = 4 ∨ i = 5 ∨ i = 6 := by omega
    rcases this with rfl | rfl | rfl | rfl | rfl | rfl | rfl <;> (cases hx; exact ⟨rfl, _, fun r => rfl⟩)
  have c : (weekday n).toNat = ((n % 7).toNat + 4) % 7 := by unfold weekday; omega
  rw [c]
  exact a _ (by omega) day h

theorem month_three {m : Int} {month : List Char} (h0 : 1 ≤ m) (h1 : m ≤ 12) (h : months[m.toNat - 1]? = some month) :
    monthNames.getD (m - 1).toNat [] = month ∧ (month.take 3).head? ≠ some ' ' ∧ ∀ r, lookupName shortMonths (month.take 3 ++ r) = some ((m - 1).toNat, r) := by
  rcases month_cases h0 h1 with rfl | rfl | rfl | rfl | rfl | rfl | rfl | rfl | rfl | rfl | rfl | rfl <;> (cases h; exact ⟨rfl, by decide, fun r => rfl⟩)

theorem dd_digit {n : Nat} (h : n < 100) (r : List Char) : takeDigits 2 (dd n ++ r) = some (n, r) := by
  rw [← pad_two h]; exact takeDigits_pad (by omega) r

theorem skip_one {s : List Char} (h : s.head? ≠ some ' ') : skipSpace (' ' :: s) = some s := by
  rw [skipSpace, if_pos rfl, Solid.drop h]

theorem dd_head {n : Nat} (h : n < 100) (r : List Char) : (dd n ++ r).head? ≠ some ' ' := by
  have : digitChar (n / 10) ≠ ' ' := by
    have : ∀ i, i < 10 → digitChar i ≠ ' ' := by decide
    exact this _ (by omega)
  simpa [dd] using this

/-- What the code writes is read. -/
theorem read_gotime {y m d h mi s : Int} {day month : List Char} (v : Moment y m d h mi s day month) (r : List Char) :
    ansic (gotime day month y d h mi s ++ r) = if r = [] then some (tDate y m d h mi s 0) else none := by
  obtain ⟨⟨y1, y2⟩, ⟨m1, m2⟩, ⟨d1, d2⟩, ⟨h1, h2⟩, ⟨i1, i2⟩, ⟨s1, s2⟩, e1, e2⟩ := v
  obtain ⟨-, i, k1⟩ := day_three e1
  obtain ⟨-, k2, k3⟩ := month_three m1 m2 e2
  have ml := Spec.monthLen_eq y m1 m2
  have dl : d ≤ 31 := by
    have : Spec.daysIn y m ≤ 31 := by unfold Spec.daysIn; repeat' split
                                      all_goals omega
    omega
  have mh : ∀ r, (month.take 3 ++ r).head? ≠ some ' ' := by
    intro r
    cases hh : month.take 3 with
    | nil => have := k3 []; rw [hh] at this; cases this
    | cons c cs => rw [hh] at k2; simpa using k2
  have hc : ∀ r, parseClockPart (dd h.toNat ++ ':' :: (dd mi.toNat ++ ':' :: (dd s.toNat ++ ' ' :: r))) = some (h * hour + mi * minute + s * sec, ' ' :: r) := by
    intro r
    simp only [parseClockPart, takeHour]
    rw [dd_digit (by omega)]
    simp only [takeChar_cons]
    rw [dd_digit (by omega)]
    simp only [takeChar_cons]
    rw [dd_digit (by omega)]
    simp only
    rw [if_pos (by omega)]
    have : takeFrac (' ' :: r) = (0, ' ' :: r) := by simp [takeFrac]
    rw [this]
    rw [show ((h.toNat : Nat) : Int) = h by omega, show ((mi.toNat : Nat) : Int) = mi by omega, show ((s.toNat : Nat) : Int) = s by omega]
    simp
  have hy : ∀ r, takeDigits 4 (padInt 4 y ++ r) = some (y.toNat, r) := by
    intro r
    rw [padInt, if_neg (by omega), show y.natAbs = y.toNat by omega]
    exact takeDigits_pad (by omega) r
  have yh : ∀ r, (padInt 4 y ++ r).head? ≠ some ' ' := fun r => ((solid_pad4 (by omega) y2).append r).2
  simp only [gotime, List.append_assoc, List.cons_append, ansic, k1, skip_one (mh _), k3, skip_one (dd_head (show d.toNat < 100 by omega) _),
    dd_digit (show d.toNat < 100 by omega), skip_one (dd_head (show h.toNat < 100 by omega) _), hc, skip_one (yh _), hy]
  have ey : ((y.toNat : Nat) : Int) = y := by omega
  have em : (((m - 1).toNat : Nat) : Int) + 1 = m := by omega
  have ed : ((d.toNat : Nat) : Int) = d := by omega
  rw [ey, em, ed, ml]
  by_cases hr : r = []
  · rw [if_pos ⟨hr, by omega, d2⟩, if_pos hr]
    congr 1
    unfold tDate; omega
  · rw [if_neg (fun h => hr h.1), if_neg hr]

/-- **C287** What %c writes. -/
theorem C287_text {y m d h mi s : Int} {day month : List Char} (v : Moment y m d h mi s day month) :
    FORMAT .datetime ['%', 'c'] (tDate y m d h mi s 0) = .ok (.str (gotime day month y d h mi s)) := by
  obtain ⟨⟨y1, y2⟩, ⟨m1, m2⟩, ⟨d1, d2⟩, h1, i1, s1, e1, e2⟩ := v
  obtain ⟨k0, -⟩ := day_three e1
  obtain ⟨k4, -⟩ := month_three m1 m2 e2
  have ml := Spec.monthLen_eq y m1 m2
  have dl : d ≤ 31 := by
    have : Spec.daysIn y m ≤ 31 := by unfold Spec.daysIn; repeat' split
                                      all_goals omega
    omega
  have vf : F.Valid { y := y, mo := m, d := d, h := h, mi := mi, s := s, n := 0 } :=
    ⟨⟨m1, m2⟩, ⟨d1, by show d ≤ monthLen y m; rw [ml]; exact d2⟩, h1, i1, s1, Int.le_refl 0, (by decide : (0 : Int) < 1000000000)⟩
  obtain ⟨f1, f2, f3, f4, f5, f6, -⟩ := F.fields vf
  have f7 := (clock_fields (day := daysOf y m d) h1 i1 s1 (n := 0) (by decide)).1
  refine FORMAT_one .datetime (by decide) (ks := [.datetime, .timestamp]) (by decide) (by decide) _ ?_
  simp only [F.t] at f1 f2 f3 f4 f5 f6
  have f8 : tDay (tDate y m d h mi s 0) = daysOf y m d := f7
  unfold formatElem
  simp only [show ('c' = 'A') = False by decide, show ('c' = 'a') = False by decide, show ('c' = 'B') = False by decide, show ('c' = 'b') = False by decide,
    show ('c' = 'h') = False by decide, show ('c' = 'C') = False by decide, if_false, or_false, if_true, clock, f1, f2, f3, f4, f5, f6, f8, k0, k4]
  rw [two_dd (by omega) (by omega), two_dd (by omega) (by omega), two_dd (by omega) (by omega), two_dd (by omega) (by omega)]
  simp only [gotime, List.append_assoc, List.cons_append]

theorem loop_c (text : List Char) (f : List Char) (k : TimeKind) (hk : k = .datetime ∨ k = .timestamp) (ht : text ≠ []) (S : S) (ho : S.over = false) (hs : S.rest = text) :
    loop ansic k ('%' :: 'c' :: f) S = match ansic text with
      | some v => loop ansic k f { S with t := { wall := v, off := 0 }, rest := [], seen := 'c' :: S.seen }
      | none => .err := by
  rw [loop_elem k ansic (e := 'c') (ks := [.datetime, .timestamp]) (by decide) (by decide) (by rcases hk with rfl | rfl <;> decide) f S ho (by rw [hs]; exact ht), hs]
  simp only [parseElem, show ('c' = 'A') = False by decide, show ('c' = 'a') = False by decide, show ('c' = 'B') = False by decide, show ('c' = 'b') = False by decide,
    show ('c' = 'h') = False by decide, show ('c' = 'C') = False by decide, if_false, or_false, if_true]
  cases ansic text with
  | none => rfl
  | some v => simp [Res.bind]

/-- What is read with the format %c. -/
theorem PARSE_c (text : List Char) (k : TimeKind) (hk : k = .datetime ∨ k = .timestamp) (ht : text ≠ []) (v : Int) :
    PARSE ansic k ['%', 'c'] text = .ok (.time k v) ↔ ansic text = some v := by
  unfold PARSE parse
  rw [loop_c text [] k hk ht _ rfl rfl]
  cases ansic text with
  | none => exact ⟨fun h => (by cases h), fun h => (by cases h)⟩
  | some w =>
    simp only [loop_nil, Res.bind'_ok]
    simp [postprocess, Res.bind]

theorem gotime_ne {day month : List Char} {y d h mi s : Int} {r : List Char} : gotime day month y d h mi s ++ r ≠ [] := by
  simp [gotime]

/-- **C287** Every moment in whole seconds is read back from the text that %c writes, also as a TIMESTAMP. -/
theorem C287_back {y m d h mi s : Int} {day month : List Char} (v : Moment y m d h mi s day month) :
    ∃ text, FORMAT .datetime ['%', 'c'] (tDate y m d h mi s 0) = .ok (.str text) ∧
      ∀ k, k = .datetime ∨ k = .timestamp → PARSE ansic k ['%', 'c'] text = .ok (.time k (tDate y m d h mi s 0)) := by
  refine ⟨_, C287_text v, fun k hk => ?_⟩
  have e := read_gotime v []
  rw [List.append_nil, if_pos rfl] at e
  exact (PARSE_c _ k hk (by simp [gotime]) _).2 e

/-- **C287** Nothing may stand after %c: if the text goes on, PARSE_DATETIME fails, whatever the format says about the rest. -/
theorem C287_end {y m d h mi s : Int} {day month : List Char} (v : Moment y m d h mi s day month) (f r : List Char) (hr : r ≠ []) :
    PARSE ansic .datetime ('%' :: 'c' :: f) (gotime day month y d h mi s ++ r) = .err := by
  unfold PARSE parse
  rw [loop_c _ f .datetime (.inl rfl) gotime_ne _ rfl rfl, read_gotime v r, if_neg hr]
  rfl

theorem gotime_eq {day month : List Char} {y d h mi s : Int} : gotime day month y d h mi s = ctime day month y d h mi s ↔ 10 ≤ d := by
  constructor
  · intro e
    false_or_by_contra
    rename_i hd
    simp only [gotime, ctime] at e
    have e1 := List.append_cancel_left e
    injection e1 with _ e1
    have e2 := List.append_cancel_left e1
    injection e2 with _ e2
    rw [if_pos (by omega)] at e2
    simp only [dd, List.cons_append, List.cons.injEq] at e2
    have : ∀ i, i < 10 → digitChar i ≠ ' ' := by decide
    exact this _ (by omega) e2.1
  · intro hd
    simp only [gotime, ctime]
    rw [if_neg (by omega)]

theorem read_ctime_low {y m d h mi s : Int} {day month : List Char} (v : Moment y m d h mi s day month) (hd : d < 10) : ansic (ctime day month y d h mi s) = none := by
  obtain ⟨-, ⟨m1, m2⟩, ⟨d1, d2⟩, -, -, -, e1, e2⟩ := v
  obtain ⟨-, i, k1⟩ := day_three e1
  obtain ⟨-, k2, k3⟩ := month_three m1 m2 e2
  have mh : ∀ r, (month.take 3 ++ r).head? ≠ some ' ' := by
    intro r
    cases hh : month.take 3 with
    | nil => have := k3 []; rw [hh] at this; cases this
    | cons c cs => rw [hh] at k2; simpa using k2
  have hn : digitChar d.toNat ≠ ' ' := by
    have : ∀ i, i < 10 → digitChar i ≠ ' ' := by decide
    exact this _ (by omega)
  have hs : ∀ r, skipSpace (' ' :: ' ' :: digitChar d.toNat :: r) = some (digitChar d.toNat :: r) := by
    intro r
    simp [skipSpace, hn]
  have ht : ∀ c r, takeDigits 2 (c :: ' ' :: r) = none := by
    intro c r
    rw [takeDigits, if_neg (by simp)]
    show Option.map _ (digitsVal 0 [c, ' ']) = none
    simp only [digitsVal]
    cases digitVal c with
    | none => rfl
    | some n => simp only [show digitVal ' ' = none by decide]; rfl
  simp only [ctime, ansic, k1, skip_one (mh _), k3]
  rw [if_pos hd]
  simp only [List.cons_append, List.nil_append, hs, ht]

/-- **C287** exactly: %c writes the text of C, and reads it, if and only if the day has two digits. -/
theorem C287_iff {y m d h mi s : Int} {day month : List Char} (v : Moment y m d h mi s day month) :
    (FORMAT .datetime ['%', 'c'] (tDate y m d h mi s 0) = .ok (.str (ctime day month y d h mi s)) ↔ 10 ≤ d) ∧
    (PARSE ansic .datetime ['%', 'c'] (ctime day month y d h mi s) = .ok (.time .datetime (tDate y m d h mi s 0)) ↔ 10 ≤ d) := by
  constructor
  · rw [C287_text v, ← gotime_eq (day := day) (month := month) (y := y) (h := h) (mi := mi) (s := s)]
    exact ⟨fun e => by injection e with e; injection e, fun e => by rw [e]⟩
  · rw [PARSE_c _ .datetime (.inl rfl) (by simp [ctime])]
    constructor
    · intro e
      false_or_by_contra
      rw [read_ctime_low v (by omega)] at e
      cases e
    · intro hd
      rw [← gotime_eq.2 hd]
      have e := read_gotime v []
      rwa [List.append_nil, if_pos rfl] at e

example : Moment 2008 12 5 15 30 0 ['F', 'r', 'i', 'd', 'a', 'y'] ['D', 'e', 'c', 'e', 'm', 'b', 'e', 'r'] := by
  unfold Moment; decide

theorem C287_full_false : ¬ C287_full := by
  intro h
  have v : Moment 2008 12 5 15 30 0 ['F', 'r', 'i', 'd', 'a', 'y'] ['D', 'e', 'c', 'e', 'm', 'b', 'e', 'r'] := by
    unfold Moment; decide
  exact absurd ((C287_iff v).1.1 (h _ _ _ _ _ _ _ _ v).1) (by decide)

end Verif.TimeFormat
