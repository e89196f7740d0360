import Verif.Model.Zoned
import Verif.Props.TruncLong
import Verif.Props.Cast

/-!
# C240: DATE, DATETIME and TIME from fields; C241: TIMESTAMP and DATETIME in a zone; C242: STRING; C243: the zone of the process;
C244: TIMESTAMP_TRUNC in zones with changing offsets
-/

namespace Verif.Zoned

open Go Verif.Date Spec

theorem utc_date (l : Int) : Location.utc.date l = l := by
  unfold Location.utc; rw [Location.fixed_date]; omega

theorem utc_wall (t : Int) : Location.utc.wall t = t := Int.add_zero t

/-! ### C240 -/

/-- Full C240: DATE, DATETIME and TIME of fields are what has these fields, and an error if there is no such thing. -/
def C240_full : Prop :=
  ∀ y mo d h mi s : Int,
    (∀ n, civil n = { y := y, m := mo, d := d } → dateFields y mo d = .ok n) ∧
    ((∀ n, civil n ≠ { y := y, m := mo, d := d }) → dateFields y mo d = .err) ∧
    (0 ≤ h ∧ h < 24 ∧ 0 ≤ mi ∧ mi < 60 ∧ 0 ≤ s ∧ s < 60 →
      timeFields h mi s = .ok (((h * 60 + mi) * 60 + s) * 1000000000) ∧
      ∀ n, civil n = { y := y, m := mo, d := d } → datetimeFields y mo d h mi s = .ok (n * dayNs + ((h * 60 + mi) * 60 + s) * 1000000000)) ∧
    (¬ (0 ≤ h ∧ h < 24 ∧ 0 ≤ mi ∧ mi < 60 ∧ 0 ≤ s ∧ s < 60) → timeFields h mi s = .err ∧ datetimeFields y mo d h mi s = .err)

theorem dateFields_eq (y mo d : Int) : dateFields y mo d = .ok (daysOf y mo d) := by
  unfold dateFields dateOf tAddDate
  rw [show tDay (tDate 1 1 1 0 0 0 0) = daysOf 1 1 1 by decide]
  have h := daysOf_fields (y := 1) (m := 1) (d := 1) (by decide) (by decide) (by decide) (by decide)
  rw [h.1, h.2.1, h.2.2]
  have ht : tHour (tDate 1 1 1 0 0 0 0) = 0 ∧ tMinute (tDate 1 1 1 0 0 0 0) = 0 ∧ tSecond (tDate 1 1 1 0 0 0 0) = 0 ∧
    tNano (tDate 1 1 1 0 0 0 0) = 0 := by decide
  rw [ht.1, ht.2.1, ht.2.2.1, ht.2.2.2]
  rw [show 1 + (y - 1) = y by omega, show 1 + (mo - 1) = mo by omega, show 1 + (d - 1) = d by omega]
  congr 1
  unfold tDate
  simp only [Int.zero_mul, Int.add_zero]
  exact tDay_mul _

theorem datetimeFields_eq (y mo d h mi s : Int) :
    datetimeFields y mo d h mi s = .ok (daysOf y mo d * dayNs + ((h * 60 + mi) * 60 + s) * 1000000000) := by
  unfold datetimeFields
  rw [utc_date]
  congr 1
  unfold tDate hour minute sec
  omega

theorem timeFields_eq (h mi s : Int) : timeFields h mi s = .ok (((h * 60 + mi) * 60 + s) * 1000000000 % dayNs) := by
  unfold timeFields
  rw [utc_date]
  congr 1
  unfold tDate tod dayNs hour minute sec
  omega

/-- **C240** the part that holds: the fields of a date, and of a time of day, give it back. -/
theorem C240_partial (n h mi s : Int) (hc : 0 ≤ h ∧ h < 24 ∧ 0 ≤ mi ∧ mi < 60 ∧ 0 ≤ s ∧ s < 60) :
    dateFields (civil n).y (civil n).m (civil n).d = .ok n ∧
    timeFields h mi s = .ok (((h * 60 + mi) * 60 + s) * 1000000000) ∧
    datetimeFields (civil n).y (civil n).m (civil n).d h mi s = .ok (n * dayNs + ((h * 60 + mi) * 60 + s) * 1000000000) := by
  rw [dateFields_eq, timeFields_eq, datetimeFields_eq, show daysOf (civil n).y (civil n).m (civil n).d = n from daysOf_civil n]
  refine ⟨rfl, ?_, rfl⟩
  congr 1
  unfold dayNs
  omega

/-- **C240** what happens to all other fields: nothing is refused, months above twelve count into the following years, days into the
following months, hours, minutes and seconds into the following days; TIME drops whole days. -/
theorem C240_carry (y mo d h mi s k : Int) :
    dateFields y (mo + 12 * k) d = dateFields (y + k) mo d ∧
    (∀ n, dateFields y mo d = .ok n → dateFields y mo (d + k) = .ok (n + k)) ∧
    (∀ n, dateFields y mo d = .ok n → datetimeFields y mo d h mi s = .ok (n * dayNs + ((h * 60 + mi) * 60 + s) * 1000000000)) ∧
    (∀ l, datetimeFields y mo d h mi s = .ok l → timeFields h mi s = .ok (tod l)) ∧
    (∃ n, dateFields y mo d = .ok n) := by
  simp only [dateFields_eq, datetimeFields_eq, timeFields_eq, Res.ok.injEq]
  refine ⟨daysOf_carry .., fun n hn => by rw [daysOf_add, hn], fun n hn => by rw [hn], fun l hl => ?_, ⟨_, rfl⟩⟩
  rw [← hl]
  unfold tod dayNs
  omega

/-- DATE(2023, 2, 30) is 2023-03-02; TIME(25, 0, 0) is 01:00:00. -/
theorem C240_wrong : dateFields 2023 2 30 = dateFields 2023 3 2 ∧ timeFields 25 0 0 = timeFields 1 0 0 ∧
    datetimeFields 2023 13 1 0 60 0 = datetimeFields 2024 1 1 1 0 0 := by
  simp only [dateFields_eq, datetimeFields_eq, timeFields_eq]
  decide

theorem C240_full_false : ¬ C240_full := by
  intro h
  have := ((h 2023 1 1 25 0 0).2.2.2 (by decide)).1
  rw [timeFields_eq] at this
  exact absurd this (by simp)

example : dateFields 2024 2 29 = .ok 19782 := by rw [dateFields_eq]; decide

/-! ### C241 -/

/-- The years whose dates are written with four digits. -/
def Year4 (l : Int) : Prop := 0 ≤ yearOf (tDay l) ∧ yearOf (tDay l) ≤ 9999

instance (l : Int) : Decidable (Year4 l) := inferInstanceAs (Decidable (_ ∧ _))

theorem tDate_day (l : Int) : tDate (yearOf (tDay l)) (monthOf (tDay l)) (dayOf (tDay l)) 0 0 0 0 + tod l = l := by
  unfold tDate
  rw [daysOf_civil]
  have := tDay_tod l
  omega

theorem parse_plain (z : Location) (sep : Char) (hs : sep = 'T' ∨ sep = ' ') (l : Int) (hy : Year4 l) :
    parseTimestampIn z (dateText l ++ sep :: clockText 9 l) = some (z.date l) := by
  unfold parseTimestampIn
  rw [parseDatePart_text l _ hy.1 hy.2]
  have hc := parseClockPart_text (w := 9) (by omega) l [] (by simp)
  rw [List.append_nil] at hc
  simp only [if_pos hs]
  rw [hc]
  simp only
  congr 2
  have := tDate_day l
  rw [show (10 : Int) ^ (9 - 9) = 1 by decide]
  omega

theorem parse_zone (z : Location) (sep : Char) (hs : sep = 'T' ∨ sep = ' ') (l o : Int) (hy : Year4 l) {zt : List Char}
    (hz : Cast.ZoneText zt o) : parseTimestampIn z (dateText l ++ sep :: (clockText 9 l ++ zt)) = some (l - o) := by
  have hhead : ∃ c r, zt = c :: r ∧ (c = 'Z' ∨ c = '+' ∨ c = '-') := by
    rcases hz with ⟨rfl, _⟩ | ⟨east, h, m, _, _, _, rfl | ⟨_, rfl⟩⟩
    · exact ⟨_, _, rfl, .inl rfl⟩
    · exact ⟨_, _, rfl, by cases east <;> simp⟩
    · exact ⟨_, _, rfl, by cases east <;> simp⟩
  have hp := Cast.parseZone_text hz
  obtain ⟨c, r, hzc, hc⟩ := hhead
  unfold parseTimestampIn
  rw [parseDatePart_text l _ hy.1 hy.2]
  have hcl := parseClockPart_text (w := 9) (by omega) l zt (by
    intro d hd
    rw [hzc] at hd
    simp only [List.head?_cons, Option.some.injEq] at hd
    subst hd
    rcases hc with rfl | rfl | rfl <;> decide)
  simp only [if_pos hs]
  rw [hcl, hzc]
  simp only
  rw [← hzc, hp]
  simp only [Option.map_some]
  congr 1
  have := tDate_day l
  rw [show (10 : Int) ^ (9 - 9) = 1 by decide]
  omega

theorem modify_eq (z : Location) (l : Int) (hy : Year4 l) : modifyTimeZone z l = .ok (z.date l) := by
  unfold modifyTimeZone
  rw [parse_plain z 'T' (.inl rfl) l hy]
  rfl

/-- A zone, or none. -/
def ZoneOk (z : Option Location) : Prop := ∀ x, z = some x → x.Lawful

theorem ZoneOk.lawful {z : Option Location} (h : ZoneOk z) : (z.getD Location.utc).Lawful := by
  cases z with
  | none => exact Location.fixed_lawful (by decide)
  | some x => exact h x rfl

/-- Full C241: reading the clock of a zone and asking for the moment at which this clock shows the reading gives the moment back. -/
def C241_full : Prop :=
  ∀ (loc z : Location), z.Lawful → ∀ t, Year4 (t + z.off t) →
    (datetimeOfTs loc (some z) t).bind (timestampOfDatetime (some z)) = .ok t

/-- **C241** TIMESTAMP(datetime, zone) is a moment at which the clock in the zone shows the DATETIME, whenever there is one. -/
theorem C241_shows (loc z : Location) (hz : z.Lawful) (l : Int) (hy : Year4 l) :
    (∃ r, timestampOfDatetime (some z) l = .ok r ∧ datetimeOfTs loc (some z) r = .ok l) ↔
      ∃ t, datetimeOfTs loc (some z) t = .ok l := by
  constructor
  · rintro ⟨r, _, h⟩; exact ⟨r, h⟩
  · rintro ⟨t, ht⟩
    refine ⟨_, modify_eq z l hy, ?_⟩
    exact congrArg Res.ok (Location.wall_date hz ⟨t, Res.ok.inj ht⟩)

/-- **C241** TIMESTAMP(DATETIME(t, zone), zone) is `t` unless the clock shows the same reading at another moment too. -/
theorem C241_partial (loc z : Location) (hz : z.Lawful) (t : Int) (hy : Year4 (t + z.off t))
    (hu : ∀ u, datetimeOfTs loc (some z) u = datetimeOfTs loc (some z) t → u = t) :
    (datetimeOfTs loc (some z) t).bind (timestampOfDatetime (some z)) = .ok t := by
  obtain ⟨r, hr, hs⟩ := (C241_shows loc z hz (t + z.off t) hy).2 ⟨t, rfl⟩
  have := hu r hs
  subst this
  exact hr

/-- **C241** of all the moments at which the clock shows the same reading only one comes back. -/
theorem C241_twice (loc z : Location) (t u : Int)
    (hsame : datetimeOfTs loc (some z) u = datetimeOfTs loc (some z) t)
    (h1 : (datetimeOfTs loc (some z) t).bind (timestampOfDatetime (some z)) = .ok t)
    (h2 : (datetimeOfTs loc (some z) u).bind (timestampOfDatetime (some z)) = .ok u) : u = t := by
  rw [hsame, h1] at h2
  exact (Res.ok.inj h2).symm

/-- The end of summer time in New York, 2023-11-05 06:00 UTC. -/
def newYork : Location := Location.change (1699164000 * sec) (-(4 * hour)) (-(5 * hour))

theorem newYork_lawful : newYork.Lawful := Location.change_lawful (by decide) (by decide)

/-- Half past one is shown twice in New York; the later of the two moments becomes the earlier one. -/
theorem C241_full_false : ¬ C241_full := by
  intro h
  have := h Location.utc newYork newYork_lawful (1699165800 * sec) (by decide)
  revert this
  have e : datetimeOfTs Location.utc (some newYork) (1699165800 * sec) = .ok (1699147800 * sec) := by decide
  rw [e]
  show timestampOfDatetime (some newYork) (1699147800 * sec) = _ → _
  have e2 : timestampOfDatetime (some newYork) (1699147800 * sec) = .ok (newYork.date (1699147800 * sec)) :=
    modify_eq _ _ (by decide)
  rw [e2]
  decide

/-- **C241** the date and the time of day in a zone make up the DATETIME in that zone, and EXTRACT AT TIME ZONE reads the same clock. -/
theorem C241_split (loc : Location) (z : Location) (t : Int) (p : Date.Part) :
    ((dateOfTs loc (some z) t).bind fun d => (timeOfTs loc (some z) t).bind fun c => datetimeOf d c) = datetimeOfTs loc (some z) t ∧
    extractDate (some z) t = dateOfTs loc (some z) t ∧ extractTime (some z) t = timeOfTs loc (some z) t ∧
    extractDatetime (some z) t = datetimeOfTs loc (some z) t ∧
    (datetimeOfTs loc (some z) t).bind (fun l => extract l p) = extractTs (some z) t p := by
  refine ⟨?_, rfl, rfl, rfl, rfl⟩
  show datetimeOf (tDay (z.wall t)) (tod (z.wall t)) = .ok (z.wall t)
  generalize z.wall t = l
  unfold datetimeOf
  rw [utc_date]
  congr 1
  unfold tDate
  rw [daysOf_civil]
  have h1 := tFields (tod l)
  have h2 := tDay_tod l
  have h3 : tod (tod l) = tod l := by unfold tod dayNs; omega
  omega

theorem parse_date (z : Location) (n : Int) (hy : Year4 (n * dayNs)) :
    parseTimestampIn z (dateText (n * dayNs)) = some (z.date (n * dayNs)) := by
  unfold parseTimestampIn
  have h := parseDatePart_text (n * dayNs) [] hy.1 hy.2
  rw [List.append_nil] at h
  rw [h]
  simp only
  congr 2
  have := tDate_day (n * dayNs)
  have := tod_mul n
  omega

/-- **C241** TIMESTAMP(date, zone): the clock shows midnight of this date, if it ever does; the text of the date gives the same
moment. -/
theorem C241_date (loc : Location) (z : Option Location) (hz : ZoneOk z) (n : Int) (hy : Year4 (n * dayNs))
    (hs : ∃ t, (z.getD Location.utc).wall t = n * dayNs) :
    ∃ r, timestampOfDate z n = .ok r ∧ dateOfTs loc (some (z.getD Location.utc)) r = .ok n ∧
      timeOfTs loc (some (z.getD Location.utc)) r = .ok 0 ∧ timestampOfText z (dateText (n * dayNs)) = .ok r := by
  refine ⟨_, modify_eq _ _ hy, ?_, ?_, by show orErr _ = _; rw [parse_date _ n hy]; rfl⟩
  · show Res.ok (tDay (Location.wall (z.getD Location.utc) _)) = _
    rw [Location.wall_date hz.lawful hs, tDay_mul]
  · show Res.ok (tod (Location.wall (z.getD Location.utc) _)) = _
    rw [Location.wall_date hz.lawful hs, tod_mul]

/-- **C241** TIMESTAMP(text, zone): a text without a zone is the reading of the clock in the zone, a text with a zone of its own names
its moment whatever the argument says. -/
theorem C241_text (loc : Location) (z : Option Location) (hz : ZoneOk z) (l : Int) (hy : Year4 l) (sep : Char)
    (hs : sep = 'T' ∨ sep = ' ') :
    ((∃ t, (z.getD Location.utc).wall t = l) →
      ∃ r, timestampOfText z (dateText l ++ sep :: clockText 9 l) = .ok r ∧ datetimeOfTs loc (some (z.getD Location.utc)) r = .ok l) ∧
    ∀ zt o, Cast.ZoneText zt o → timestampOfText z (dateText l ++ sep :: (clockText 9 l ++ zt)) = .ok (l - o) := by
  constructor
  · intro ht
    refine ⟨_, ?_, congrArg Res.ok (Location.wall_date hz.lawful ht)⟩
    show orErr _ = _
    rw [parse_plain _ sep hs l hy]
    rfl
  · intro zt o hzt
    show orErr _ = _
    rw [parse_zone _ sep hs l o hy hzt]
    rfl

/-- In New York a quarter past one is shown before and after the change, three o'clock only once. -/
example : timestampOfDatetime (some newYork) (1699153200 * sec) = .ok (1699171200 * sec) :=
  (modify_eq _ _ (by decide)).trans (by decide)

/-! ### C242 -/

/-- Full C242: STRING(t, zone) is a text of `t`. -/
def C242_full : Prop :=
  ∀ (z : Option Location), ZoneOk z → ∀ t, Year4 ((z.getD Location.utc).wall t) →
    (stringOfTs z t).bind (timestampOfText none) = .ok t

/-- **C242** the text ends in +00 whatever the zone is, so it names `t` exactly when the zone is at UTC at that moment. -/
theorem C242_partial (z z' : Option Location) (t : Int) (hy : Year4 ((z.getD Location.utc).wall t)) :
    (stringOfTs z t).bind (timestampOfText z') = .ok t ↔ (z.getD Location.utc).off t = 0 := by
  show timestampOfText z' (dateText _ ++ ' ' :: (clockText 9 _ ++ ['+', '0', '0'])) = .ok t ↔ _
  unfold timestampOfText
  rw [parse_zone _ ' ' (.inr rfl) _ 0 hy (.inr ⟨true, 0, 0, by decide, by decide, by decide, .inr ⟨rfl, by decide⟩⟩)]
  show Res.ok (_ - 0) = Res.ok t ↔ _
  rw [Res.ok.injEq]
  unfold Location.wall
  omega

/-- **C242** without a zone the text is right. -/
theorem C242_utc (z' : Option Location) (t : Int) (hy : Year4 t) : (stringOfTs none t).bind (timestampOfText z') = .ok t :=
  (C242_partial none z' t (by show Year4 (Location.utc.wall t); rw [utc_wall]; exact hy)).2 rfl

theorem C242_full_false : ¬ C242_full := by
  intro h
  have := h (some newYork) (fun x hx => by cases hx; exact newYork_lawful) (1699165800 * sec) (by decide)
  rw [C242_partial _ _ _ (by decide)] at this
  revert this
  decide

example : stringOfTs (some (Location.fixed (9 * hour))) 0 = .ok "1970-01-01 09:00:00+00".toList := by decide

/-! ### C243 -/

/-- Full C243: what a query gives does not depend on the zone of the process. -/
def C243_full : Prop :=
  ∀ loc loc' : Location, loc.Lawful → loc'.Lawful →
    (∀ n, dateLiteral loc n = dateLiteral loc' n) ∧ (∀ u, dateFromUnixDateIn loc u = dateFromUnixDateIn loc' u) ∧
    (∀ t, dateOfTs loc none t = dateOfTs loc' none t) ∧ (∀ t, datetimeOfTs loc none t = datetimeOfTs loc' none t) ∧
    (∀ t, timeOfTs loc none t = timeOfTs loc' none t) ∧ (∀ t, castDate loc t = castDate loc' t) ∧
    (∀ t n, timestampAddDay loc t n = timestampAddDay loc' t n)

/-- **C243** the literal DATE '…' is the date it spells exactly if the process runs at UTC or east of it (at midnight UTC of that
day); otherwise it is the day before. -/
theorem C243_literal_partial (loc : Location) (hl : loc.Lawful) (n : Int) :
    (dateLiteral loc n = .ok n ↔ 0 ≤ loc.off (n * dayNs)) ∧ (dateLiteral loc n = .ok (n - 1) ↔ loc.off (n * dayNs) < 0) := by
  have hb := hl.bound (n * dayNs)
  unfold dateLiteral Location.wall
  rw [Res.ok.injEq, Res.ok.injEq]
  generalize loc.off (n * dayNs) = o at *
  unfold tDay
  unfold dayNs hour at *
  omega

/-- **C243** DATE_FROM_UNIX_DATE gives the same as the literal of that day, for the days whose nanoseconds fit in an int64. -/
theorem C243_unix_partial (loc : Location) (n : Int) (h : -106751 ≤ n ∧ n ≤ 106751) :
    dateFromUnixDateIn loc n = dateLiteral loc n := by
  unfold dateFromUnixDateIn dateLiteral
  have h1 : wrap64 (n * 24) = n * 24 := wrap64_eq (by unfold InI64; omega)
  have h2 : wrap64 (n * 24 * hour) = n * 24 * hour := wrap64_eq (by unfold InI64 hour; omega)
  rw [h1, h2, show n * 24 * hour = n * 86400 * sec by unfold hour sec; omega, Int.mul_tdiv_cancel _ (by decide),
    show n * 86400 * sec = n * dayNs by unfold dayNs sec; omega]

/-- **C243** DATE, DATETIME, TIME and CAST of a TIMESTAMP without a zone read the clock of the process: DATETIME and TIME agree with
UTC (which EXTRACT uses) exactly when the process is at UTC at that moment, DATE and CAST AS DATE when the two clocks are on the same
day. -/
theorem C243_clock_partial (loc : Location) (hl : loc.Lawful) (t : Int) :
    (datetimeOfTs loc none t = extractDatetime none t ↔ loc.off t = 0) ∧
    (timeOfTs loc none t = extractTime none t ↔ loc.off t = 0) ∧
    (dateOfTs loc none t = extractDate none t ↔ 0 ≤ tod t + loc.off t ∧ tod t + loc.off t < dayNs) ∧
    (castDate loc t = extractDate none t ↔ 0 ≤ tod t + loc.off t ∧ tod t + loc.off t < dayNs) ∧
    (currentDate loc t = extractDate none t ↔ 0 ≤ tod t + loc.off t ∧ tod t + loc.off t < dayNs) ∧
    (currentDatetime loc t = extractDatetime none t ↔ loc.off t = 0) ∧ (currentTime loc t = extractTime none t ↔ loc.off t = 0) := by
  have hb := hl.bound t
  have e : (Option.getD none Location.utc).wall t = t := utc_wall t
  simp only [datetimeOfTs, extractDatetime, timeOfTs, extractTime, dateOfTs, extractDate, castDate, currentDate, currentDatetime,
    currentTime, Res.ok.injEq, e]
  simp only [Option.getD_none, Location.wall, tDay, tod]
  generalize loc.off t = o at *
  unfold dayNs
  unfold hour at hb
  omega

/-- **C243** TIMESTAMP_ADD and TIMESTAMP_SUB of days keep the clock of the process: they add or subtract 24 hours a day if the process
has the same offset at both moments and its clock shows the reading only once. -/
theorem C243_add_partial (loc : Location) (hl : loc.Lawful) (t n : Int) (ho : loc.off (t + n * dayNs) = loc.off t)
    (hu : ∀ u, loc.wall u = loc.wall (t + n * dayNs) → u = t + n * dayNs) :
    timestampAddDay loc t n = .ok (t + n * dayNs) ∧ timestampSubDay loc t (-n) = .ok (t + n * dayNs) := by
  have key : addDateIn loc t 0 0 n = t + n * dayNs := by
    have e : tAddDate (loc.wall t) 0 0 n = loc.wall (t + n * dayNs) := by
      rw [tAddDays]
      unfold Location.wall
      rw [ho]
      omega
    unfold addDateIn
    rw [e]
    exact hu _ (Location.wall_date hl ⟨_, rfl⟩)
  unfold timestampAddDay timestampSubDay
  rw [Int.neg_neg, key]
  exact ⟨rfl, rfl⟩

/-- **C243** with a clock at a fixed distance from UTC a day has 24 hours. -/
theorem C243_add_fixed (o t n : Int) (ho : -(16 * hour) ≤ o ∧ o ≤ 16 * hour) :
    timestampAddDay (Location.fixed o) t n = .ok (t + n * dayNs) :=
  (C243_add_partial _ (Location.fixed_lawful ho) t n rfl (fun u h => by
    rw [Location.fixed_wall, Location.fixed_wall] at h; omega)).1

/-- Adding a day on the eve of the change adds 25 hours in a process in New York. -/
theorem C243_add_wrong : timestampAddDay newYork (1699113600 * sec) 1 = .ok (1699113600 * sec + 25 * hour) := by decide

theorem C243_full_false : ¬ C243_full := by
  intro h
  have := (h Location.utc newYork (Location.fixed_lawful (by decide)) newYork_lawful).1 0
  revert this
  decide

/-- In a process in New York DATE '1970-01-01' is 1969-12-31. -/
example : dateLiteral newYork 0 = .ok (-1) := by decide

/-! ### C244 -/

/-- The unit of a part of the day, and the day. -/
def unitOf : Date.Part → Option Int
  | .day => some dayNs
  | p => if p = .microsecond then none else unit p

/-- Full C244: TIMESTAMP_TRUNC(t, part, zone) is no later than `t`, and the clock in the zone shows the start of the unit at it. -/
def C244_full : Prop :=
  ∀ (z : Location), z.Lawful → ∀ t p u, unitOf p = some u →
    ∃ r, timestampTruncIn (some z) t p = .ok r ∧ r ≤ t ∧ z.wall r = z.wall t - z.wall t % u

theorem floor_eq (l : Int) :
    sameDay l (tHour l) (tMinute l) (tSecond l) (tNano l / ms * ms) = l - l % ms ∧
    sameDay l (tHour l) (tMinute l) (tSecond l) 0 = l - l % sec ∧ sameDay l (tHour l) (tMinute l) 0 0 = l - l % Go.minute ∧
    sameDay l (tHour l) 0 0 0 = l - l % Go.hour ∧ sameDay l 0 0 0 0 = l - l % dayNs := by
  simp only [sameDay_eq]
  simp only [tDay, tHour, tMinute, tSecond, tNano, tod, dayNs, hour, minute, sec, ms]
  omega

/-- **C244** the clock shows the start of the unit at the result, if it ever shows it. -/
theorem C244_shows_partial (z : Location) (hz : z.Lawful) (t : Int) (p : Date.Part) (u : Int) (hu : unitOf p = some u)
    (hs : ∃ m, z.wall m = z.wall t - z.wall t % u) :
    ∃ r, timestampTruncIn (some z) t p = .ok r ∧ z.wall r = z.wall t - z.wall t % u := by
  obtain ⟨f1, f2, f3, f4, f5⟩ := floor_eq (z.wall t)
  cases p <;> simp only [unitOf, unit, Option.some.injEq, reduceCtorEq, if_true, if_false] at hu <;> subst hu
  case day =>
    refine ⟨_, rfl, ?_⟩
    show z.wall (z.date (sameDay (z.wall (z.date (sameDay (z.wall t) 0 0 0 0))) 0 0 0 0)) = _
    rw [f5, Location.wall_date hz hs, (floor_eq _).2.2.2.2]
    rw [show z.wall t - z.wall t % dayNs - (z.wall t - z.wall t % dayNs) % dayNs = z.wall t - z.wall t % dayNs by unfold dayNs; omega]
    exact Location.wall_date hz hs
  all_goals refine ⟨_, rfl, ?_⟩
  case millisecond => show z.wall (z.date (sameDay _ _ _ _ _)) = _; rw [Option.getD_some, f1]; exact Location.wall_date hz hs
  case second => show z.wall (z.date (sameDay _ _ _ _ _)) = _; rw [Option.getD_some, f2]; exact Location.wall_date hz hs
  case minute => show z.wall (z.date (sameDay _ _ _ _ _)) = _; rw [Option.getD_some, f3]; exact Location.wall_date hz hs
  case hour => show z.wall (z.date (sameDay _ _ _ _ _)) = _; rw [Option.getD_some, f4]; exact Location.wall_date hz hs

/-- **C244** if the offset has not changed since the start of the unit and the clock shows this start only once, the result is the start
of the unit, no later than `t`. -/
theorem C244_partial (z : Location) (hz : z.Lawful) (t : Int) (p : Date.Part) (u : Int) (hu : unitOf p = some u)
    (ho : z.off (t - z.wall t % u) = z.off t) (h1 : ∀ m, z.wall m = z.wall (t - z.wall t % u) → m = t - z.wall t % u) :
    timestampTruncIn (some z) t p = .ok (t - z.wall t % u) ∧ t - z.wall t % u ≤ t := by
  have e : z.wall (t - z.wall t % u) = z.wall t - z.wall t % u := by
    show t - z.wall t % u + z.off (t - z.wall t % u) = _
    rw [ho]
    show _ = t + z.off t - z.wall t % u
    omega
  obtain ⟨r, hr, hw⟩ := C244_shows_partial z hz t p u hu ⟨_, e⟩
  rw [← e] at hw
  have := h1 r hw
  subst this
  refine ⟨hr, ?_⟩
  have hp : 0 < u := by
    cases p <;> simp only [unitOf, unit, Option.some.injEq, reduceCtorEq, if_true, if_false] at hu <;> subst hu <;> decide
  have := Int.emod_nonneg (z.wall t) (show u ≠ 0 by omega)
  omega

theorem stepBackIn_wall (z : Location) (hz : z.Lawful) (s : Int) : ∀ (fuel : Nat) (t : Int),
    (∀ n, ∃ m, z.wall m = n * dayNs + tod (z.wall t)) → z.wall (stepBackIn z s fuel t) = stepBack s fuel (z.wall t)
  | 0, _, _ => rfl
  | fuel + 1, t, hs => by
    have e : z.wall (addDateIn z t 0 0 (-1)) = tAddDate (z.wall t) 0 0 (-1) := by
      apply Location.wall_date hz
      obtain ⟨m, hm⟩ := hs (tDay (z.wall t) - 1)
      refine ⟨m, ?_⟩
      have := tDay_tod (z.wall t)
      rw [tAddDays, hm]
      unfold dayNs at *
      omega
    unfold stepBackIn stepBack
    by_cases hw : weekday (tDay (z.wall t)) = s
    · rw [if_pos hw, if_pos hw]
    · rw [if_neg hw, if_neg hw, stepBackIn_wall z hz s fuel, e]
      intro n
      obtain ⟨m, hm⟩ := hs n
      refine ⟨m, ?_⟩
      rw [hm, e, tAddDays]
      generalize z.wall t = l
      unfold tod dayNs
      omega

theorem tDate_mid (y m d : Int) : tDate y m d 0 0 0 0 = daysOf y m d * dayNs := by
  unfold tDate; omega

theorem dateTruncIn_eq (z : Location) (hz : z.Lawful) (t : Int) (p : Date.Part) (hm : ∀ n, ∃ m, z.wall m = n * dayNs)
    (hc : ∀ n, ∃ m, z.wall m = n * dayNs + tod (z.wall t)) : dateTruncIn z t p = dateTrunc (z.wall t) p := by
  have mid : ∀ y m d, z.wall (z.date (tDate y m d 0 0 0 0)) = tDate y m d 0 0 0 0 := fun y m d => by
    rw [tDate_mid]; exact Location.wall_date hz (hm _)
  cases p <;> simp only [dateTruncIn, dateTrunc, mid, stepBackIn_wall z hz _ _ t hc]
  congr 1
  unfold addDateIn
  rw [mid, tAddDays, tDate_mid]
  rw [show ∀ a b : Int, a * dayNs + b * dayNs = (a + b) * dayNs from fun a b => (Int.add_mul a b dayNs).symm]
  exact Location.wall_date hz (hm _)

/-- **C244** truncating to a day or more: if the clock shows every midnight, and the time of day of `t` on every day, the clock shows the
first midnight of the period at the result. -/
theorem C244_long_partial (z : Location) (hz : z.Lawful) (t : Int) (p : Spec.Part) (hp : p.ok) (h1 : p ≠ .isoweek) (h2 : p ≠ .isoyear)
    (hm : ∀ n, ∃ m, z.wall m = n * dayNs) (hc : ∀ n, ∃ m, z.wall m = n * dayNs + tod (z.wall t)) :
    ∃ r, timestampTruncIn (some z) t (toPart p) = .ok r ∧ IsStart p (z.wall t) (z.wall r) := by
  obtain ⟨r, hr, ht⟩ := C48_trunc_partial p hp h1 h2 (tDay (z.wall t))
  have e := dateTrunc_clock (z.wall t) p r hr
  have e2 : timestampTruncIn (some z) t (toPart p) = (dateTruncIn z t (toPart p)).bind fun d => .ok (z.date (sameDay d 0 0 0 0)) := by
    cases p <;> rfl
  have hb := tod_bound (z.wall t)
  have hd : tDay (Date.date r + kept p (tod (z.wall t))) = r := by
    unfold tDay Date.date
    unfold dayNs at *
    rcases kept_eq p (tod (z.wall t)) with h | h <;> omega
  rw [dateTruncIn_eq z hz t _ hm hc, e, Res.bind'_ok, sameDay_eq, hd] at e2
  refine ⟨_, e2, ?_⟩
  rw [show r * dayNs + 0 * hour + 0 * minute + 0 * sec + 0 = r * dayNs by omega, Location.wall_date hz (hm r)]
  exact ⟨tod_mul r, by rw [tDay_mul]; exact ht⟩

/-- **C244** in a zone at a fixed offset this is the truncation C52 and C92 speak of. -/
theorem C244_fixed (o t : Int) (ho : -(16 * hour) ≤ o ∧ o ≤ 16 * hour) (p : Date.Part) :
    timestampTruncIn (some (Location.fixed o)) t p = timestampTrunc t o p := by
  have hs : ∀ l, ∃ m, (Location.fixed o).wall m = l := fun l => ⟨l - o, by rw [Location.fixed_wall]; omega⟩
  have e := dateTruncIn_eq (Location.fixed o) (Location.fixed_lawful ho) t p (fun n => hs _) (fun n => hs _)
  cases p <;> simp only [timestampTruncIn, timestampTrunc, Option.getD_some, e, Location.fixed_date, Location.fixed_wall]

/-- The start of summer time in Sao Paulo, at midnight of 2018-11-04 (03:00 UTC). -/
def saoPaulo : Location := Location.change (1541300400 * sec) (-(3 * hour)) (-(2 * hour))
/-- The end of summer time in Berlin, 2023-10-29 01:00 UTC. -/
def berlin : Location := Location.change (1698541200 * sec) (2 * hour) hour

/-- In New York the second half past one becomes the first, an hour earlier; in Berlin the first half past two becomes the second, an hour
later; in Sao Paulo noon of a day without a midnight becomes the day before. -/
theorem C244_wrong :
    timestampTruncIn (some newYork) (1699165800 * sec) .minute = .ok (1699162200 * sec) ∧
    timestampTruncIn (some berlin) (1698539400 * sec) .minute = .ok (1698543000 * sec) ∧
    timestampTruncIn (some saoPaulo) (1541340000 * sec) .day = .ok (1541214000 * sec) := by decide

theorem C244_full_false : ¬ C244_full := by
  intro h
  obtain ⟨r, hr, hle, _⟩ := h berlin (Location.change_lawful (by decide) (by decide)) (1698539400 * sec) .minute _ rfl
  rw [C244_wrong.2.1] at hr
  cases hr
  revert hle
  decide

end Verif.Zoned
