import Verif.Go.TimeText
import Verif.Model.Value

/-!
# Texts of dates and times by a format

internal/function_time_parser.go: FORMAT_DATE, FORMAT_DATETIME, FORMAT_TIME, FORMAT_TIMESTAMP
(formatTime) and PARSE_DATE, PARSE_DATETIME, PARSE_TIME, PARSE_TIMESTAMP (parseTimeFormat).

A time.Time is here the time on the wall, in nanoseconds since 1970-01-01T00:00:00 of its own
zone, and the offset of the zone in seconds; the zones that occur are UTC and fixed offsets.
`ansic` is time.Parse with the layout "Mon Jan 02 15:04:05 2006" (modelled in Go/Ansic); here it may be any function.
Times beyond the range of Go's time package are not modelled.
-/

namespace Verif.TimeFormat

open Go Verif.Val

/-- A time.Time. -/
structure T where
  wall : Int
  off : Int
  deriving DecidableEq, Repr

/-- time.Date(t.Year(), t.Month(), …, t.Location()) with some of the fields replaced. -/
def T.year (t : T) : Int := yearOf (tDay t.wall)
@[inherit_doc T.year] def T.month (t : T) : Int := monthOf (tDay t.wall)
@[inherit_doc T.year] def T.day (t : T) : Int := dayOf (tDay t.wall)
@[inherit_doc T.year] def T.date (t : T) (y mo d h mi s ns : Int) : T := { t with wall := tDate y mo d h mi s ns }
@[inherit_doc T.year] def T.setYear (t : T) (y : Int) : T := t.date y t.month t.day (tHour t.wall) (tMinute t.wall) (tSecond t.wall) (tNano t.wall)
@[inherit_doc T.year] def T.setMonth (t : T) (m : Int) : T := t.date t.year m t.day (tHour t.wall) (tMinute t.wall) (tSecond t.wall) (tNano t.wall)
@[inherit_doc T.year] def T.setDay (t : T) (d : Int) : T := t.date t.year t.month d (tHour t.wall) (tMinute t.wall) (tSecond t.wall) (tNano t.wall)
@[inherit_doc T.year] def T.setHour (t : T) (h : Int) : T := t.date t.year t.month t.day h (tMinute t.wall) (tSecond t.wall) (tNano t.wall)
@[inherit_doc T.year] def T.setMinute (t : T) (m : Int) : T := t.date t.year t.month t.day (tHour t.wall) m (tSecond t.wall) (tNano t.wall)
@[inherit_doc T.year] def T.setSecond (t : T) (s : Int) : T := t.date t.year t.month t.day (tHour t.wall) (tMinute t.wall) s (tNano t.wall)

/-- function_time_parser.go:10-38 -/
def dayNames : List (List Char) :=
  [['S', 'u', 'n', 'd', 'a', 'y'], ['M', 'o', 'n', 'd', 'a', 'y'], ['T', 'u', 'e', 's', 'd', 'a', 'y'], ['W', 'e', 'd', 'n', 'e', 's', 'd', 'a', 'y'],
   ['T', 'h', 'u', 'r', 's', 'd', 'a', 'y'], ['F', 'r', 'i', 'd', 'a', 'y'], ['S', 'a', 't', 'u', 'r', 'd', 'a', 'y']]

@[inherit_doc dayNames] def monthNames : List (List Char) :=
  [['J', 'a', 'n', 'u', 'a', 'r', 'y'], ['F', 'e', 'b', 'r', 'u', 'a', 'r', 'y'], ['M', 'a', 'r', 'c', 'h'], ['A', 'p', 'r', 'i', 'l'],
   ['M', 'a', 'y'], ['J', 'u', 'n', 'e'], ['J', 'u', 'l', 'y'], ['A', 'u', 'g', 'u', 's', 't'], ['S', 'e', 'p', 't', 'e', 'm', 'b', 'e', 'r'],
   ['O', 'c', 't', 'o', 'b', 'e', 'r'], ['N', 'o', 'v', 'e', 'm', 'b', 'e', 'r'], ['D', 'e', 'c', 'e', 'm', 'b', 'e', 'r']]

/-- strings.ToLower, as far as the result is ASCII: of the other characters only İ has a lower case letter
of the names, i. -/
def lower (s : List Char) : List Char := s.map fun c => if c = 'İ' then 'i' else c.toLower

/-- function_time_parser.go:108-417 AvailableTypes; `none` for letters that are not in the map. -/
def kinds (c : Char) : Option (List TimeKind) :=
  if c ∈ ['A', 'a', 'B', 'b', 'C', 'D', 'd', 'e', 'F', 'G', 'g', 'h', 'J', 'j', 'm', 'Q', 'U', 'u', 'V', 'W', 'w', 'x', 'Y', 'y'] then some [.date, .datetime, .timestamp]
  else if c = 'c' then some [.datetime, .timestamp]
  else if c ∈ ['H', 'I', 'k', 'l', 'M', 'P', 'p', 'R', 'S', 's', 'T', 'X'] then some [.time, .datetime, .timestamp]
  else if c ∈ ['n', 't', '%'] then some [.date, .datetime, .time, .timestamp]
  else if c ∈ ['Z', 'z'] then some [.timestamp]
  else none

/-! ### Texts -/

/-- `fmt.Sprintf("%02d", n)` -/
def two (n : Int) : List Char := padInt 2 n

/-- `s[i:]` for a Go string of ASCII characters. -/
def from' (i : Nat) (s : List Char) : Res (List Char) := if i ≤ s.length then .ok (s.drop i) else .panic

/-- `s[:i]` for a Go string of ASCII characters. -/
def upTo (i : Nat) (s : List Char) : Res (List Char) := if i ≤ s.length then .ok (s.take i) else .panic

/-- t.Format("15:04:05") -/
def clock (t : T) : List Char := two (tHour t.wall) ++ ':' :: (two (tMinute t.wall) ++ ':' :: two (tSecond t.wall))

/-- t.Format("-07:00") -/
def offsetText (off : Int) : List Char :=
  let z := off.tdiv 60
  (if z < 0 then '-' else '+') :: (pad 2 (z.natAbs / 60) ++ ':' :: pad 2 (z.natAbs % 60))

/-- A number of two places, with a space for the first if there is none: function_time_parser.go:678-692. -/
def spaced (n : Int) : List Char := let s := decInt n; if s.length = 1 then ' ' :: s else s

/-- The formatters, function_time_parser.go:466-1115; `zone` is the name of the zone. -/
def formatElem (zone : List Char) (t : T) (c : Char) : Res (List Char) :=
  let d := tDay t.wall
  let h := tHour t.wall
  if c = 'A' then .ok (dayNames.getD (weekday d).toNat [])
  else if c = 'a' then .ok ((dayNames.getD (weekday d).toNat []).take 3)
  else if c = 'B' then .ok (monthNames.getD (t.month - 1).toNat [])
  else if c = 'b' ∨ c = 'h' then .ok ((monthNames.getD (t.month - 1).toNat []).take 3)
  else if c = 'C' then upTo 2 (decInt t.year)
  else if c = 'c' then .ok ((dayNames.getD (weekday d).toNat []).take 3 ++ ' ' :: ((monthNames.getD (t.month - 1).toNat []).take 3 ++ ' ' :: (two t.day ++ ' ' :: (clock t ++ ' ' :: padInt 4 t.year))))
  else if c = 'D' ∨ c = 'x' then (from' 2 (decInt t.year)).bind fun y => .ok (two t.month ++ '/' :: (two t.day ++ '/' :: y))
  else if c = 'd' ∨ c = 'e' then .ok (two t.day)
  else if c = 'F' then .ok (padInt 4 t.year ++ '-' :: (two t.month ++ '-' :: two t.day))
  else if c = 'G' ∨ c = 'g' ∨ c = 'J' then .ok (decInt (isoYear d))
  else if c = 'H' ∨ c = 'I' then .ok (two h)
  else if c = 'j' then .ok (decInt (ydayOf d + 1))
  else if c = 'k' then .ok (spaced h)
  else if c = 'l' then .ok (spaced (h % 12))
  else if c = 'M' then .ok (two (tMinute t.wall))
  else if c = 'm' then .ok (two t.month)
  else if c = 'n' then .ok ['\n']
  else if c = 'P' then .ok (if h < 12 then ['a', 'm'] else ['p', 'm'])
  else if c = 'p' then .ok (if h < 12 then ['A', 'M'] else ['P', 'M'])
  else if c = 'Q' then .ok (if ydayOf d + 1 < 90 then ['1'] else if ydayOf d + 1 < 180 then ['2'] else if ydayOf d + 1 < 270 then ['3'] else ['4'])
  else if c = 'R' then .ok (two h ++ ':' :: two (tMinute t.wall))
  else if c = 'S' then .ok (two (tSecond t.wall))
  else if c = 's' then .ok (decInt (tUnix (t.wall - t.off * sec)))
  else if c = 'T' ∨ c = 'X' then .ok (clock t)
  else if c = 't' then .ok ['\t']
  else if c = 'U' ∨ c = 'u' ∨ c = 'V' ∨ c = 'W' then .ok (decInt (isoWeek d))
  else if c = 'w' then .ok (decInt (isoWeek d - 1))
  else if c = 'Y' then .ok (decInt t.year)
  else if c = 'y' then .ok ((padInt 4 t.year).drop ((padInt 4 t.year).length - 2))
  else if c = 'Z' then .ok zone
  else if c = 'z' then .ok (decInt t.off)
  else .ok ['%']

/-- function_time_parser.go:1278-1364 combinationPatternInfo. -/
inductive Combo where
  | zone
  | frac (precision : Nat)
  | year4
  deriving DecidableEq, Repr

/-- The combination that starts with `e`, and the rest of the format after it. -/
def combo : List Char → Option (Combo × List Char)
  | [] => none
  | e :: g =>
    if e = 'z' then some (.zone, g)
    else match g with
      | [] => none
      | s :: g =>
        if e ∈ ['1', '2', '3', '5', '6'] ∧ s = 'S' then some (.frac ((digitVal e).getD 0), g)
        else if e = '4' ∧ s = 'S' then some (.frac 4, g)
        else if e = '4' ∧ s = 'Y' then some (.year4, g)
        else if e = '*' ∧ s = 'S' then some (.frac 6, g)
        else none

@[inherit_doc Combo] def Combo.kinds : Combo → List TimeKind
  | .zone => [.timestamp]
  | .frac _ => [.time, .datetime, .timestamp]
  | .year4 => [.date, .datetime, .timestamp]

/-- function_time_parser.go:1425-1465: t.Format("05.000") cuts off the digits that follow. -/
def Combo.format (t : T) : Combo → List Char
  | .zone => offsetText t.off
  | .frac p => two (tSecond t.wall) ++ '.' :: (pad 9 (tNano t.wall).toNat).take p
  | .year4 => padInt 4 t.year

theorem combo_length {f : List Char} {c : Combo} {g : List Char} (h : combo f = some (c, g)) : g.length < f.length := by
  unfold combo at h
  split at h
  · cases h
  · split at h
    · cases h; simp
    · split at h
      · cases h
      · repeat' split at h
        all_goals cases h
        all_goals simp only [List.length_cons]; omega

/-- function_time_parser.go:1214-1262 formatTime.  After a combination the loop steps once more than it should. -/
def format (zone : List Char) (k : TimeKind) (t : T) : List Char → Res (List Char)
  | [] => .ok []
  | c :: f =>
    if c = '%' then match f with
      | [] => .err
      | e :: g =>
        if e = 'E' then match h : combo g with
          | none => .err
          | some (m, g') =>
            if k ∈ m.kinds then (format zone k t g'.tail).bind fun s => .ok (m.format t ++ s)
            else .err
        else match kinds e with
          | none => .err
          | some ks => if k ∈ ks then (formatElem zone t e).bind fun s => (format zone k t g).bind fun s' => .ok (s ++ s') else .err
    else (format zone k t f).bind fun s => .ok (c :: s)
termination_by f => f.length
decreasing_by
  · have := combo_length h
    simp only [List.length_tail, List.length_cons]
    omega
  · simp only [List.length_cons]; omega
  · simp only [List.length_cons]; omega

/-! ### Reading -/

/-- What a parser has left of the text, and the time so far. -/
abbrev Parser := List Char → T → Res (List Char × T)

/-- function_time_parser.go:795-846 parseDigitRespectingOptionalPlaces: as many digits as `max` has, or fewer. -/
def digits (lo hi : Nat) (text : List Char) : Res (Nat × List Char) :=
  let ds := (text.take (decNat hi).length).takeWhile fun c => (digitVal c).isSome
  match parseNat ds with
  | none => .err
  | some n => if lo ≤ n ∧ n ≤ hi then .ok (n, text.drop ds.length) else .err

/-- A parser of a number. -/
def number (lo hi : Nat) (set : T → Int → T) : Parser := fun text t =>
  (digits lo hi text).bind fun (n, rest) => .ok (rest, set t n)

/-- function_time_parser.go:425-437 createStaticTextParser, for one character. -/
def static (c : Char) : Parser := fun text t => match text with
  | [] => .err
  | d :: rest => if d = c then .ok (rest, t) else .err

/-- function_time_parser.go:439-451 composeParseFunctions -/
def seq : List Parser → Parser
  | [] => fun text t => .ok (text, t)
  | p :: ps => fun text t => (p text t).bind fun (rest, t) => seq ps rest t

/-- The first of the names that the text begins with, in any case of the letters. -/
def name : List (List Char) → Nat → List Char → Option (Nat × List Char)
  | [], _, _ => none
  | n :: ns, i, text => if n.length ≤ text.length ∧ lower n = lower (text.take n.length) then some (i, text.drop n.length) else name ns (i + 1) text

/-- function_time_parser.go:669-676 leadingSpaceAllowedParser -/
def spaceAllowed : Parser := fun text t => match text with
  | c :: d :: rest => if c = ' ' then .ok (d :: rest, t) else .ok (c :: d :: rest, t)
  | _ => .err

/-- function_time_parser.go:1025-1031 yearParser and the parsers of the other fields. -/
def yearP : Parser := number 1 9999 T.setYear
@[inherit_doc yearP] def monthP : Parser := number 1 12 T.setMonth
@[inherit_doc yearP] def dayP : Parser := number 1 31 T.setDay
@[inherit_doc yearP] def hourP : Parser := number 0 23 T.setHour
@[inherit_doc yearP] def hour12P : Parser := number 1 12 T.setHour
@[inherit_doc yearP] def minuteP : Parser := number 0 59 T.setMinute
@[inherit_doc yearP] def secondP : Parser := number 0 59 T.setSecond
/-- function_time_parser.go:566-588 -/
def shortYearP : Parser := number 0 99 fun t y => t.setYear (if 69 ≤ y then y + 1900 else y + 2000)
/-- function_time_parser.go:740-762: the day of the year; in a year of 365 days the 366th is January 1. -/
def yearDayP : Parser := number 1 366 fun t n =>
  let s := daysOf t.year 1 1 + (n - 1)
  t.date t.year (monthOf s) (dayOf s) (tHour t.wall) (tMinute t.wall) (tSecond t.wall) (tNano t.wall)

/-- The parsers of function_time_parser.go:453-1115.  Those that are not implemented are an error. -/
def parseElem (ansic : List Char → Option Int) (c : Char) : Parser := fun text t =>
  if c = 'A' then match name dayNames 0 text with
    | some (_, rest) => .ok (rest, t)
    | none => .err
  else if c = 'a' then match name (dayNames.map (·.take 3)) 0 text with
    | some (_, rest) => .ok (rest, t)
    | none => .err
  else if c = 'B' then match name monthNames 0 text with
    | some (i, rest) => .ok (rest, t.setMonth (i + 1))
    | none => .err
  else if c = 'b' ∨ c = 'h' then match name (monthNames.map (·.take 3)) 0 text with
    | some (i, rest) => .ok (rest, { t with wall := tAddDate t.wall 0 (i + 1 - t.month) 0 })
    | none => .err
  else if c = 'C' then
    if text.length < 2 then .err
    else match parseInt64 (text.take 2) with
      | none => .err
      | some n => if n < 0 then .err else .ok (text.drop 2, t.setYear (n * 100 - 99))
  else if c = 'c' then match ansic text with
    | some v => .ok ([], { wall := v, off := 0 })
    | none => .err
  else if c = 'D' ∨ c = 'x' then seq [monthP, static '/', dayP, static '/', shortYearP] text t
  else if c = 'd' then dayP text t
  else if c = 'e' then seq [spaceAllowed, dayP] text t
  else if c = 'F' then seq [yearP, static '-', monthP, static '-', dayP] text t
  else if c = 'H' then hourP text t
  else if c = 'I' then hour12P text t
  else if c = 'j' then yearDayP text t
  else if c = 'k' then seq [spaceAllowed, hourP] text t
  else if c = 'l' then seq [spaceAllowed, hour12P] text t
  else if c = 'M' then minuteP text t
  else if c = 'm' then monthP text t
  else if c = 'p' then
    if text.length < 2 then .err
    else if lower (text.take 2) = ['a', 'm'] ∨ lower (text.take 2) = ['p', 'm'] then .ok (text.drop 2, t) else .err
  else if c = 'R' then seq [hourP, static ':', minuteP] text t
  else if c = 'S' then secondP text t
  else if c = 's' then
    if text.length < 10 then .err
    else match parseInt64 (text.take 10) with
      | none => .err
      | some n => if n < 0 then .err else .ok (text.drop 10, { wall := n * sec, off := 0 })
  else if c = 'T' ∨ c = 'X' then seq [hourP, static ':', minuteP, static ':', secondP] text t
  else if c = 'Y' then yearP text t
  else if c = 'y' then shortYearP text t
  else .err

/-- `\d{2}\.?\d*` at the start of a text: the digits before the point, and those after it if there is a point. -/
def fracAt (s : List Char) : Option (List Char × Option (List Char)) :=
  let isD := fun c => (digitVal c).isSome
  let a := s.takeWhile isD
  if a.length < 2 then none
  else match s.dropWhile isD with
    | [] => some (a, none)
    | c :: r => if c = '.' then some (a, some (r.takeWhile isD)) else some (a, none)

/-- FindString: the leftmost match. -/
def fracFind : List Char → Option (List Char × Option (List Char))
  | [] => none
  | c :: s => (fracAt (c :: s)).or (fracFind s)

/-- function_time_parser.go:1430-1461 timePrecisionParser.  The text may match further on; as many characters are
skipped as the match has. -/
def fracP (precision : Nat) : Parser := fun text t => match fracFind text with
  | none => .err
  | some (a, b) => match parseInt64 a with
    | none => .err
    | some s =>
      let len := a.length + (match b with | none => 0 | some b => b.length + 1)
      let set (n : Int) : T := t.date t.year t.month t.day (tHour t.wall) (tMinute t.wall) s n
      match b with
      | none => .ok (text.drop len, set (tNano t.wall))
      | some b =>
        let b := b.take precision
        match parseInt64 (b ++ List.replicate (9 - b.length) '0') with
        | none => .err
        | some n => .ok (text.drop len, set n)

/-- function_time_parser.go:1366-1423 timeZoneRFC3339Parser.  The offset has to be the end of the text. -/
def zoneP : Parser := fun text t => match text with
  | [] => .panic
  | c :: rest =>
    if c = 'Z' then .ok (rest, { t with off := 0 })
    else if c = '+' ∨ c = '-' then match rest with
      | [a, b, d, e, f] =>
        if d = ':' ∧ a ≠ ':' ∧ b ≠ ':' ∧ e ≠ ':' ∧ f ≠ ':' then match parseInt64 [a, b], parseInt64 [e, f] with
          | some h, some m => .ok ([], { t with off := if c = '-' then - (h * 3600 + m * 60) else h * 3600 + m * 60 })
          | _, _ => .err
        else .err
      | _ => .err
    else .err

@[inherit_doc Combo] def Combo.parse : Combo → Parser
  | .zone => zoneP
  | .frac p => fracP p
  | .year4 => yearP

/-- The state of the loop of parseTimeFormat: the time, the rest of the text, `over` when the index is past its end, the
elements that occurred and the text of the last %p. -/
structure S where
  t : T
  rest : List Char
  over : Bool
  seen : List Char
  ampm : List Char
  deriving DecidableEq, Repr

/-- function_time_parser.go:1130-1190: the loop.  Other characters are skipped without comparison. -/
def loop (ansic : List Char → Option Int) (k : TimeKind) : List Char → S → Res S
  | [], s => .ok s
  | c :: f, s =>
    if c = '%' then match f with
      | [] => .err
      | e :: g =>
        if e = 'E' then match h : combo g with
          | none => .err
          | some (m, g') =>
            if k ∈ m.kinds then
              if s.over = true ∨ s.rest = [] then .err
              else (m.parse s.rest s.t).bind fun (rest, t) => loop ansic k g' { s with t := t, rest := rest, seen := 'E' :: s.seen }
            else .err
        else match kinds e with
          | none => .err
          | some ks =>
            if k ∈ ks then
              if s.over = true ∨ s.rest = [] then .err
              else (parseElem ansic e s.rest s.t).bind fun (rest, t) =>
                loop ansic k g { s with t := t, rest := rest, seen := e :: s.seen, ampm := if e = 'p' then s.rest.take 2 else s.ampm }
            else .err
    else if c = ' ' then loop ansic k f { s with rest := s.rest.dropWhile fun c => c = ' ' }
    else match s.rest with
      | [] => loop ansic k f { s with over := true }
      | _ :: rest => loop ansic k f { s with rest := rest }
termination_by f => f.length
decreasing_by
  · have := combo_length h
    simp only [List.length_cons]
    omega
  all_goals simp only [List.length_cons]; omega

/-- function_time_parser.go:912-955: the hour of a 12-hour clock. -/
def postprocess (s : S) : T :=
  if 'p' ∈ s.seen ∧ ¬ ('X' ∈ s.seen ∨ 'T' ∈ s.seen ∨ 'R' ∈ s.seen ∨ 'k' ∈ s.seen ∨ 'H' ∈ s.seen) ∧ ('l' ∈ s.seen ∨ 'I' ∈ s.seen) then
    let h := tHour s.t.wall
    if lower s.ampm = ['a', 'm'] then s.t.setHour (h % 12) else s.t.setHour (if h < 12 then h + 12 else h)
  else s.t

/-- function_time_parser.go:1117-1212 parseTimeFormat.  With the index past the end, `target[targetIdx:]` panics. -/
def parse (ansic : List Char → Option Int) (k : TimeKind) (f text : List Char) : Res T :=
  (loop ansic k f { t := { wall := 0, off := 0 }, rest := text, over := false, seen := [], ampm := [] }).bind fun s =>
    if s.over then .panic else if s.rest ≠ [] then .err else .ok (postprocess s)

/-- function_date.go:241-247, function_datetime.go:276-282, function_time.go:174-180: the values are in UTC.  TIME values
are on 0001-01-01 in Go and on 1970-01-01 here; their elements do not show the day. -/
def FORMAT (k : TimeKind) (f : List Char) (t : Int) : Res Val := (format ['U', 'T', 'C'] k { wall := t, off := 0 } f).bind fun s => .ok (.str s)

/-- function_timestamp.go:194-205 with a zone of a fixed offset. -/
def FORMAT_TIMESTAMP (zone : List Char) (off : Int) (f : List Char) (t : Int) : Res Val :=
  (format zone .timestamp { wall := t + off * sec, off := off } f).bind fun s => .ok (.str s)

/-- function_date.go:279-285, function_datetime.go:284-290, function_time.go:182-188, function_timestamp.go:207-213.  The
value of a DATE, a DATETIME or a TIME is what the time shows on the wall, that of a TIMESTAMP the instant. -/
def PARSE (ansic : List Char → Option Int) (k : TimeKind) (f text : List Char) : Res Val :=
  (parse ansic k f text).bind fun t => .ok (.time k (if k = .timestamp then t.wall - t.off * sec else t.wall))

end Verif.TimeFormat
