import Verif.Model.CastFormat
import Verif.Props.Cast

/-!
# C281: CAST with FORMAT
-/

namespace Verif.CastFormat

open Go Verif.Val

/-! ### What formats mean -/

/-- Elements of the formats of dates. -/
inductive Elem where
  | yyyy | mm | dd
  | sep (c : Char)
  deriving DecidableEq

/-- The characters that stand for themselves. -/
def seps : List Char := ['-', '.', '/', ',', ';', ':', ' ']

/-- A format. -/
def Format (F : List Elem) : Prop := ∀ c, Elem.sep c ∈ F → c ∈ seps

/-- The text of a format. -/
def formatText (F : List Elem) : List Char := F.flatMap fun
  | .yyyy => ['Y', 'Y', 'Y', 'Y']
  | .mm => ['M', 'M']
  | .dd => ['D', 'D']
  | .sep c => [c]

/-- The digit for the units. -/
def dig (n : Nat) : Char := Char.ofNat (48 + n % 10)

/-- Two digits. -/
def two (n : Int) : List Char := [dig (n.toNat / 10), dig n.toNat]

/-- The text of a date in a format. -/
def inFormat (F : List Elem) (y m d : Int) : List Char := F.flatMap fun
  | .yyyy => [dig (y.toNat / 1000), dig (y.toNat / 100), dig (y.toNat / 10), dig y.toNat]
  | .mm => two m
  | .dd => two d
  | .sep c => [c]

/-- C281: CAST of a DATE to STRING with a format gives the text of the date in that format, and CAST of BYTES to STRING and of STRING to BYTES with
the format HEX are TO_HEX and FROM_HEX. -/
def C281_full : Prop := ∀ (other : List Char → Rat) (zone : Option (List Char)),
  (∀ (F : List Elem) (t : Int), Format F → tod t = 0 → 1 ≤ yearOf (tDay t) → yearOf (tDay t) ≤ 9999 →
    run other ⟨.time .date, .str, false, some (formatText F), zone⟩ (.time .date t) =
      .ok (.str (inFormat F (yearOf (tDay t)) (monthOf (tDay t)) (dayOf (tDay t))))) ∧
  (∀ b, run other ⟨.bytes, .str, false, some ['H', 'E', 'X'], zone⟩ (.bytes b) = .ok (.str (Strings.toHex b))) ∧
  (∀ s b, Strings.fromHex s = .ok b → run other ⟨.str, .bytes, false, some ['H', 'E', 'X'], zone⟩ (.str s) = .ok (.bytes b))

/-- The format of the cast without format. -/
def iso : List Elem := [.yyyy, .sep '-', .mm, .sep '-', .dd]

theorem digit_eq (n : Nat) : digitChar (n % 10) = dig n := rfl

theorem date_iso (t : Int) (h1 : 1 ≤ yearOf (tDay t)) (h2 : yearOf (tDay t) ≤ 9999) :
    dateText t = inFormat iso (yearOf (tDay t)) (monthOf (tDay t)) (dayOf (tDay t)) := by
  have hc := civil_valid (tDay t)
  have hl := monthLen_bound (yearOf (tDay t)) hc.1 hc.2.1
  unfold dateText padInt pad
  generalize yearOf (tDay t) = y at *
  generalize monthOf (tDay t) = m at *
  generalize dayOf (tDay t) = d at *
  rw [if_neg (by omega), if_pos (by omega), if_pos (by omega), if_pos (by omega)]
  have e : y.natAbs = y.toNat := by omega
  rw [e]
  simp [inFormat, iso, padDigits, digit_eq, two, Nat.div_div_eq_div_mul]

theorem run_date (other : List Char → Rat) (safe : Bool) (f zone : Option (List Char)) (t : Int) (h1 : 1 ≤ yearOf (tDay t)) (h2 : yearOf (tDay t) ≤ 9999) :
    run other ⟨.time .date, .str, safe, f, zone⟩ (.time .date t) = .ok (.str (inFormat iso (yearOf (tDay t)) (monthOf (tDay t)) (dayOf (tDay t)))) := by
  rw [← date_iso t h1 h2]
  rfl

/-- **C281** for dates, exactly: the text is the one asked for if and only if it is the text in YYYY-MM-DD. -/
theorem C281_date_iff (other : List Char → Rat) (safe : Bool) (zone : Option (List Char)) (F : List Elem) (t : Int)
    (h1 : 1 ≤ yearOf (tDay t)) (h2 : yearOf (tDay t) ≤ 9999) :
    run other ⟨.time .date, .str, safe, some (formatText F), zone⟩ (.time .date t) =
      .ok (.str (inFormat F (yearOf (tDay t)) (monthOf (tDay t)) (dayOf (tDay t)))) ↔
    inFormat F (yearOf (tDay t)) (monthOf (tDay t)) (dayOf (tDay t)) = inFormat iso (yearOf (tDay t)) (monthOf (tDay t)) (dayOf (tDay t)) := by
  rw [run_date other safe _ zone t h1 h2]
  simp [eq_comm]

theorem inFormat_cons (e : Elem) (F : List Elem) (y m d : Int) : inFormat (e :: F) y m d = inFormat [e] y m d ++ inFormat F y m d := by
  simp [inFormat]

theorem text_iso {F : List Elem} (hF : Format F) (e : inFormat F 1234 5 6 = inFormat iso 1234 5 6) : F = iso := by
  have hi : inFormat iso 1234 5 6 = ['1', '2', '3', '4', '-', '0', '5', '-', '0', '6'] := by decide
  have hy : inFormat [.yyyy] 1234 5 6 = ['1', '2', '3', '4'] := by decide
  have hm : inFormat [.mm] 1234 5 6 = ['0', '5'] := by decide
  have hd : inFormat [.dd] 1234 5 6 = ['0', '6'] := by decide
  have hs : ∀ c, inFormat [.sep c] 1234 5 6 = [c] := fun c => rfl
  have hn : ∀ G, inFormat [] 1234 5 6 = G ↔ G = [] := fun G => ⟨fun h => h.symm, fun h => h.symm⟩
  have nsep : ∀ {c : Char} {G : List Elem}, Format (.sep c :: G) → c ≠ '0' ∧ c ≠ '1' := by
    intro c G h
    have := h c (by simp)
    constructor <;> (rintro rfl; revert this; decide)
  have tl : ∀ {x : Elem} {G : List Elem}, Format (x :: G) → Format G := fun h c hc => h c (List.mem_cons_of_mem _ hc)
  rw [hi] at e
  rcases F with _ | ⟨a, F⟩
  · rw [hn] at e; cases e
  rw [inFormat_cons] at e
  cases a <;> simp only [hy, hm, hd, hs, List.cons_append, List.nil_append, List.cons.injEq, true_and] at e
  case mm => exact absurd e.1 (by decide)
  case dd => exact absurd e.1 (by decide)
  case sep c => exact absurd e.1 (nsep hF).2
  replace hF := tl hF
  rcases F with _ | ⟨a, F⟩
  · rw [hn] at e; cases e
  rw [inFormat_cons] at e
  cases a <;> simp only [hy, hm, hd, hs, List.cons_append, List.nil_append, List.cons.injEq] at e
  case yyyy => exact absurd e.1 (by decide)
  case mm => exact absurd e.1 (by decide)
  case dd => exact absurd e.1 (by decide)
  obtain ⟨rfl, e⟩ := e
  replace hF := tl hF
  rcases F with _ | ⟨a, F⟩
  · rw [hn] at e; cases e
  rw [inFormat_cons] at e
  cases a <;> simp only [hy, hm, hd, hs, List.cons_append, List.nil_append, List.cons.injEq, true_and] at e
  case yyyy => exact absurd e.1 (by decide)
  case dd => exact absurd e.1 (by decide)
  case sep c => exact absurd e.1 (nsep hF).1
  replace hF := tl hF
  rcases F with _ | ⟨a, F⟩
  · rw [hn] at e; cases e
  rw [inFormat_cons] at e
  cases a <;> simp only [hy, hm, hd, hs, List.cons_append, List.nil_append, List.cons.injEq] at e
  case yyyy => exact absurd e.1 (by decide)
  case mm => exact absurd e.1 (by decide)
  case dd => exact absurd e.1 (by decide)
  obtain ⟨rfl, e⟩ := e
  replace hF := tl hF
  rcases F with _ | ⟨a, F⟩
  · rw [hn] at e; cases e
  rw [inFormat_cons] at e
  cases a <;> simp only [hy, hm, hd, hs, List.cons_append, List.nil_append, List.cons.injEq, true_and] at e
  case yyyy => exact absurd e.1 (by decide)
  case mm => exact absurd e.1 (by decide)
  case sep c => exact absurd e.1 (nsep hF).1
  rcases F with _ | ⟨a, F⟩
  · rfl
  rw [inFormat_cons] at e
  cases a <;> simp [hy, hm, hd, hs] at e

/-- The format YYYY-MM-DD is the only one that is right for all dates. -/
theorem C281_iso_iff (other : List Char → Rat) (zone : Option (List Char)) (F : List Elem) (hF : Format F) :
    (∀ t : Int, tod t = 0 → 1 ≤ yearOf (tDay t) → yearOf (tDay t) ≤ 9999 →
      run other ⟨.time .date, .str, false, some (formatText F), zone⟩ (.time .date t) =
        .ok (.str (inFormat F (yearOf (tDay t)) (monthOf (tDay t)) (dayOf (tDay t))))) ↔ F = iso := by
  constructor
  · intro h
    have e := h (tDate 1234 5 6 0 0 0 0) (by decide +kernel) (by decide +kernel) (by decide +kernel)
    rw [C281_date_iff _ _ _ _ _ (by decide +kernel) (by decide +kernel)] at e
    exact text_iso hF e
  · rintro rfl t _ h1 h2
    exact run_date other false _ zone t h1 h2

theorem hex_no_pad : ∀ b : List UInt8, '=' ∉ hex b
  | [] => by simp [hex]
  | x :: b => by
    have hd : ∀ n : Nat, n < 16 → '=' ≠ hexDigit n := by decide
    have hx := x.toNat_lt
    simp only [hex, List.mem_cons, not_or]
    exact ⟨hd _ (by omega), hd _ (by omega), hex_no_pad b⟩

theorem base64_pad (b : List UInt8) : '=' ∈ Base64.encode b ∨ 3 * (Base64.encode b).length = 4 * b.length := by
  induction b using Base64.encode.induct with
  | case1 a b c rest ih =>
    simp only [Base64.encode, List.length_cons, List.mem_cons]
    rcases ih with ih | ih
    · left; simp [ih]
    · right; omega
  | case2 => simp [Base64.encode]
  | case3 => simp [Base64.encode]
  | case4 => simp [Base64.encode]

/-- BYTES to STRING with the format HEX: right for the empty BYTES only. -/
theorem C281_hex_iff (other : List Char → Rat) (safe : Bool) (zone : Option (List Char)) (b : List UInt8) :
    run other ⟨.bytes, .str, safe, some ['H', 'E', 'X'], zone⟩ (.bytes b) = .ok (.str (Strings.toHex b)) ↔ b = [] := by
  constructor
  · intro h
    have h' : Res.ok (Val.str (Base64.encode b)) = .ok (.str (hex b)) := h
    have e : Base64.encode b = hex b := by simpa using h'
    rcases base64_pad b with hp | hp
    · rw [e] at hp
      exact absurd hp (hex_no_pad b)
    · rw [e, hex_length] at hp
      exact List.eq_nil_of_length_eq_zero (by omega)
  · rintro rfl
    rfl

/-- BYTES to STRING with the format BASE64: right. -/
theorem C281_base64 (other : List Char → Rat) (safe : Bool) (zone : Option (List Char)) (b : List UInt8) :
    run other ⟨.bytes, .str, safe, some ['B', 'A', 'S', 'E', '6', '4'], zone⟩ (.bytes b) = .ok (.str (Strings.toBase64 b)) := rfl

theorem unhex_length : ∀ (s : List Char) {b : List UInt8}, unhex s = some b → s.length = 2 * b.length
  | [], b, h => by simp only [unhex, Option.some.injEq] at h; subst h; rfl
  | [_], b, h => by simp [unhex] at h
  | x :: y :: s, b, h => by
    simp only [unhex] at h
    split at h
    · obtain ⟨c, hc, rfl⟩ := Option.map_eq_some_iff.1 h
      have := unhex_length s hc
      simp only [List.length_cons]
      omega
    · cases h

/-- STRING to BYTES with the format HEX: right for the empty STRING only. -/
theorem C281_from_hex_iff (other : List Char → Rat) (safe : Bool) (zone : Option (List Char)) (s : List Char) (b : List UInt8) (hb : Strings.fromHex s = .ok b) :
    run other ⟨.str, .bytes, safe, some ['H', 'E', 'X'], zone⟩ (.str s) = .ok (.bytes b) ↔ s = [] := by
  constructor
  · intro h
    have h' : Res.ok (Val.bytes (utf8 s)) = .ok (.bytes b) := h
    have e : utf8 s = b := by simpa using h'
    subst e
    have hl := Codec.utf8_length s
    unfold Strings.fromHex at hb
    split at hb
    · rename_i c hc
      cases hb
      have hn := unhex_length _ hc
      split at hc
      · rename_i ho
        rw [if_pos ho] at hn
        simp only [List.length_cons] at hn
        have h1 : s.length = 1 := by omega
        match s, h1 with
        | [x], _ =>
          simp only [unhex] at hc
          split at hc
          · rename_i p q hp hq
            have hp0 : p = 0 := by
              have : hexVal '0' = some 0 := by decide
              rw [this] at hp
              cases hp
              rfl
            subst hp0
            have hx : x.toNat < 128 ∧ 48 ≤ x.toNat ∧ q < 16 := by
              unfold hexVal at hq
              simp only at hq
              repeat' split at hq
              all_goals first | cases hq | skip
              all_goals omega
            simp at hc
            have hu : String.utf8EncodeChar x = [UInt8.ofNat x.toNat] := by
              rw [String.utf8EncodeChar, if_pos (by have : x.val.toNat < 128 := hx.1; omega)]
              rfl
            rw [hu] at hc
            simp only [List.cons.injEq, and_true] at hc
            have := congrArg UInt8.toNat hc
            simp at this
            omega
          · cases hc
      · rename_i ho
        rw [if_neg ho] at hn
        exact List.eq_nil_of_length_eq_zero (by omega)
    · cases hb
  · rintro rfl
    have : b = [] := by
      have h0 : Strings.fromHex [] = .ok [] := rfl
      rw [h0] at hb
      cases hb
      rfl
    subst this
    rfl

theorem strTime_slash (a b : Char) (r : List Char) : Cast.strTime (a :: b :: '/' :: r) = .err := by
  have h1 : Cast.isDigit '/' = false := by decide
  have h2 : Cast.lit ':' '/' = false := by decide
  have e1 : Cast.isDate (a :: b :: '/' :: r) = false := by
    unfold Cast.isDate Cast.dateClasses
    simp only [Cast.matchClasses, h1]
    repeat' split
    all_goals simp_all
  have e2 : Cast.isDatetime (a :: b :: '/' :: r) = false := by
    unfold Cast.isDatetime Cast.dateClasses
    simp only [List.cons_append, Cast.matchClasses, h1]
    repeat' split
    all_goals simp_all
  have e3 : Cast.isTime (a :: b :: '/' :: r) = false := by
    unfold Cast.isTime Cast.clockClasses
    simp only [Cast.matchClasses, h2]
    repeat' split
    all_goals simp_all
  have e4 : Cast.parseTimestamp (a :: b :: '/' :: r) = none := by
    have : parseDatePart (a :: b :: '/' :: r) = none := by
      have hd : ∀ l, digitsVal 0 (a :: b :: '/' :: l) = none := by
        intro l
        have h3 : digitVal '/' = none := by decide
        simp only [digitsVal, h3]
        repeat' split
        all_goals simp_all
      have ht : takeDigits 4 (a :: b :: '/' :: r) = none := by
        unfold takeDigits
        split
        · rfl
        · simp [hd]
      unfold parseDatePart
      rw [ht]
    unfold Cast.parseTimestamp
    rw [this]
  unfold Cast.strTime
  simp [e1, e2, e3, e4]

/-- STRING to DATE with the format MM/DD/YYYY: always an error. -/
theorem C281_parse (other : List Char → Rat) (zone : Option (List Char)) (y m d : Int) :
    run other ⟨.str, .time .date, false, some (formatText [.mm, .sep '/', .dd, .sep '/', .yyyy]), zone⟩
      (.str (inFormat [.mm, .sep '/', .dd, .sep '/', .yyyy] y m d)) = .err := by
  have e : ∃ a b r, inFormat [.mm, .sep '/', .dd, .sep '/', .yyyy] y m d = a :: b :: '/' :: r := ⟨_, _, _, rfl⟩
  obtain ⟨a, b, r, e⟩ := e
  rw [e]
  simp only [run, Cast.cast, Cast.castValue, Cast.toStr, Cast.toTime, Res.bind'_ok, strTime_slash]
  rfl

theorem C281_full_false : ¬ C281_full := by
  intro h
  have := (C281_hex_iff (fun _ => 0) false none [1]).1 ((h (fun _ => 0) none).2.1 [1])
  cases this

example : Format [.mm, .sep '/', .dd, .sep '/', .yyyy] ∧ formatText [.mm, .sep '/', .dd] = ['M', 'M', '/', 'D', 'D'] ∧
    inFormat [.mm, .sep '/', .dd, .sep '/', .yyyy] 2024 1 2 = ['0', '1', '/', '0', '2', '/', '2', '0', '2', '4'] := by
  refine ⟨?_, by decide, by decide⟩
  intro c hc
  simp at hc
  subst hc
  decide

end Verif.CastFormat
