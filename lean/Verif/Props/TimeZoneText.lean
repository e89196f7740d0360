import Verif.Props.TimeElements

/-!
# Zones, Unix seconds, names, short years and days of the year in formats: C127–C133
-/

namespace Verif.TimeFormat

open Go Verif.Val

/-! ### Formats in a zone -/

/-- The elements of `elems` show the wall and not the offset. -/
theorem formatElem_wall (zone : List Char) (w : Int) {c : Char} (hc : c ∈ elems) : ∃ s, ∀ off, formatElem zone { wall := w, off := off } c = .ok s := by
  refine ⟨match formatElem zone { wall := w, off := 0 } c with | .ok s => s | _ => [], fun off => ?_⟩
  simp only [elems, List.mem_cons, List.not_mem_nil, or_false] at hc
  rcases hc with rfl | rfl | rfl | rfl | rfl | rfl | rfl | rfl | rfl | rfl | rfl | rfl | rfl | rfl | rfl | rfl <;> rfl

theorem format_pieces (zone : List Char) (k : TimeKind) (w : Int) : ∀ ps : List Piece, (∀ p ∈ ps, p.Ok k) →
    ∃ s, ∀ off g, format zone k { wall := w, off := off } (fmt ps ++ g) = (format zone k { wall := w, off := off } g).bind fun s' => .ok (s ++ s') := by
  intro ps
  induction ps with
  | nil =>
    intro _
    refine ⟨[], fun off g => ?_⟩
    show format zone k _ g = _
    cases format zone k { wall := w, off := off } g <;> rfl
  | cons p ps ih =>
    intro hok
    obtain ⟨s, h⟩ := ih fun p hp => hok p (by simp [hp])
    cases p with
    | lit c =>
      have hc : c ≠ '%' := hok (.lit c) (by simp)
      refine ⟨c :: s, fun off g => ?_⟩
      show format zone k _ (c :: (fmt ps ++ g)) = _
      rw [format_lit zone k _ hc, h]
      cases format zone k { wall := w, off := off } g <;> rfl
    | el c =>
      obtain ⟨hc, ks, hk1, hk2⟩ := hok (.el c) (by simp)
      obtain ⟨s0, h0⟩ := formatElem_wall zone w hc
      refine ⟨s0 ++ s, fun off g => ?_⟩
      show format zone k _ ('%' :: c :: (fmt ps ++ g)) = _
      rw [format_elem zone k _ (elems_ne hc).1 hk1 hk2, h0, h]
      cases format zone k { wall := w, off := off } g <;> simp [Res.bind]

/-! ### C127: offsets -/

theorem digit_colon {n : Nat} (h : n < 10) : digitChar n ≠ ':' := by
  have : ∀ n, n < 10 → digitChar n ≠ ':' := by decide
  exact this n h

theorem pad_two {n : Nat} (h : n < 100) : pad 2 n = dd n := by
  unfold pad
  rw [if_pos (by omega)]
  show [digitChar (n / 10 % 10), digitChar (n % 10)] = _
  rw [Nat.mod_eq_of_lt (by omega : n / 10 < 10)]
  rfl

theorem parseInt64_dd {n : Nat} (h : n < 100) : parseInt64 (dd n) = some (n : Int) := by
  rw [← pad_two h]
  unfold pad
  rw [if_pos (by omega)]
  exact parseInt64_pad (by decide) (by omega) (by unfold InI64; omega)

theorem zoneP_west {a b e f : Char} {h m : Int} (ha : a ≠ ':') (hb : b ≠ ':') (he : e ≠ ':') (hf : f ≠ ':') (p1 : parseInt64 [a, b] = some h) (p2 : parseInt64 [e, f] = some m) (t : T) :
    zoneP ['-', a, b, ':', e, f] t = .ok ([], { t with off := - (h * 3600 + m * 60) }) := by
  simp [zoneP, ha, hb, he, hf, p1, p2]

theorem zoneP_east {a b e f : Char} {h m : Int} (ha : a ≠ ':') (hb : b ≠ ':') (he : e ≠ ':') (hf : f ≠ ':') (p1 : parseInt64 [a, b] = some h) (p2 : parseInt64 [e, f] = some m) (t : T) :
    zoneP ['+', a, b, ':', e, f] t = .ok ([], { t with off := h * 3600 + m * 60 }) := by
  simp [zoneP, ha, hb, he, hf, p1, p2]

/-- The text of an offset is read as the offset without its seconds. -/
theorem zone_read (off : Int) (h : off.natAbs < 360000) (t : T) : zoneP (offsetText off) t = .ok ([], { t with off := off.tdiv 60 * 60 }) := by
  obtain ⟨z, hz⟩ : ∃ z, off.tdiv 60 = z := ⟨_, rfl⟩
  have hb : z.natAbs < 6000 := by
    rw [← hz, Int.natAbs_tdiv]
    show off.natAbs / 60 < 6000
    omega
  have e1 := pad_two (n := z.natAbs / 60) (by omega)
  have e2 := pad_two (n := z.natAbs % 60) (by omega)
  have p1 := parseInt64_dd (n := z.natAbs / 60) (by omega)
  have p2 := parseInt64_dd (n := z.natAbs % 60) (by omega)
  unfold offsetText
  simp only [hz]
  rw [e1, e2]
  unfold dd at *
  have c1 : digitChar (z.natAbs / 60 / 10) ≠ ':' := digit_colon (by omega)
  have c2 : digitChar (z.natAbs / 60 % 10) ≠ ':' := digit_colon (by omega)
  have c3 : digitChar (z.natAbs % 60 / 10) ≠ ':' := digit_colon (by omega)
  have c4 : digitChar (z.natAbs % 60 % 10) ≠ ':' := digit_colon (by omega)
  by_cases hn : z < 0
  · rw [if_pos hn]
    have h1 := zoneP_west c1 c2 c3 c4 p1 p2 t
    have h2 : -(((z.natAbs / 60 : Nat) : Int) * 3600 + ((z.natAbs % 60 : Nat) : Int) * 60) = z * 60 := by omega
    rw [h2] at h1
    exact h1
  · rw [if_neg hn]
    have h1 := zoneP_east c1 c2 c3 c4 p1 p2 t
    have h2 : ((z.natAbs / 60 : Nat) : Int) * 3600 + ((z.natAbs % 60 : Nat) : Int) * 60 = z * 60 := by omega
    rw [h2] at h1
    exact h1

theorem offset_head (off : Int) (r : List Char) : Solid (offsetText off ++ r) ∧ NoDigit (offsetText off ++ r) := by
  unfold offsetText
  simp only
  split
  · refine ⟨⟨by simp, by simp⟩, fun c hc => ?_⟩
    simp at hc
    subst hc
    decide
  · refine ⟨⟨by simp, by simp⟩, fun c hc => ?_⟩
    simp at hc
    subst hc
    decide

/-- The format `ps` followed by `%Ez` shows the date, the hour, the minute and the second. -/
structure Complete (w : Int) (ps : List Piece) : Prop where
  ok : ∀ p ∈ ps, p.Ok .timestamp
  order : Ordered false false ps
  apart : Apart (yearOf (tDay w)) ps
  day : Has ps ['d', 'e', 'F']
  hour : Has ps ['H', 'R', 'T', 'X']
  minute : Has ps ['M', 'R', 'T', 'X']
  second : Has ps ['S', 'T', 'X']

/-- What %Ez gives back, for every offset. -/
theorem C127_read (zone : List Char) (ansic : List Char → Option Int) (off t : Int) (ho : off.natAbs < 360000) (ht : t % sec = 0)
    (y1 : 1 ≤ yearOf (tDay (t + off * sec))) (y2 : yearOf (tDay (t + off * sec)) ≤ 9999) (ps : List Piece) (hc : Complete (t + off * sec) ps) :
    ∃ s, FORMAT_TIMESTAMP zone off (fmt ps ++ ['%', 'E', 'z']) t = .ok (.str s) ∧
      PARSE ansic .timestamp (fmt ps ++ ['%', 'E', 'z']) s = .ok (.time .timestamp (t + (off - off.tdiv 60 * 60) * sec)) := by
  obtain ⟨w, hw⟩ : ∃ w, t + off * sec = w := ⟨_, rfl⟩
  rw [hw] at y1 y2 hc
  have vx := fieldsOf_valid w
  have hcomb : combo ['z'] = some (.zone, []) := rfl
  have hk : TimeKind.timestamp ∈ Combo.zone.kinds := by decide
  obtain ⟨s, h1, hinv, _, h4⟩ := pieces_read zone ansic .timestamp vx y1 y2 ps epoch false false hc.ok hc.order hc.apart (by simp) (by simp) ⟨epoch_valid, .inl rfl⟩
  obtain ⟨s', h1'⟩ := format_pieces zone .timestamp w ps hc.ok
  have es : s' = s := by
    have a := h1 []
    rw [fieldsOf_t, h1' 0 [], format_nil, Res.bind'_ok, Res.bind'_ok] at a
    injection a with a
    rwa [List.append_nil, List.append_nil] at a
  subst es
  have hhead := offset_head off []
  rw [List.append_nil] at hhead
  obtain ⟨seen', hp', e⟩ := h4 ['%', 'E', 'z'] (offsetText off) _ [] [] hhead.1.2 (fun _ => .inl hhead.2) (by simp) (.inl rfl)
  refine ⟨s' ++ offsetText off, ?_, ?_⟩
  · unfold FORMAT_TIMESTAMP
    rw [hw, h1' off, format_combo zone .timestamp _ hcomb hk]
    show Res.bind (Res.bind (Res.bind (format zone .timestamp _ []) _) _) _ = _
    rw [format_nil]
    simp only [Res.bind'_ok, List.append_nil]
    rfl
  · rw [loop_combo .timestamp ansic hcomb hk _ rfl hhead.1.1] at e
    have hz : Combo.zone.parse = zoneP := rfl
    simp only [hz, zone_read off ho] at e
    rw [Res.bind'_ok, loop_nil, epoch_t] at e
    have hk2 := ordered_known ps false false hc.order hc.day
    have hn : tNano w = 0 := by rw [← hw]; unfold tNano tod dayNs sec at *; omega
    have eF : setsAll ps (fieldsOf w) epoch = fieldsOf w := by
      refine F.ext' ?_ ?_ ?_ ?_ ?_ ?_ ?_
      · exact setsAll_field F.y _ (fun c x f h => sets_y h) _ ps epoch (.inr (hk2.1.resolve_left (by simp)))
      · exact setsAll_field F.mo _ (fun c x f h => sets_mo h) _ ps epoch (.inr (hk2.2.resolve_left (by simp)))
      · exact setsAll_field F.d _ (fun c x f h => sets_d h) _ ps epoch (.inr hc.day)
      · exact setsAll_field F.h _ (fun c x f h => sets_h h) _ ps epoch (.inr hc.hour)
      · exact setsAll_field F.mi _ (fun c x f h => sets_mi h) _ ps epoch (.inr hc.minute)
      · exact setsAll_field F.s _ (fun c x f h => sets_s h) _ ps epoch (.inr hc.second)
      · rw [setsAll_n]; exact hn.symm
    rw [eF, fieldsOf_t] at e
    unfold PARSE
    rw [parse_eq (seen := 'E' :: seen') (ampm := []) (by simp [hp']) e, Res.bind'_ok]
    simp only [if_true]
    congr 2
    rw [← hw, Int.sub_mul]
    omega

/-- C127: a timestamp shown in a zone with %Ez is given back. -/
def C127_full : Prop := ∀ (zone : List Char) (ansic : List Char → Option Int) (off t : Int) (ps : List Piece), off.natAbs < 86400 → t % sec = 0 →
  1 ≤ yearOf (tDay (t + off * sec)) → yearOf (tDay (t + off * sec)) ≤ 9999 → Complete (t + off * sec) ps →
  ∃ s, FORMAT_TIMESTAMP zone off (fmt ps ++ ['%', 'E', 'z']) t = .ok (.str s) ∧ PARSE ansic .timestamp (fmt ps ++ ['%', 'E', 'z']) s = .ok (.time .timestamp t)

/-- C127, exactly when: the offset of the zone is of whole minutes.  Missing: local mean times. -/
theorem C127_partial (zone : List Char) (ansic : List Char → Option Int) (off t : Int) (ps : List Piece) (ho : off.natAbs < 86400) (ht : t % sec = 0)
    (y1 : 1 ≤ yearOf (tDay (t + off * sec))) (y2 : yearOf (tDay (t + off * sec)) ≤ 9999) (hc : Complete (t + off * sec) ps) :
    (∃ s, FORMAT_TIMESTAMP zone off (fmt ps ++ ['%', 'E', 'z']) t = .ok (.str s) ∧ PARSE ansic .timestamp (fmt ps ++ ['%', 'E', 'z']) s = .ok (.time .timestamp t)) ↔ off % 60 = 0 := by
  obtain ⟨s, h1, h2⟩ := C127_read zone ansic off t (by omega) ht y1 y2 ps hc
  have hd : off.tdiv 60 * 60 = off ↔ off % 60 = 0 := by
    constructor
    · intro h
      generalize off.tdiv 60 = q at h
      omega
    · exact fun h => Int.tdiv_mul_cancel (Int.dvd_of_emod_eq_zero h)
  constructor
  · rintro ⟨s', g1, g2⟩
    rw [h1] at g1
    injection g1 with g1
    injection g1 with g1
    subst g1
    rw [h2] at g2
    injection g2 with g2
    injection g2 with _ g2
    refine hd.1 ?_
    unfold sec at g2
    omega
  · intro h
    refine ⟨s, h1, ?_⟩
    rw [h2, hd.2 h, Int.sub_self, Int.zero_mul, Int.add_zero]

/-- %F %T%Ez is such a format. -/
theorem complete_example (w : Int) : Complete w [.el 'F', .lit ' ', .el 'T'] where
  ok := by
    intro p hp
    simp only [List.mem_cons, List.not_mem_nil, or_false] at hp
    rcases hp with rfl | rfl | rfl
    · exact ⟨by decide, _, rfl, by decide⟩
    · exact (by decide : ' ' ≠ '%')
    · exact ⟨by decide, _, rfl, by decide⟩
  order := by simp [Ordered]
  apart := by simp [Apart]
  day := ⟨'F', by simp, _, by simp, rfl⟩
  hour := ⟨'T', by simp, _, by simp, rfl⟩
  minute := ⟨'T', by simp, _, by simp, rfl⟩
  second := ⟨'T', by simp, _, by simp, rfl⟩

/-- New York in 1880 was four hours, 56 minutes and two seconds behind. -/
theorem C127_full_false : ¬ C127_full := by
  intro h
  have := (C127_partial [] (fun _ => none) (-17762) (-2840140800 * sec) _ (by decide) (by decide) (by decide) (by decide) (complete_example _)).1
    (h [] (fun _ => none) (-17762) (-2840140800 * sec) _ (by decide) (by decide) (by decide) (by decide) (complete_example _))
  revert this
  decide

example (ansic : List Char → Option Int) : ∃ s, FORMAT_TIMESTAMP [] (-12600) (fmt [.el 'F', .lit ' ', .el 'T'] ++ ['%', 'E', 'z']) 0 = .ok (.str s) ∧
    PARSE ansic .timestamp (fmt [.el 'F', .lit ' ', .el 'T'] ++ ['%', 'E', 'z']) s = .ok (.time .timestamp 0) :=
  (C127_partial [] ansic (-12600) 0 _ (by decide) (by decide) (by decide) (by decide) (complete_example _)).2 (by decide)

/-! ### C128: Unix seconds -/

/-- C128: %s shows the seconds since 1970, whatever the zone. -/
theorem C128_text (zone : List Char) (off t : Int) : FORMAT_TIMESTAMP zone off ['%', 's'] t = .ok (.str (decInt (t / sec))) := by
  unfold FORMAT_TIMESTAMP
  rw [format_elem zone .timestamp _ (by decide) (show kinds 's' = some [.time, .datetime, .timestamp] from rfl) (by decide), format_nil]
  show Res.ok (Val.str (decInt (tUnix (t + off * sec - off * sec)) ++ [])) = _
  rw [Int.add_sub_cancel, List.append_nil]
  rfl

/-- C128: %s is read back. -/
def C128_full : Prop := ∀ (zone : List Char) (ansic : List Char → Option Int) (off t : Int), t % sec = 0 → 1 ≤ yearOf (tDay t) → yearOf (tDay t) ≤ 9999 →
  ∃ s, FORMAT_TIMESTAMP zone off ['%', 's'] t = .ok (.str s) ∧ PARSE ansic .timestamp ['%', 's'] s = .ok (.time .timestamp t)

theorem decNat_length (w : Nat) : ∀ n : Nat, (decNat n).length ≤ w + 1 ↔ n < 10 ^ (w + 1) := by
  induction w with
  | zero =>
    intro n
    rw [decNat_eq]
    split
    · simp; omega
    · have := decNat_ne_nil (n / 10)
      have : 0 < (decNat (n / 10)).length := List.length_pos_iff.2 this
      rw [List.length_append, List.length_singleton, show 10 ^ (0 + 1) = 10 from rfl]
      omega
  | succ w ih =>
    intro n
    rw [decNat_eq]
    have hp : 10 ^ (w + 1 + 1) = 10 ^ (w + 1) * 10 := rfl
    split
    · have : 0 < 10 ^ (w + 1) := Nat.pow_pos (by decide)
      simp
      omega
    · rw [List.length_append, List.length_singleton]
      have := ih (n / 10)
      rw [hp]
      omega

theorem PARSE_s (ansic : List Char → Option Int) (text : List Char) :
    PARSE ansic .timestamp ['%', 's'] text = if text.length = 10 then (match parseInt64 text with
      | some n => if n < 0 then .err else .ok (.time .timestamp (n * sec))
      | none => .err) else .err := by
  unfold PARSE parse
  by_cases h0 : text = []
  · subst h0
    rw [loop]
    rfl
  rw [loop_elem .timestamp ansic (by decide) (show kinds 's' = some [.time, .datetime, .timestamp] from rfl) (by decide) _ _ rfl h0]
  have e : parseElem ansic 's' text { wall := 0, off := 0 } = (if text.length < 10 then .err
    else match parseInt64 (text.take 10) with
      | none => .err
      | some n => if n < 0 then .err else .ok (text.drop 10, { wall := n * sec, off := 0 })) := rfl
  simp only [e]
  by_cases h1 : text.length < 10
  · rw [if_pos h1, if_neg (show ¬ text.length = 10 by omega)]
    rfl
  rw [if_neg h1]
  by_cases h2 : text.length = 10
  · rw [if_pos h2, List.take_of_length_le (by omega)]
    cases parseInt64 text with
    | none => rfl
    | some n =>
      simp only
      by_cases h3 : n < 0
      · simp only [if_pos h3]
        rfl
      · simp only [if_neg h3, Res.bind'_ok, loop_nil, List.drop_of_length_le (show text.length ≤ 10 by omega)]
        show Res.ok (Val.time _ (n * sec - 0 * sec)) = _
        congr 2
        omega
  · rw [if_neg h2]
    have h3 : text.drop 10 ≠ [] := by
      intro h
      have := congrArg List.length h
      simp at this
      omega
    cases parseInt64 (text.take 10) with
    | none => rfl
    | some n =>
      simp only
      by_cases h4 : n < 0
      · simp only [if_pos h4]
        rfl
      · simp only [if_neg h4, Res.bind'_ok, loop_nil]
        simp [h3, Res.bind]

/-- C128, exactly when: from 2001-09-09 to 2286-11-20, when the seconds have ten digits. -/
theorem C128_partial (zone : List Char) (ansic : List Char → Option Int) (off t : Int) (ht : t % sec = 0) (hi : InI64 (t / sec)) :
    (∃ s, FORMAT_TIMESTAMP zone off ['%', 's'] t = .ok (.str s) ∧ PARSE ansic .timestamp ['%', 's'] s = .ok (.time .timestamp t)) ↔ 1000000000 * sec ≤ t ∧ t < 10000000000 * sec := by
  rw [C128_text]
  obtain ⟨n, hn⟩ : ∃ n, t / sec = n := ⟨_, rfl⟩
  have et : n * sec = t := by rw [← hn]; unfold sec at *; omega
  rw [hn] at hi ⊢
  have key : PARSE ansic .timestamp ['%', 's'] (decInt n) = .ok (.time .timestamp t) ↔ 1000000000 ≤ n ∧ n < 10000000000 := by
    rw [PARSE_s, parseInt64_decInt hi]
    simp only
    by_cases h0 : n < 0
    · rw [if_pos h0]
      constructor
      · intro h; split at h <;> cases h
      · intro h; omega
    · rw [if_neg h0, et]
      have hl : (decInt n).length = 10 ↔ 1000000000 ≤ n ∧ n < 10000000000 := by
        unfold decInt
        rw [if_neg h0]
        have a := decNat_length 8 n.natAbs
        have b := decNat_length 9 n.natAbs
        rw [show 10 ^ (8 + 1) = 1000000000 from rfl] at a
        rw [show 10 ^ (9 + 1) = 10000000000 from rfl] at b
        omega
      rw [← hl]
      constructor
      · intro h
        split at h
        · assumption
        · cases h
      · intro h
        rw [if_pos h]
  constructor
  · rintro ⟨s, h1, h2⟩
    injection h1 with h1
    injection h1 with h1
    subst h1
    have := key.1 h2
    unfold sec at *
    omega
  · intro h
    exact ⟨_, rfl, key.2 (by unfold sec at *; omega)⟩

/-- PARSE_TIMESTAMP("%s", "0") is an error. -/
theorem C128_full_false : ¬ C128_full := by
  intro h
  have := (C128_partial [] (fun _ => none) 0 0 (by decide) (by decide)).1 (h [] (fun _ => none) 0 0 (by decide) (by decide) (by decide))
  revert this
  decide

/-! ### C129: names of weekdays and months -/

/-- The days of the week from 1970-01-01, a Thursday. -/
def weekdays : List (List Char) :=
  [['T', 'h', 'u', 'r', 's', 'd', 'a', 'y'], ['F', 'r', 'i', 'd', 'a', 'y'], ['S', 'a', 't', 'u', 'r', 'd', 'a', 'y'], ['S', 'u', 'n', 'd', 'a', 'y'],
   ['M', 'o', 'n', 'd', 'a', 'y'], ['T', 'u', 'e', 's', 'd', 'a', 'y'], ['W', 'e', 'd', 'n', 'e', 's', 'd', 'a', 'y']]

/-- The months of the year. -/
def months : List (List Char) :=
  [['J', 'a', 'n', 'u', 'a', 'r', 'y'], ['F', 'e', 'b', 'r', 'u', 'a', 'r', 'y'], ['M', 'a', 'r', 'c', 'h'], ['A', 'p', 'r', 'i', 'l'], ['M', 'a', 'y'], ['J', 'u', 'n', 'e'], ['J', 'u', 'l', 'y'],
   ['A', 'u', 'g', 'u', 's', 't'], ['S', 'e', 'p', 't', 'e', 'm', 'b', 'e', 'r'], ['O', 'c', 't', 'o', 'b', 'e', 'r'], ['N', 'o', 'v', 'e', 'm', 'b', 'e', 'r'], ['D', 'e', 'c', 'e', 'm', 'b', 'e', 'r']]

theorem FORMAT_one (k : TimeKind) {c : Char} {ks : List TimeKind} (h1 : c ≠ 'E') (h2 : kinds c = some ks) (h3 : k ∈ ks) (t : Int) {s : List Char}
    (h : formatElem ['U', 'T', 'C'] { wall := t, off := 0 } c = .ok s) : FORMAT k ['%', c] t = .ok (.str s) := by
  unfold FORMAT
  rw [format_elem _ k _ h1 h2 h3, h, format_nil]
  show Res.ok (Val.str (s ++ [])) = _
  rw [List.append_nil]

/-- C129: %A and %a name the day of the week, %B, %b and %h the month, in full and in three letters. -/
theorem C129 (y m d : Int) (h0 : 1 ≤ m) (h1 : m ≤ 12) (h2 : 1 ≤ d) (h3 : d ≤ Spec.daysIn y m) :
    ∃ day month, weekdays[(daysOf y m d % 7).toNat]? = some day ∧ months[m.toNat - 1]? = some month ∧
      FORMAT .date ['%', 'A'] (daysOf y m d * dayNs) = .ok (.str day) ∧ FORMAT .date ['%', 'a'] (daysOf y m d * dayNs) = .ok (.str (day.take 3)) ∧
      FORMAT .date ['%', 'B'] (daysOf y m d * dayNs) = .ok (.str month) ∧
      ∀ c ∈ ['b', 'h'], FORMAT .date ['%', c] (daysOf y m d * dayNs) = .ok (.str (month.take 3)) := by
  have hf := daysOf_fields h0 h1 h2 (by rw [Spec.monthLen_eq y h0 h1]; exact h3)
  obtain ⟨n, hn⟩ : ∃ n, daysOf y m d = n := ⟨_, rfl⟩
  rw [hn] at hf ⊢
  have hd := tDay_mul n
  have kd : ∀ c, c ∈ ['A', 'a', 'B', 'b', 'h'] → kinds c = some [.date, .datetime, .timestamp] := by decide
  have day : ∃ x, weekdays[(n % 7).toNat]? = some x ∧ dayNames.getD (weekday n).toNat [] = x := by
    have a : ∀ i, i < 7 → ∃ x, weekdays[i]? = some x ∧ dayNames.getD ((i + 4) % 7) [] = x := by
      intro i hi
      have : i = 0 ∨ i = 1 ∨ i = 2 ∨ i = 3 ∨ i = 4 ∨ i = 5 ∨ i = 6 := by omega
      rcases this with rfl | rfl | rfl | rfl | rfl | rfl | rfl <;> exact ⟨_, rfl, rfl⟩
    have b := a (n % 7).toNat (by omega)
    have c : (weekday n).toNat = ((n % 7).toNat + 4) % 7 := by unfold weekday; omega
    rw [c]
    exact b
  have month : ∃ x, months[m.toNat - 1]? = some x ∧ monthNames.getD (m - 1).toNat [] = x := by
    rcases month_cases h0 h1 with rfl | rfl | rfl | rfl | rfl | rfl | rfl | rfl | rfl | rfl | rfl | rfl <;> exact ⟨_, rfl, rfl⟩
  obtain ⟨x, x1, x2⟩ := day
  obtain ⟨z, z1, z2⟩ := month
  have em : T.month { wall := n * dayNs, off := 0 } = m := by unfold T.month; rw [hd]; exact hf.2.1
  have eB : monthNames.getD (T.month { wall := n * dayNs, off := 0 } - 1).toNat [] = z := by rw [em]; exact z2
  have eA : dayNames.getD (weekday (tDay (n * dayNs))).toNat [] = x := by rw [hd]; exact x2
  refine ⟨x, z, x1, z1, ?_, ?_, ?_, ?_⟩
  · exact FORMAT_one .date (by decide) (kd _ (by simp)) (by decide) _ (congrArg Res.ok eA)
  · exact FORMAT_one .date (by decide) (kd _ (by simp)) (by decide) _ (congrArg (fun s : List Char => Res.ok (s.take 3)) eA)
  · exact FORMAT_one .date (by decide) (kd _ (by simp)) (by decide) _ (congrArg Res.ok eB)
  · intro c hc
    simp only [List.mem_cons, List.not_mem_nil, or_false] at hc
    rcases hc with rfl | rfl
    · exact FORMAT_one .date (by decide) (kd _ (by simp)) (by decide) _ (congrArg (fun s : List Char => Res.ok (s.take 3)) eB)
    · exact FORMAT_one .date (by decide) (kd _ (by simp)) (by decide) _ (congrArg (fun s : List Char => Res.ok (s.take 3)) eB)

example : weekdays[(daysOf 2024 2 29 % 7).toNat]? = some ['T', 'h', 'u', 'r', 's', 'd', 'a', 'y'] ∧ (29 : Int) ≤ Spec.daysIn 2024 2 := by decide

/-! ### C130: years of two digits -/

/-- C130: %y is a year from 1969 to 2068. -/
theorem C130 (ansic : List Char → Option Int) (y m d year : Int) (hy : 1969 ≤ year ∧ year ≤ 2068) (hyy : y = year % 100) (hm : 1 ≤ m ∧ m ≤ 12) (hd : 1 ≤ d ∧ d ≤ Spec.daysIn year m) :
    PARSE ansic .date ['%', 'y', '-', '%', 'm', '-', '%', 'd'] (dd y.toNat ++ '-' :: (dd m.toNat ++ '-' :: dd d.toNat)) = .ok (.time .date (daysOf year m d * dayNs)) := by
  have hd' : d ≤ monthLen year m := by rw [Spec.monthLen_eq year hm.1 hm.2]; exact hd.2
  have hb := monthLen_bound year hm.1 hm.2
  rw [← two_dd (by omega) (by omega), ← two_dd (by omega) (by omega), ← two_dd (by omega) (by omega)]
  have kk : ∀ c, c ∈ ['y', 'm', 'd'] → kinds c = some [.date, .datetime, .timestamp] := by decide
  have ne : ∀ (a : Int) (_ : 0 ≤ a) (_ : a < 100) (r : List Char), two a ++ r ≠ [] := fun a h0 h1 r => ((solid_two h0 h1).append r).1
  have ev := epoch_valid
  have v1 : F.Valid { epoch with y := year } := ⟨ev.1, ⟨ev.2.1.1, by have := monthLen_bound year (m := 1) (by decide) (by decide); show 1 ≤ monthLen year 1; omega⟩, ev.2.2⟩
  have v2 : F.Valid { epoch with y := year, mo := m } := ⟨hm, ⟨ev.2.1.1, by show 1 ≤ monthLen year m; omega⟩, ev.2.2⟩
  have hl : loop ansic .date ['%', 'y', '-', '%', 'm', '-', '%', 'd']
      { t := { wall := 0, off := 0 }, rest := two y ++ '-' :: (two m ++ '-' :: two d), over := false, seen := [], ampm := [] } =
      .ok { t := F.t { epoch with y := year, mo := m, d := d }, rest := [], over := false, seen := ['d', 'm', 'y'], ampm := [] } := by
    rw [loop_elem _ _ (by decide) (kk _ (by simp)) (by decide) _ _ rfl (ne y (by omega) (by omega) _)]
    show Res.bind (shortYearP _ _) _ = _
    unfold shortYearP
    rw [number_two (by decide) (by decide) _ (by omega) (by omega), Res.bind'_ok, ← epoch_t, setYear_t epoch_valid]
    have ey : (if 69 ≤ y then y + 1900 else y + 2000) = year := by split <;> omega
    simp only [ey]
    rw [loop_lit _ _ (by decide) (by decide) _ { t := _, rest := [], over := false, seen := ['y'], ampm := _ }]
    rw [loop_elem _ _ (by decide) (kk _ (by simp)) (by decide) _ _ rfl (ne m (by omega) (by omega) _)]
    show Res.bind (monthP _ _) _ = _
    unfold monthP
    rw [number_two (by decide) (by decide) _ (by omega) (by omega), Res.bind'_ok]
    simp only
    rw [setMonth_t v1]
    rw [loop_lit _ _ (by decide) (by decide) _ { t := _, rest := [], over := false, seen := ['m', 'y'], ampm := _ }]
    have h3 := ne d (by omega) (by omega) []
    rw [List.append_nil] at h3
    rw [loop_elem _ _ (by decide) (kk _ (by simp)) (by decide) _ _ rfl h3]
    show Res.bind (dayP _ _) _ = _
    unfold dayP
    have := number_two (lo := 1) (hi := 31) (by decide) (by decide) T.setDay (n := d) (by omega) (by omega) [] (F.t { epoch with y := year, mo := m })
    rw [List.append_nil] at this
    simp only [this]
    rw [Res.bind'_ok]
    simp only
    rw [setDay_t v2, loop_nil]
    rfl
  unfold PARSE
  rw [parse_eq (by decide) hl, Res.bind'_ok]
  simp only
  congr 2
  show tDate year m d 0 0 0 0 = _
  unfold tDate
  omega

/-- **C54** %D and %x read month, day and year of two digits: right but for February 29, which becomes March 1. -/
theorem C54_short_year (ansic : List Char → Option Int) (c : Char) (hc : c = 'D' ∨ c = 'x') (y m d year : Int) (hy : 1969 ≤ year ∧ year ≤ 2068) (hyy : y = year % 100) (hm : 1 ≤ m ∧ m ≤ 12)
    (hd : 1 ≤ d ∧ d ≤ Spec.daysIn year m) : PARSE ansic .date ['%', c] (dd m.toNat ++ '/' :: (dd d.toNat ++ '/' :: dd y.toNat)) =
      .ok (.time .date ((if m = 2 ∧ d = 29 then daysOf year 3 1 else daysOf year m d) * dayNs)) := by
  have hd' : d ≤ monthLen year m := by rw [Spec.monthLen_eq year hm.1 hm.2]; exact hd.2
  have hb := monthLen_bound year hm.1 hm.2
  rw [← two_dd (by omega) (by omega), ← two_dd (by omega) (by omega), ← two_dd (by omega) (by omega)]
  have kk : kinds c = some [.date, .datetime, .timestamp] := by rcases hc with rfl | rfl <;> rfl
  have ne : two m ++ '/' :: (two d ++ '/' :: two y) ≠ [] := ((solid_two (by omega) (by omega)).append _).1
  have ze : ∀ a b c : Int, F.t { y := a, mo := b, d := c, h := 0, mi := 0, s := 0, n := 0 } = { wall := daysOf a b c * dayNs, off := 0 } := by
    intro a b c
    show T.mk (tDate a b c 0 0 0 0) 0 = _
    unfold tDate
    congr 1
    omega
  have ey : (if 69 ≤ y then y + 1900 else y + 2000) = year := by split <;> omega
  have last : (F.t { epoch with mo := m, d := d }).setYear year = { wall := (if m = 2 ∧ d = 29 then daysOf year 3 1 else daysOf year m d) * dayNs, off := 0 } := by
    split
    · rename_i h
      obtain ⟨rfl, rfl⟩ := h
      have e : F.t { epoch with mo := 2, d := 29 } = F.t { epoch with mo := 3, d := 1 } := by decide
      rw [e, setYear_t (by unfold F.Valid epoch; decide)]
      exact ze year 3 1
    · rename_i h
      have v : F.Valid { epoch with mo := m, d := d } := ⟨hm, ⟨hd.1, leap_day hm.1 hm.2 hd' h⟩, epoch_valid.2.2⟩
      rw [setYear_t v]
      exact ze year m d
  have hp : seq [monthP, static '/', dayP, static '/', shortYearP] (two m ++ '/' :: (two d ++ '/' :: two y)) { wall := 0, off := 0 } =
      .ok ([], { wall := (if m = 2 ∧ d = 29 then daysOf year 3 1 else daysOf year m d) * dayNs, off := 0 }) := by
    have h0 := monthLen_bound 1970 hm.1 hm.2
    have v : F.Valid { epoch with mo := m } := ⟨hm, ⟨epoch_valid.2.1.1, by show 1 ≤ monthLen 1970 m; omega⟩, epoch_valid.2.2⟩
    have hs : ∀ (c : Char) (r : List Char) (t : T), static c (c :: r) t = .ok (r, t) := fun c r t => by simp [static]
    have hY : shortYearP (two y) (F.t { epoch with mo := m, d := d }) = .ok ([], (F.t { epoch with mo := m, d := d }).setYear year) := by
      have := number_two (lo := 0) (hi := 99) (by decide) (by decide) (fun (t : T) y => t.setYear (if 69 ≤ y then y + 1900 else y + 2000)) (n := y) (by omega) (by omega) [] (F.t { epoch with mo := m, d := d })
      rw [List.append_nil, ey] at this
      exact this
    simp only [seq]
    unfold monthP dayP
    rw [number_two (by decide) (by decide) _ (by omega) (by omega), Res.bind'_ok]
    simp only
    rw [hs, Res.bind'_ok]
    simp only
    rw [number_two (by decide) (by decide) _ (by omega) (by omega), Res.bind'_ok]
    simp only
    rw [hs, Res.bind'_ok]
    simp only
    rw [← epoch_t, setMonth_t epoch_valid, setDay_t v, hY, Res.bind'_ok, last]
  have he : parseElem ansic c = fun text t => seq [monthP, static '/', dayP, static '/', shortYearP] text t := by rcases hc with rfl | rfl <;> rfl
  have hl : loop ansic .date ['%', c] { t := { wall := 0, off := 0 }, rest := two m ++ '/' :: (two d ++ '/' :: two y), over := false, seen := [], ampm := [] } =
      .ok { t := { wall := (if m = 2 ∧ d = 29 then daysOf year 3 1 else daysOf year m d) * dayNs, off := 0 }, rest := [], over := false, seen := [c], ampm := [] } := by
    rw [loop_elem _ _ (by rcases hc with rfl | rfl <;> decide) kk (by decide) _ _ rfl ne, he]
    simp only [hp, Res.bind'_ok]
    rw [loop_nil]
    rcases hc with rfl | rfl <;> rfl
  unfold PARSE
  rw [parse_eq (by rcases hc with rfl | rfl <;> decide) hl, Res.bind'_ok]
  rfl

/-- PARSE_DATE('%D', '02/29/24') is 2024-03-01. -/
example (ansic : List Char → Option Int) : PARSE ansic .date ['%', 'D'] ['0', '2', '/', '2', '9', '/', '2', '4'] = .ok (.time .date (daysOf 2024 3 1 * dayNs)) :=
  C54_short_year ansic 'D' (.inl rfl) 24 2 29 2024 (by decide) (by decide) (by decide) (by decide)

example : PARSE (fun _ => none) .date ['%', 'y', '-', '%', 'm', '-', '%', 'd'] ['6', '8', '-', '0', '2', '-', '2', '9'] = .ok (.time .date (daysOf 2068 2 29 * dayNs)) :=
  C130 _ 68 2 29 2068 (by decide) (by decide) (by decide) (by decide)

/-! ### C131: days of the year -/

/-- Three digits. -/
def ddd (n : Nat) : List Char := [digitChar (n / 100), digitChar (n / 10 % 10), digitChar (n % 10)]

/-- What %Y-%j is read as. -/
theorem C131_read (ansic : List Char → Option Int) (y j : Int) (hy : 1000 ≤ y ∧ y ≤ 9999) (hj : 1 ≤ j ∧ j ≤ 366) :
    PARSE ansic .date ['%', 'Y', '-', '%', 'j'] (decInt y ++ '-' :: ddd j.toNat) = .ok (.time .date ((if j = 366 ∧ ¬ Spec.leap y then daysOf y 1 1 else daysOf y 1 1 + (j - 1)) * dayNs)) := by
  have ev := epoch_valid
  have v1 : F.Valid { epoch with y := y } := ⟨ev.1, ⟨ev.2.1.1, by have := monthLen_bound y (m := 1) (by decide) (by decide); show 1 ≤ monthLen y 1; omega⟩, ev.2.2⟩
  have e3 : ddd j.toNat = padDigits 3 j.toNat := by
    show _ = [digitChar (j.toNat / 10 / 10 % 10), digitChar (j.toNat / 10 % 10), digitChar (j.toNat % 10)]
    unfold ddd
    congr 2
    omega
  have ys : daysOf y 1 1 = yearStart y := by
    have := daysOf_month (y := y) (m := 1) 1 (by decide) (by decide)
    rw [this]
    have : monthBefore (isLeap y) 1 = 0 := rfl
    omega
  have len : yearLen y = if Spec.leap y then 366 else 365 := by
    unfold yearLen
    have := Spec.leap_iff y
    by_cases h : Spec.leap y
    · rw [if_pos (this.2 h), if_pos h]
    · rw [if_neg (fun h' => h (this.1 h')), if_neg h]
  have yof : ∀ s, yearStart y ≤ s → s < yearStart y + yearLen y → yearOf s = y := fun s h1 h2 => yearOf_eq h1 (by rw [yearStart_succ]; exact h2)
  obtain ⟨r, hr⟩ : ∃ r, (if j = 366 ∧ ¬ Spec.leap y then daysOf y 1 1 else daysOf y 1 1 + (j - 1)) = r := ⟨_, rfl⟩
  have hday : daysOf y (monthOf (daysOf y 1 1 + (j - 1))) (dayOf (daysOf y 1 1 + (j - 1))) = r := by
    rw [← hr]
    by_cases hlast : j = 366 ∧ ¬ Spec.leap y
    · rw [if_pos hlast]
      have e : daysOf y 1 1 + (j - 1) = daysOf (y + 1) 1 1 := by
        have : daysOf (y + 1) 1 1 = yearStart (y + 1) := by
          have := daysOf_month (y := y + 1) (m := 1) 1 (by decide) (by decide)
          rw [this]
          have : monthBefore (isLeap (y + 1)) 1 = 0 := rfl
          omega
        rw [this, yearStart_succ, len, if_neg hlast.2, ys]
        omega
      have f := daysOf_fields (y := y + 1) (m := 1) (d := 1) (by decide) (by decide) (by decide) (by have := monthLen_bound (y + 1) (m := 1) (by decide) (by decide); omega)
      rw [e, f.2.1, f.2.2]
    · rw [if_neg hlast]
      have := yof (daysOf y 1 1 + (j - 1)) (by omega) (by
        rw [len, ys]
        by_cases hL : Spec.leap y
        · rw [if_pos hL]; omega
        · rw [if_neg hL]
          have : j ≠ 366 := fun h => hlast ⟨h, hL⟩
          omega)
      have c := daysOf_civil (daysOf y 1 1 + (j - 1))
      rw [this] at c
      exact c
  have hl : loop ansic .date ['%', 'Y', '-', '%', 'j'] { t := { wall := 0, off := 0 }, rest := decInt y ++ '-' :: padDigits 3 j.toNat, over := false, seen := [], ampm := [] } =
      .ok { t := { wall := r * dayNs, off := 0 }, rest := [], over := false, seen := ['j', 'Y'], ampm := [] } := by
    have kk : ∀ c, c ∈ ['Y', 'j'] → kinds c = some [.date, .datetime, .timestamp] := by decide
    rw [loop_elem _ _ (by decide) (kk _ (by simp)) (by decide) _ _ rfl ((solid_dec (by omega)).append _).1]
    show Res.bind (yearP _ _) _ = _
    rw [year_read (by omega) hy.2 _ (.inl hy.1), Res.bind'_ok, ← epoch_t, setYear_t epoch_valid]
    simp only
    rw [loop_lit _ _ (by decide) (by decide) _ { t := _, rest := [], over := false, seen := ['Y'], ampm := _ }]
    have hne : padDigits 3 j.toNat ≠ [] := by
      intro h
      have := padDigits_length 3 j.toNat
      rw [h] at this
      simp at this
    rw [loop_elem _ _ (by decide) (kk _ (by simp)) (by decide) _ _ rfl hne]
    show Res.bind (yearDayP _ _) _ = _
    have hdg := digits_pad (lo := 1) (hi := 366) (w := 3) (n := j.toNat) (by decide) (by decide) (by decide) (by omega) (by omega) []
    rw [List.append_nil] at hdg
    have hf := F.fields v1
    have ej : ((j.toNat : Nat) : Int) = j := by omega
    unfold yearDayP number
    simp only [hdg, Res.bind'_ok, loop_nil]
    unfold T.date
    rw [hf.1, hf.2.2.2.1, hf.2.2.2.2.1, hf.2.2.2.2.2.1, hf.2.2.2.2.2.2, ej]
    show Res.ok (S.mk { wall := tDate y (monthOf (daysOf y 1 1 + (j - 1))) (dayOf (daysOf y 1 1 + (j - 1))) 0 0 0 0, off := 0 } [] false _ _) = _
    congr 3
    unfold tDate
    rw [hday]
    omega
  rw [e3, hr]
  unfold PARSE
  rw [parse_eq (by decide) hl, Res.bind'_ok]
  simp only
  rfl

/-- C131: %j is read as the day of the year, and an error if the year has no such day. -/
def C131_full : Prop := ∀ (ansic : List Char → Option Int) (y j : Int), 1000 ≤ y ∧ y ≤ 9999 → 1 ≤ j ∧ j ≤ 366 →
  PARSE ansic .date ['%', 'Y', '-', '%', 'j'] (decInt y ++ '-' :: ddd j.toNat) = if j = 366 ∧ ¬ Spec.leap y then .err else .ok (.time .date ((daysOf y 1 1 + (j - 1)) * dayNs))

/-- C131, exactly when: the year has the day.  Missing: the 366th day of a year of 365 is its first. -/
theorem C131_partial (ansic : List Char → Option Int) (y j : Int) (hy : 1000 ≤ y ∧ y ≤ 9999) (hj : 1 ≤ j ∧ j ≤ 366) :
    PARSE ansic .date ['%', 'Y', '-', '%', 'j'] (decInt y ++ '-' :: ddd j.toNat) = (if j = 366 ∧ ¬ Spec.leap y then .err else .ok (.time .date ((daysOf y 1 1 + (j - 1)) * dayNs))) ↔ ¬ (j = 366 ∧ ¬ Spec.leap y) := by
  rw [C131_read ansic y j hy hj]
  by_cases h : j = 366 ∧ ¬ Spec.leap y
  · rw [if_pos h, if_pos h]
    simp [h]
  · rw [if_neg h, if_neg h]
    simp [h]

/-- PARSE_DATE("%Y-%j", "2023-366") is 2023-01-01. -/
theorem C131_full_false : ¬ C131_full := by
  intro h
  exact (C131_partial (fun _ => none) 2023 366 (by decide) (by decide)).1 (h (fun _ => none) 2023 366 (by decide) (by decide)) (by decide)

example : ¬ ((366 : Int) = 366 ∧ ¬ Spec.leap 2024) ∧ ddd 60 = ['0', '6', '0'] := by decide

/-! ### C132: text that goes on -/

/-- C132: a text that goes on after what the format describes is an error. -/
theorem C132 (ansic : List Char → Option Int) (k : TimeKind) (w : Int) (y1 : 1 ≤ yearOf (tDay w)) (y2 : yearOf (tDay w) ≤ 9999)
    (ps : List Piece) (hok : ∀ p ∈ ps, p.Ok k) (ho : Ordered false false ps) (ha : Apart (yearOf (tDay w)) ps) (hy : EndsY ps → 1000 ≤ yearOf (tDay w)) :
    ∃ s, FORMAT k (fmt ps) w = .ok (.str s) ∧ (∃ v, PARSE ansic k (fmt ps) s = .ok v) ∧ ∀ (c : Char) (r : List Char), c ≠ ' ' → PARSE ansic k (fmt ps) (s ++ c :: r) = .err := by
  have vx := fieldsOf_valid w
  obtain ⟨s, h1, _, _, h4⟩ := pieces_read ['U', 'T', 'C'] ansic k vx y1 y2 ps epoch false false hok ho ha (by simp) (by simp) ⟨epoch_valid, .inl rfl⟩
  refine ⟨s, ?_, ?_, ?_⟩
  · have := h1 []
    rw [List.append_nil, fieldsOf_t, format_nil, Res.bind'_ok, List.append_nil] at this
    unfold FORMAT
    rw [this]
    rfl
  · obtain ⟨seen', hp, e⟩ := h4 [] [] s [] [] (by simp) (fun _ => .inl (by intro c h; simp at h)) (by simp) (.inl (List.append_nil s).symm)
    rw [List.append_nil, epoch_t, loop_nil] at e
    unfold PARSE
    rw [parse_eq hp e]
    exact ⟨_, rfl⟩
  · intro c r hc
    obtain ⟨seen', hp, e⟩ := h4 [] (c :: r) (s ++ c :: r) [] [] (by simpa using hc) (fun h => .inr (hy h)) (by simp) (.inl rfl)
    rw [List.append_nil, epoch_t, loop_nil] at e
    unfold PARSE parse
    rw [e, Res.bind'_ok]
    simp [Res.bind]

example (ansic : List Char → Option Int) (n : Int) (y1 : 1 ≤ yearOf (tDay n)) (y2 : yearOf (tDay n) ≤ 9999) :
    ∃ s, FORMAT .timestamp ['%', 'F', ' ', '%', 'T'] n = .ok (.str s) ∧ (∃ v, PARSE ansic .timestamp ['%', 'F', ' ', '%', 'T'] s = .ok v) ∧
      ∀ (c : Char) (r : List Char), c ≠ ' ' → PARSE ansic .timestamp ['%', 'F', ' ', '%', 'T'] (s ++ c :: r) = .err :=
  C132 ansic .timestamp n y1 y2 [.el 'F', .lit ' ', .el 'T'] (complete_example n).ok (complete_example n).order (complete_example n).apart (fun h => by simp [EndsY] at h)

/-! ### C133: elements of other types -/

/-- The elements that values of a type have no text for. -/
def foreign : TimeKind → List Char
  | .date => ['c', 'H', 'I', 'k', 'l', 'M', 'P', 'p', 'R', 'S', 's', 'T', 'X', 'Z', 'z']
  | .datetime => ['Z', 'z']
  | .time => ['A', 'a', 'B', 'b', 'C', 'c', 'D', 'd', 'e', 'F', 'G', 'g', 'h', 'J', 'j', 'm', 'Q', 'U', 'u', 'V', 'W', 'w', 'x', 'Y', 'y', 'Z', 'z']
  | .timestamp => []

theorem foreign_kinds (k : TimeKind) : ∀ c ∈ foreign k, c ≠ 'E' ∧ ∃ ks, kinds c = some ks ∧ k ∉ ks := by
  have h : ∀ c ∈ foreign k, c ≠ 'E' ∧ (match kinds c with | some ks => decide (k ∉ ks) | none => false) = true := by
    cases k <;> decide
  intro c hc
  refine ⟨(h c hc).1, ?_⟩
  have := (h c hc).2
  split at this
  · rename_i ks e
    exact ⟨ks, e, of_decide_eq_true this⟩
  · cases this

/-- C133: an element of the clock in the format of a date, of the calendar in that of a time, or of the zone in that of
anything but a timestamp is an error, wherever it stands and whatever follows, in writing and in reading. -/
theorem C133 (ansic : List Char → Option Int) (k : TimeKind) (w : Int) (ps : List Piece) (hok : ∀ p ∈ ps, p.Ok k) (c : Char) (hc : c ∈ foreign k) (g text : List Char) :
    FORMAT k (fmt ps ++ '%' :: c :: g) w = .err ∧ PARSE ansic k ('%' :: c :: g) text = .err := by
  obtain ⟨hE, ks, h1, h2⟩ := foreign_kinds k c hc
  constructor
  · obtain ⟨s, h⟩ := format_pieces ['U', 'T', 'C'] k w ps hok
    unfold FORMAT
    rw [h, format, if_pos rfl]
    simp only [if_neg hE, h1, if_neg h2]
    rfl
  · unfold PARSE parse
    rw [loop, if_pos rfl]
    simp only [if_neg hE, h1, if_neg h2]
    rfl

example : 'H' ∈ foreign .date ∧ 'Y' ∈ foreign .time ∧ 'z' ∈ foreign .datetime := by decide

end Verif.TimeFormat
