import Verif.Model.Printable
import Verif.Spec.Literal
import Verif.Props.Cast
import Verif.Props.ToJson

/-! # C277: FORMAT('%T', v) is a literal of v -/

namespace Verif.Printable

open Go Verif.Val ToJson Spec.Literal

theorem format_T (P : Print) (v : Val) (hv : v.isNull = false) : formatV P ['%', 'T'] [v] = .ok (.str (text P true v)) := by
  have hd : Format.directive ['T'] = .ok ({ flag := .none, width := .absent, precision := .absent, spec := 'T' }, []) := rfl
  simp only [formatV, List.any_cons, List.any_nil, hv, Bool.or_false, Bool.false_eq_true, if_false, Format.format, Format.run, List.length_cons,
    List.length_nil, if_true, hd, Res.bind'_ok]
  have hr : Format.required { flag := .none, width := .absent, precision := .absent, spec := 'T' } = 1 := rfl
  have hval : Format.validate { flag := .none, width := .absent, precision := .absent, spec := 'T' } [v] = .ok () := by
    show Format.fits 'T' v = .ok ()
    have : Format.fits 'T' v = if v.isNull then .panic else .ok () := rfl
    rw [this, hv]; rfl
  have hc : Format.convert (ext P) { flag := .none, width := .absent, precision := .absent, spec := 'T' } [v] = .ok (text P true v) := rfl
  simp only [hr, List.take, hval, hc, Res.bind'_ok, Nat.lt_irrefl, Nat.zero_add, if_false, List.append_nil]

/-! ### Texts -/

theorem hex2 (n : Nat) (h : n < 256) : hexNum [hexDigit (n / 16), hexDigit (n % 16)] 0 = some n := by
  simp only [hexNum, hexVal_digit _ (show n / 16 < 16 by omega), hexVal_digit _ (show n % 16 < 16 by omega)]
  congr 1; omega

theorem hex4_num (n acc : Nat) (h : n < 65536) (cs : List Char) : hexNum (Json.hex4 n ++ cs) acc = hexNum cs (65536 * acc + n) := by
  simp only [Json.hex4, List.cons_append, List.nil_append, hexNum, hexVal_digit _ (show n / 4096 % 16 < 16 by omega),
    hexVal_digit _ (show n / 256 % 16 < 16 by omega), hexVal_digit _ (show n / 16 % 16 < 16 by omega), hexVal_digit _ (show n % 16 < 16 by omega)]
  congr 1; omega

theorem body_char (P : Print) (c : Char) {t s : List Char} (h : Body t s) : Body (quoteChar P c ++ t) (c :: s) := by
  unfold quoteChar
  have hc : ∀ n, c.toNat = n → c = Char.ofNat n := fun n hn => by rw [← hn, Char.ofNat_toNat]
  split
  · rename_i h1
    refine .esc ?_ h
    rcases h1 with rfl | rfl <;> rfl
  · rename_i h1
    split
    · rename_i hp
      refine .raw ⟨fun e => h1 (.inl e), fun e => h1 (.inr e), ?_, ?_⟩ h
      · rintro rfl
        rw [P.ascii _ (by decide)] at hp
        simp at hp
      · rintro rfl
        rw [P.ascii _ (by decide)] at hp
        simp at hp
    · repeat' split
      · rename_i e; exact .esc (by rw [hc 7 e]; rfl) h
      · rename_i e; exact .esc (by rw [hc 8 e]; rfl) h
      · rename_i e; exact .esc (by rw [hc 12 e]; rfl) h
      · rename_i e; exact .esc (by rw [hc 10 e]; rfl) h
      · rename_i e; exact .esc (by rw [hc 13 e]; rfl) h
      · rename_i e; exact .esc (by rw [hc 9 e]; rfl) h
      · rename_i e; exact .esc (by rw [hc 11 e]; rfl) h
      · exact .x (hex2 c.toNat (by omega)) h
      · refine .u (c := c) ?_ h
        have := hex4_num c.toNat 0 (by assumption) []
        rw [List.append_nil] at this
        exact this.trans (by simp [hexNum])
      · refine .U (c := c) ?_ h
        have hv : c.toNat < 1114112 := by
          have : c.val.toNat < 55296 ∨ 57343 < c.val.toNat ∧ c.val.toNat < 1114112 := c.valid
          have e : c.toNat = c.val.toNat := rfl
          omega
        have h1 := hex4_num (c.toNat / 65536) 0 (by omega) (Json.hex4 (c.toNat % 65536))
        have h2 := hex4_num (c.toNat % 65536) (65536 * 0 + c.toNat / 65536) (by omega) []
        rw [List.append_nil] at h2
        refine (h1.trans h2).trans ?_
        simp only [hexNum]
        congr 1; omega

theorem body_quote (P : Print) : ∀ s : List Char, Body (s.flatMap (quoteChar P)) s
  | [] => .nil
  | c :: s => by
    rw [List.flatMap_cons]
    exact body_char P c (body_quote P s)

theorem simple_x : simple 'x' = none := by decide
theorem simple_u : simple 'u' = none := by decide
theorem simple_U : simple 'U' = none := by decide

/-- What a literal denotes is determined. -/
theorem body_unique {t s s' : List Char} (h : Body t s) (h' : Body t s') : s = s' := by
  induction h generalizing s' with
  | nil => cases h'; rfl
  | raw hr _ ih =>
    cases h' with
    | raw _ k => rw [ih k]
    | esc _ _ => exact absurd rfl hr.2.1
    | x _ _ => exact absurd rfl hr.2.1
    | u _ _ => exact absurd rfl hr.2.1
    | U _ _ => exact absurd rfl hr.2.1
  | esc he _ ih =>
    cases h' with
    | raw hr _ => exact absurd rfl hr.2.1
    | esc he' k => rw [he] at he'; rw [Option.some.inj he', ih k]
    | x _ _ => rw [simple_x] at he; cases he
    | u _ _ => rw [simple_u] at he; cases he
    | U _ _ => rw [simple_U] at he; cases he
  | x he _ ih =>
    cases h' with
    | raw hr _ => exact absurd rfl hr.2.1
    | esc he' k => rw [simple_x] at he'; cases he'
    | x he' k => rw [he] at he'; rw [Char.toNat_inj.mp (Option.some.inj he'), ih k]
  | u he _ ih =>
    cases h' with
    | raw hr _ => exact absurd rfl hr.2.1
    | esc he' k => rw [simple_u] at he'; cases he'
    | u he' k => rw [he] at he'; rw [Char.toNat_inj.mp (Option.some.inj he'), ih k]
  | U he _ ih =>
    cases h' with
    | raw hr _ => exact absurd rfl hr.2.1
    | esc he' k => rw [simple_U] at he'; cases he'
    | U he' k => rw [he] at he'; rw [Char.toNat_inj.mp (Option.some.inj he'), ih k]

/-! ### Bytes -/

/-- A byte whose text is read back: any but the quotation mark and the backslash. -/
def Clean (b : UInt8) : Prop := b.toNat ≠ 34 ∧ b.toNat ≠ 92

theorem ofNat_toNat {n : Nat} (h : n < 128) : (Char.ofNat n).toNat = n := by
  have hv : n.isValidChar := .inl (by omega)
  simp only [Char.ofNat, hv, dif_pos, Char.toNat, Char.ofNatAux]
  rfl

theorem enc_ofNat (b : UInt8) (h : b.toNat < 128) : String.utf8EncodeChar (Char.ofNat b.toNat) = [b] := by
  have h1 : (Char.ofNat b.toNat).val.toNat = b.toNat := ofNat_toNat h
  have h' : (Char.ofNat b.toNat).val.toNat ≤ 127 := by omega
  simp only [String.utf8EncodeChar, h', if_true]
  rw [h1]
  simp

theorem raw_byte {b : UInt8} (hc : Clean b) (h : 32 ≤ b.toNat ∧ b.toNat ≤ 126) : Raw (Char.ofNat b.toNat) := by
  have hn : (Char.ofNat b.toNat).toNat = b.toNat := ofNat_toNat (by omega)
  have key : ∀ d : Char, d.toNat ≠ b.toNat → Char.ofNat b.toNat ≠ d := by
    intro d hd e
    rw [e] at hn
    exact hd hn
  exact ⟨key _ (fun e => hc.1 e.symm), key _ (fun e => hc.2 e.symm), key _ (by show (10 : Nat) ≠ _; omega), key _ (by show (13 : Nat) ≠ _; omega)⟩

theorem bytes_cons {b : UInt8} (hc : Clean b) {t : List Char} {bs : List UInt8} (h : Bytes t bs) : Bytes (byteText b ++ t) (b :: bs) := by
  unfold byteText
  split
  · rename_i hp
    have := Bytes.raw (raw_byte hc hp) h
    rw [enc_ofNat b (by omega)] at this
    exact this
  · exact .x (hex2 b.toNat b.toNat_lt) h

theorem bytes_clean : ∀ b : List UInt8, (∀ x ∈ b, Clean x) → Bytes (b.flatMap byteText) b
  | [], _ => .nil
  | x :: b, h => by
    rw [List.flatMap_cons]
    exact bytes_cons (h x (by simp)) (bytes_clean b fun y hy => h y (by simp [hy]))

theorem bytes_uncons {b : UInt8} (hc : Clean b) {t : List Char} {bs : List UInt8} (h : Bytes (byteText b ++ t) bs) :
    ∃ bs', bs = b :: bs' ∧ Bytes t bs' := by
  unfold byteText at h
  split at h
  · rename_i hp
    have hr := raw_byte hc hp
    rw [List.singleton_append] at h
    generalize hg : Char.ofNat b.toNat = c at h hr
    cases h with
    | raw _ k =>
      refine ⟨_, ?_, k⟩
      rw [← hg, enc_ofNat b (by omega)]
      rfl
    | esc _ _ => exact absurd rfl hr.2.1
    | x _ _ => exact absurd rfl hr.2.1
  · simp only [List.cons_append, List.nil_append] at h
    cases h with
    | raw hr _ => exact absurd rfl hr.2.1
    | esc he _ => rw [simple_x] at he; cases he
    | x he k =>
      rw [hex2 b.toNat b.toNat_lt] at he
      exact ⟨_, by rw [UInt8.toNat_inj.mp (Option.some.inj he)], k⟩

theorem bytes_prefix : ∀ (p : List UInt8), (∀ x ∈ p, Clean x) → ∀ {t : List Char} {bs : List UInt8}, Bytes (p.flatMap byteText ++ t) bs →
    ∃ bs', bs = p ++ bs' ∧ Bytes t bs'
  | [], _, _, _, h => ⟨_, rfl, h⟩
  | x :: p, hp, t, bs, h => by
    rw [List.flatMap_cons, List.append_assoc] at h
    obtain ⟨b1, e1, h1⟩ := bytes_uncons (hp x (by simp)) h
    obtain ⟨b2, e2, h2⟩ := bytes_prefix p (fun y hy => hp y (by simp [hy])) h1
    exact ⟨b2, by rw [e1, e2]; rfl, h2⟩

/-! ### The values whose literal is right -/

/-- The values %T is right for. -/
inductive Fine : Val → Prop where
  | int (i) : Fine (.int i)
  | bool (b) : Fine (.bool b)
  | str (s) : Fine (.str s)
  | bytes {b} : (∀ x ∈ b, Clean x) → Fine (.bytes b)
  | date {t} : tod t = 0 → 0 ≤ yearOf (tDay t) → yearOf (tDay t) ≤ 9999 → Fine (.time .date t)
  | datetime {t} : t % 1000 = 0 → 0 ≤ yearOf (tDay t) → yearOf (tDay t) ≤ 9999 → Fine (.time .datetime t)
  | time {t} : t % 1000 = 0 → Fine (.time .time t)
  | timestamp {t} : t % 1000000000 = 0 → 0 ≤ yearOf (tDay t) → yearOf (tDay t) ≤ 9999 → Fine (.time .timestamp t)
  | arr {vs} : (∀ v ∈ vs, v.isNull = false → Fine v) → Fine (.arr vs)
  | tuple {vs} : 2 ≤ vs.length → (∀ v ∈ vs, v.isNull = false → Fine v) → Fine (.struct (List.replicate vs.length []) vs)

theorem texts_length (P : Print) (T : Bool) : ∀ vs, (texts P T vs).length = vs.length
  | [] => rfl
  | v :: vs => by simp [texts, texts_length P T vs]

theorem texts_get (P : Print) (T : Bool) : ∀ (vs : List Val) (i : Nat), (texts P T vs)[i]? = (vs[i]?).map (text P T)
  | [], i => by simp [texts]
  | v :: vs, 0 => by simp [texts]
  | v :: vs, i + 1 => by simp [texts, texts_get P T vs i]

theorem listed_join : ∀ ts : List (List Char), join [',', ' '] ts = listed ts
  | [] => rfl
  | [_] => rfl
  | t :: u :: ts => by
    have := listed_join (u :: ts)
    simp only [join, listed] at this ⊢
    rw [← this]
    simp

theorem parse_ts (t : Int) (h0 : 0 ≤ yearOf (tDay t)) (h1 : yearOf (tDay t) ≤ 9999) :
    Cast.parseTimestamp (timeText .timestamp t) = some (t - tNano t) := by
  show Cast.parseTimestamp (dateText t ++ ' ' :: (clockText 0 t ++ ['+', '0', '0'])) = _
  unfold Cast.parseTimestamp
  rw [parseDatePart_text t _ h0 h1]
  simp only [or_true, if_true]
  rw [parseClockPart_text (w := 0) (by omega) t ['+', '0', '0'] (by intro c hc; simp at hc; subst hc; decide)]
  have hzone : Cast.parseZone ['+', '0', '0'] = some 0 := by rfl
  simp only [hzone, Option.map_some]
  congr 1
  have e : tDate (yearOf (tDay t)) (monthOf (tDay t)) (dayOf (tDay t)) 0 0 0 0 = tDay t * dayNs := by
    unfold tDate
    rw [daysOf_civil]
    omega
  have hn : tNano t % 10 ^ (9 - 0) = tNano t := by
    apply Int.emod_eq_of_lt <;> unfold tNano tod dayNs sec <;> omega
  rw [e, hn]
  unfold tod tDay dayNs
  omega

theorem nano_zero (t : Int) : tNano t = 0 ↔ t % 1000000000 = 0 := by
  unfold tNano tod dayNs sec; omega

theorem denotes_time (P : Print) (w s : List Char) : w ++ goQuote P s = quoted w (s.flatMap (quoteChar P)) := rfl

/-- The text of a fine value denotes it. -/
theorem fine_denotes (P : Print) {v : Val} (h : Fine v) : Denotes (text P true v) v := by
  induction h with
  | int i =>
    simp only [text, decInt]
    split
    · have := Denotes.neg (parseNat_decNat i.natAbs)
      rwa [show -((i.natAbs : Nat) : Int) = i by omega] at this
    · have := Denotes.int (parseNat_decNat i.natAbs)
      rwa [show ((i.natAbs : Nat) : Int) = i by omega] at this
  | bool b =>
    cases b
    · exact .fls
    · exact .tru
  | str s => exact .str (body_quote P s)
  | bytes hb => exact .bytes (bytes_clean _ hb)
  | @date t h0 h1 h2 =>
    refine .date (body_quote P (timeText .date t)) ?_
    have := parseDate_text t h1 h2
    rw [h0, Int.sub_zero] at this
    exact this
  | @datetime t h0 h1 h2 =>
    refine .datetime (body_quote P (timeText .datetime t)) ?_
    have := parseDatetime_text (w := 6) (by omega) 'T' t h1 h2
    rw [Codec.tod_us t h0, Int.sub_zero] at this
    unfold Cast.parseDatetimeV
    show (parseDatetime 'T' (dateText t ++ 'T' :: clockText 6 t)).or _ = _
    rw [this]; rfl
  | @time t h0 =>
    have := parseClock_text (w := 6) (by omega) t
    rw [Codec.tod_us t h0, Int.sub_zero] at this
    refine .time (body_quote P (timeText .time t)) this ?_
    have hb : 0 ≤ tod t ∧ tod t < dayNs := by unfold tod dayNs; omega
    have e : tDate 0 1 1 0 0 0 0 = daysOf 0 1 1 * dayNs := by unfold tDate; omega
    rw [e, Codec.tod_day _ _ hb]
  | @timestamp t h0 h1 h2 =>
    refine .timestamp (body_quote P (timeText .timestamp t)) ?_
    rw [parse_ts t h1 h2, (nano_zero t).mpr h0, Int.sub_zero]
  | @arr vs hv ih =>
    simp only [text, listed_join]
    refine .arr (texts_length P true vs) ?_
    intro i t v ht hvi
    rw [texts_get, hvi, Option.map_some] at ht
    cases ht
    by_cases hn : v.isNull = false
    · exact ih v (List.mem_of_getElem? hvi) hn
    · cases v <;> first | exact .null | exact absurd rfl hn
  | @tuple vs h2 hv ih =>
    simp only [text, listed_join]
    refine .tuple h2 (texts_length P true vs) ?_
    intro i t v ht hvi
    rw [texts_get, hvi, Option.map_some] at ht
    cases ht
    by_cases hn : v.isNull = false
    · exact ih v (List.mem_of_getElem? hvi) hn
    · cases v <;> first | exact .null | exact absurd rfl hn

/-! ### C277 -/

/-- C277: FORMAT('%T', v) is a literal that denotes `v`, also of NULL. -/
def C277_full : Prop := ∀ (P : Print) (v : Val), ∃ s, formatV P ['%', 'T'] [v] = .ok (.str s) ∧ Denotes s v

/-- **C277**, partial: right for INT64, BOOL and STRING values, BYTES without quotation marks and backslashes, DATE, DATETIME and TIME
values, TIMESTAMPs of whole seconds, arrays of such values and NULLs, and tuples of two or more of them without names. -/
theorem C277_partial (P : Print) {v : Val} (h : Fine v) : ∃ s, formatV P ['%', 'T'] [v] = .ok (.str s) ∧ Denotes s v :=
  ⟨_, format_T P v (by cases h <;> rfl), fine_denotes P h⟩

/-- **C277** STRING values: the text denotes the value and no other. -/
theorem C277_str (P : Print) (s : List Char) : ∃ t, formatV P ['%', 'T'] [.str s] = .ok (.str t) ∧ ∀ s', Denotes t (.str s') ↔ s' = s := by
  refine ⟨_, format_T P _ rfl, fun s' => ⟨fun h => ?_, fun h => by subst h; exact fine_denotes P (.str s')⟩⟩
  have hb := body_quote P s
  have e : text P true (.str s) = quoted [] (s.flatMap (quoteChar P)) := rfl
  rw [e] at h
  generalize hg : quoted [] (s.flatMap (quoteChar P)) = t at h
  cases h with
  | str hb' =>
    simp only [quoted, List.nil_append, List.cons.injEq, true_and] at hg
    have := List.append_cancel_right hg
    rw [← this] at hb'
    exact body_unique hb' hb

/-- **C277** TIMESTAMP: the fraction of a second is not written, so the literal is right exactly for whole seconds. -/
theorem C277_timestamp_iff (P : Print) (t : Int) (h0 : 0 ≤ yearOf (tDay t)) (h1 : yearOf (tDay t) ≤ 9999) :
    ∃ s, formatV P ['%', 'T'] [.time .timestamp t] = .ok (.str s) ∧ (Denotes s (.time .timestamp t) ↔ t % 1000000000 = 0) := by
  refine ⟨_, format_T P _ rfl, fun h => ?_, fun h => fine_denotes P (.timestamp h h0 h1)⟩
  have e : text P true (.time .timestamp t) = quoted (timeWord .timestamp) ((timeText .timestamp t).flatMap (quoteChar P)) := rfl
  rw [e] at h
  generalize hg : quoted (timeWord .timestamp) ((timeText .timestamp t).flatMap (quoteChar P)) = w at h
  cases h with
  | timestamp hb hp =>
    simp only [quoted, timeWord] at hg
    have := List.append_cancel_right (List.cons.inj (List.append_cancel_left hg)).2
    rw [← this] at hb
    rw [body_unique hb (body_quote P _), parse_ts t h0 h1] at hp
    have := Option.some.inj hp
    rw [← nano_zero]
    omega

/-- **C277** NUMERIC and BIGNUMERIC: never right, the text is a number without the word that makes it one of these types. -/
theorem C277_num (P : Print) (r : Rat) (big : Bool) : ∃ s, formatV P ['%', 'T'] [.num r big] = .ok (.str s) ∧ ¬ Denotes s (.num r big) := by
  refine ⟨_, format_T P _ rfl, fun h => ?_⟩
  have e : text P true (.num r big) = Cast.numText r big := rfl
  rw [e] at h
  obtain ⟨c, cs, hs, hc⟩ := numText_head r big
  rw [hs] at h
  have hN : c ≠ 'N' ∧ c ≠ 'B' := by
    rcases hc with rfl | hc
    · decide
    · exact ⟨by rintro rfl; exact absurd hc (by decide), by rintro rfl; exact absurd hc (by decide)⟩
  generalize hg : c :: cs = w at h
  cases h with
  | num => exact hN.1 (List.cons.inj hg).1
  | big => exact hN.2 (List.cons.inj hg).1

/-- **C277** BYTES with a quotation mark that no backslash precedes: the text is no BYTES literal at all. -/
theorem C277_quote (P : Print) (p q : List UInt8) (hp : ∀ x ∈ p, Clean x) : ∃ s, formatV P ['%', 'T'] [.bytes (p ++ 34 :: q)] = .ok (.str s) ∧
    ∀ b, ¬ Denotes s (.bytes b) := by
  refine ⟨_, format_T P _ rfl, fun b h => ?_⟩
  have e : text P true (.bytes (p ++ 34 :: q)) = quoted ['b'] ((p ++ 34 :: q).flatMap byteText) := rfl
  rw [e] at h
  generalize hg : quoted ['b'] ((p ++ 34 :: q).flatMap byteText) = w at h
  cases h with
  | bytes hb =>
    simp only [quoted] at hg
    have := List.append_cancel_right (List.cons.inj (List.append_cancel_left hg)).2
    rw [← this, List.flatMap_append] at hb
    obtain ⟨_, _, hb'⟩ := bytes_prefix p hp hb
    have hq : (34 :: q).flatMap byteText = '"' :: q.flatMap byteText := rfl
    rw [hq] at hb'
    cases hb' with
    | raw hr _ => exact hr.1 rfl

/-- **C277** BYTES whose first backslash stands at the end, or before n, t or another letter of an escape: the text is no literal, or
one of other bytes. -/
theorem C277_backslash (P : Print) (p : List UInt8) (hp : ∀ x ∈ p, Clean x) :
    (∃ s, formatV P ['%', 'T'] [.bytes (p ++ [92])] = .ok (.str s) ∧ ∀ b, ¬ Denotes s (.bytes b)) ∧
    (∀ x q c, 32 ≤ x.toNat ∧ x.toNat ≤ 126 → simple (Char.ofNat x.toNat) = some c → c ≠ '\\' →
      ∃ s, formatV P ['%', 'T'] [.bytes (p ++ 92 :: x :: q)] = .ok (.str s) ∧ ¬ Denotes s (.bytes (p ++ 92 :: x :: q))) := by
  refine ⟨⟨_, format_T P _ rfl, fun b h => ?_⟩, fun x q c hx hs hc => ⟨_, format_T P _ rfl, fun h => ?_⟩⟩
  · have e : text P true (.bytes (p ++ [92])) = quoted ['b'] ((p ++ [92]).flatMap byteText) := rfl
    rw [e] at h
    generalize hg : quoted ['b'] ((p ++ [92]).flatMap byteText) = w at h
    cases h with
    | bytes hb =>
      simp only [quoted] at hg
      have := List.append_cancel_right (List.cons.inj (List.append_cancel_left hg)).2
      rw [← this, List.flatMap_append] at hb
      obtain ⟨_, _, hb'⟩ := bytes_prefix p hp hb
      have hq : [92].flatMap byteText = ['\\'] := rfl
      rw [hq] at hb'
      cases hb' with
      | raw hr _ => exact hr.2.1 rfl
  · have e : text P true (.bytes (p ++ 92 :: x :: q)) = quoted ['b'] ((p ++ 92 :: x :: q).flatMap byteText) := rfl
    rw [e] at h
    generalize hg : quoted ['b'] ((p ++ 92 :: x :: q).flatMap byteText) = w at h
    cases h with
    | bytes hb =>
      simp only [quoted] at hg
      have := List.append_cancel_right (List.cons.inj (List.append_cancel_left hg)).2
      rw [← this, List.flatMap_append] at hb
      obtain ⟨b', hbe, hb'⟩ := bytes_prefix p hp hb
      have hq : (92 :: x :: q).flatMap byteText = '\\' :: Char.ofNat x.toNat :: q.flatMap byteText := by
        simp only [List.flatMap_cons]
        have hxt : byteText x = [Char.ofNat x.toNat] := by unfold byteText; rw [if_pos hx]
        rw [hxt]; rfl
      rw [hq] at hb'
      have hbe' := List.append_cancel_left hbe
      generalize hd : Char.ofNat x.toNat = d at hb' hs
      generalize q.flatMap byteText = tq at hb'
      cases hb' with
      | raw hr _ => exact hr.2.1 rfl
      | esc he _ =>
        rw [hs] at he
        have := (List.cons.inj hbe').1
        rw [← Option.some.inj he] at this
        have hlt : c.toNat < 256 := by
          have : ∀ e c, simple e = some c → c.toNat < 256 := by
            intro e c h
            unfold simple at h
            repeat' split at h
            all_goals first | (cases h; done) | (rename_i h'; rcases h' with rfl | rfl | rfl | rfl | rfl <;> cases h <;> decide) | (cases h; decide)
          exact this _ _ hs
        have h92 := congrArg UInt8.toNat this
        rw [UInt8.toNat_ofNat', Nat.mod_eq_of_lt (by omega)] at h92
        exact hc (Char.toNat_inj.mp h92.symm)
      | x _ _ => rw [simple_x] at hs; cases hs

/-- **C277** Structs with a name or with fewer than two fields: never right. -/
theorem C277_struct (P : Print) (ks : List (List Char)) (vs : List Val) (h : vs.length < 2 ∨ ∃ k ∈ ks, k ≠ []) :
    ∃ s, formatV P ['%', 'T'] [.struct ks vs] = .ok (.str s) ∧ ¬ Denotes s (.struct ks vs) := by
  refine ⟨_, format_T P _ rfl, fun hd => ?_⟩
  generalize text P true (.struct ks vs) = w at hd
  cases hd with
  | tuple h2 =>
    rcases h with h | ⟨k, hk, hne⟩
    · omega
    · exact hne (List.eq_of_mem_replicate hk)

/-- **C277** NULL: the result is NULL and not the text NULL, with any format. -/
theorem C277_null (P : Print) (f : List Char) : formatV P f [.null] = .ok .null := rfl

/-- Only ASCII is printed as it is. -/
def asciiPrint : Print := ⟨fun c => decide (32 ≤ c.toNat ∧ c.toNat < 127), fun _ _ => rfl⟩

/-- FORMAT('%T', NULL) -/
theorem C277_full_false : ¬ C277_full := by
  intro h
  obtain ⟨s, hs, _⟩ := h asciiPrint .null
  rw [C277_null] at hs
  cases hs

/-- FORMAT('%T', ["a\"\n", NULL]) -/
example : Fine (.arr [.str ['a', '"', '\n'], .null, .bytes [97, 0]]) ∧
    formatV asciiPrint ['%', 'T'] [.arr [.str ['a', '"', '\n'], .null, .bytes [97, 0]]] = .ok (.str "[\"a\\\"\\n\", NULL, b\"a\\x00\"]".toList) := by
  refine ⟨.arr ?_, by rfl⟩
  intro v hv hn
  simp only [List.mem_cons, List.not_mem_nil, or_false] at hv
  rcases hv with rfl | rfl | rfl
  · exact .str _
  · cases hn
  · refine .bytes ?_
    intro x hx
    simp only [List.mem_cons, List.not_mem_nil, or_false] at hx
    rcases hx with rfl | rfl <;> exact ⟨by decide, by decide⟩

/-! ### BYTES, exactly -/

/-- The number of backslashes. -/
def slashes (b : List UInt8) : Nat := b.countP fun x => x.toNat = 92
/-- The number of bytes that are not printed as they are. -/
def hidden (b : List UInt8) : Nat := b.countP fun x => !decide (32 ≤ x.toNat ∧ x.toNat ≤ 126)

/-- The text of bytes. -/
abbrev printed (q : List UInt8) : List Char := q.flatMap byteText

theorem byteText_shown {x : UInt8} (h : 32 ≤ x.toNat ∧ x.toNat ≤ 126) : byteText x = [Char.ofNat x.toNat] := by
  unfold byteText; rw [if_pos h]

theorem byteText_hidden {x : UInt8} (h : ¬ (32 ≤ x.toNat ∧ x.toNat ≤ 126)) :
    byteText x = ['\\', 'x', hexDigit (x.toNat / 16), hexDigit (x.toNat % 16)] := by
  unfold byteText; rw [if_neg h]

theorem byte_of_char {x : UInt8} {c : Char} (h : 32 ≤ x.toNat ∧ x.toNat ≤ 126) (e : Char.ofNat x.toNat = c) : x.toNat = c.toNat := by
  rw [← e, ofNat_toNat (by omega)]

/-- A text of bytes that starts with a character other than a backslash. -/
theorem printed_uncons {q : List UInt8} {c : Char} {t : List Char} (h : printed q = c :: t) (hc : c ≠ '\\') :
    ∃ x q', q = x :: q' ∧ x.toNat = c.toNat ∧ (32 ≤ x.toNat ∧ x.toNat ≤ 126) ∧ t = printed q' := by
  cases q with
  | nil => simp [printed] at h
  | cons x q' =>
    simp only [printed, List.flatMap_cons] at h
    by_cases hx : 32 ≤ x.toNat ∧ x.toNat ≤ 126
    · rw [byteText_shown hx, List.singleton_append] at h
      exact ⟨x, q', rfl, byte_of_char hx (List.cons.inj h).1, hx, (List.cons.inj h).2.symm⟩
    · rw [byteText_hidden hx] at h
      exact absurd (List.cons.inj h).1.symm hc

theorem hexVal_ne_slash {c : Char} {n : Nat} (h : hexVal c = some n) : c ≠ '\\' := by
  rintro rfl
  revert h
  simp [hexVal]

theorem hexNum_two {p r : Char} {n : Nat} (h : hexNum [p, r] 0 = some n) : p ≠ '\\' ∧ r ≠ '\\' := by
  simp only [hexNum] at h
  split at h
  · rename_i h1
    split at h
    · rename_i h2
      exact ⟨hexVal_ne_slash h1, hexVal_ne_slash h2⟩
    · cases h
  · cases h

theorem hexDigit_raw : ∀ n, n < 16 → Raw (hexDigit n) ∧ (hexDigit n).toNat < 128 ∧ 32 ≤ (hexDigit n).toNat ∧ (hexDigit n).toNat ≤ 126 ∧ (hexDigit n).toNat ≠ 92 := by
  unfold Raw; decide

theorem enc_ascii {c : Char} (h : c.toNat < 128) : String.utf8EncodeChar c = [UInt8.ofNat c.toNat] := by
  have h' : c.val.toNat ≤ 127 := by have : c.toNat = c.val.toNat := rfl; omega
  simp only [String.utf8EncodeChar, h', if_true]
  rfl

theorem bytes_raw {c : Char} (hr : Raw c) (h : c.toNat < 128) {t : List Char} {o : List UInt8} (hb : Bytes (c :: t) o) :
    ∃ o', o = UInt8.ofNat c.toNat :: o' ∧ Bytes t o' := by
  cases hb with
  | raw _ k => exact ⟨_, by rw [enc_ascii h]; rfl, k⟩
  | esc _ _ => exact absurd rfl hr.2.1
  | x _ _ => exact absurd rfl hr.2.1

theorem simple_lt {e c : Char} (h : simple e = some c) : c.toNat < 128 ∧ (c.toNat = 92 → e = '\\') := by
  unfold simple at h
  repeat' split at h
  all_goals first
    | (cases h; done)
    | (rename_i h'; rcases h' with rfl | rfl | rfl | rfl | rfl <;> cases h <;> exact ⟨by decide, by decide⟩)
    | (cases h; exact ⟨by decide, by decide⟩)

theorem counts_cons (x : UInt8) (q : List UInt8) : slashes (x :: q) = slashes q + (if x.toNat = 92 then 1 else 0) ∧
    hidden (x :: q) = hidden q + (if 32 ≤ x.toNat ∧ x.toNat ≤ 126 then 0 else 1) := by
  unfold slashes hidden
  rw [List.countP_cons, List.countP_cons]
  constructor
  · simp
  · by_cases h : 32 ≤ x.toNat ∧ x.toNat ≤ 126 <;> simp [h]

/-- What reading the text of bytes does to the number of backslashes, of hidden bytes, and to the length, in this order. -/
theorem read_counts : ∀ (n : Nat) (q o : List UInt8), q.length ≤ n → Bytes (printed q) o →
    slashes o ≤ slashes q ∧ (slashes o = slashes q → hidden o ≤ hidden q ∧ (hidden o = hidden q → o.length ≤ q.length)) := by
  intro n
  induction n with
  | zero =>
    intro q o hq h
    have : q = [] := List.eq_nil_of_length_eq_zero (by omega)
    subst this
    cases h
    simp
  | succ n ih =>
    intro q o hq h
    cases q with
    | nil => cases h; simp
    | cons x q =>
      simp only [List.length_cons] at hq
      by_cases hc : Clean x
      · simp only [printed, List.flatMap_cons] at h
        obtain ⟨o', rfl, h'⟩ := bytes_uncons hc h
        have := ih q o' (by omega) h'
        have c1 := counts_cons x q
        have c2 := counts_cons x o'
        simp only [List.length_cons]
        omega
      · have hx : x.toNat = 34 ∨ x.toNat = 92 := by unfold Clean at hc; omega
        rcases hx with hx | hx
        · have hxe : x = 34 := UInt8.toNat_inj.mp hx
          subst hxe
          have e : printed (34 :: q) = '"' :: printed q := rfl
          rw [e] at h
          cases h with
          | raw hr _ => exact absurd rfl hr.1
        · have hxe : x = 92 := UInt8.toNat_inj.mp hx
          subst hxe
          have e : printed (92 :: q) = '\\' :: printed q := rfl
          rw [e] at h
          generalize hg : printed q = tq at h
          have c0 := counts_cons 92 q
          have h92 : ((92 : UInt8).toNat = 92) = True := by simp
          rw [hx] at c0
          simp only [if_true] at c0
          cases h with
          | raw hr _ => exact absurd rfl hr.2.1
          | @esc e' c t b he k =>
            have hl := simple_lt he
            have hb8 : (UInt8.ofNat c.toNat).toNat = c.toNat := by rw [UInt8.toNat_ofNat']; omega
            cases q with
            | nil => simp [printed] at hg
            | cons d q2 =>
              simp only [List.length_cons] at hq
              have c1 := counts_cons d q2
              have c3 := counts_cons (UInt8.ofNat c.toNat) b
              rw [hb8] at c3
              by_cases hd : 32 ≤ d.toNat ∧ d.toNat ≤ 126
              · simp only [printed, List.flatMap_cons, byteText_shown hd, List.singleton_append] at hg
                obtain ⟨g1, g2⟩ := List.cons.inj hg
                have := ih q2 b (by omega) (by rw [← g2] at k; exact k)
                have hde := byte_of_char hd g1
                by_cases h9 : c.toNat = 92
                · have : d.toNat = 92 := by rw [hde, hl.2 h9]; rfl
                  simp only [if_pos h9] at c3
                  simp only [if_pos this] at c1
                  omega
                · simp only [h9, if_false] at c3
                  omega
              · simp only [printed, List.flatMap_cons, byteText_hidden hd, List.cons_append, List.nil_append] at hg
                obtain ⟨g1, g2⟩ := List.cons.inj hg
                subst g1
                rw [show simple '\\' = some '\\' by decide] at he
                cases he
                rw [← g2] at k
                have hlt := d.toNat_lt
                obtain ⟨o1, rfl, k1⟩ := bytes_raw (c := 'x') (by unfold Raw; decide) (by decide) k
                have r1 := hexDigit_raw (d.toNat / 16) (by omega)
                have r2 := hexDigit_raw (d.toNat % 16) (by omega)
                obtain ⟨o2, rfl, k2⟩ := bytes_raw r1.1 r1.2.1 k1
                obtain ⟨o3, rfl, k3⟩ := bytes_raw r2.1 r2.2.1 k2
                have := ih q2 o3 (by omega) k3
                have n1 : (UInt8.ofNat (hexDigit (d.toNat / 16)).toNat).toNat = (hexDigit (d.toNat / 16)).toNat := by
                  rw [UInt8.toNat_ofNat']; omega
                have n2 : (UInt8.ofNat (hexDigit (d.toNat % 16)).toNat).toNat = (hexDigit (d.toNat % 16)).toNat := by
                  rw [UInt8.toNat_ofNat']; omega
                have nx : (UInt8.ofNat 'x'.toNat).toNat = 120 := by decide
                have c4 := counts_cons (UInt8.ofNat 'x'.toNat) (UInt8.ofNat (hexDigit (d.toNat / 16)).toNat :: UInt8.ofNat (hexDigit (d.toNat % 16)).toNat :: o3)
                have c5 := counts_cons (UInt8.ofNat (hexDigit (d.toNat / 16)).toNat) (UInt8.ofNat (hexDigit (d.toNat % 16)).toNat :: o3)
                have c6 := counts_cons (UInt8.ofNat (hexDigit (d.toNat % 16)).toNat) o3
                rw [nx] at c4
                rw [n1] at c5
                rw [n2] at c6
                have hs : '\\'.toNat = 92 := by decide
                have hd9 : ¬ d.toNat = 92 := by omega
                rw [if_pos hs, if_pos (by decide)] at c3
                rw [if_pos (by decide)] at c0
                rw [if_neg hd9, if_neg hd] at c1
                rw [if_neg (by decide), if_pos (by decide)] at c4
                rw [if_neg r1.2.2.2.2, if_pos ⟨r1.2.2.1, r1.2.2.2.1⟩] at c5
                rw [if_neg r2.2.2.2.2, if_pos ⟨r2.2.2.1, r2.2.2.2.1⟩] at c6
                simp only [List.length_cons]
                omega
          | @x p r m t b he k =>
            have hpr := hexNum_two he
            obtain ⟨d1, q1, rfl, e1, s1, g1⟩ := printed_uncons hg (by decide)
            obtain ⟨d2, q2, rfl, e2, s2, g2⟩ := printed_uncons g1.symm hpr.1
            obtain ⟨d3, q3, rfl, e3, s3, g3⟩ := printed_uncons g2.symm hpr.2
            simp only [List.length_cons] at hq ⊢
            rw [g3] at k
            have := ih q3 b (by omega) k
            have c1 := counts_cons d1 (d2 :: d3 :: q3)
            have c2 := counts_cons d2 (d3 :: q3)
            have c3 := counts_cons d3 q3
            have c4 := counts_cons m b
            by_cases hm : m.toNat = 92
            · simp only [hm, s1, s2, s3, and_self, if_true] at c1 c2 c3 c4
              simp only [Nat.reduceLeDiff, and_self, if_true] at c4
              omega
            · simp only [hm, if_false] at c4
              omega

/-- **C277** BYTES: right exactly for those without quotation marks and backslashes. -/
theorem C277_bytes_iff (P : Print) (b : List UInt8) :
    ∃ s, formatV P ['%', 'T'] [.bytes b] = .ok (.str s) ∧ (Denotes s (.bytes b) ↔ ∀ x ∈ b, x ≠ 34 ∧ x ≠ 92) := by
  have hclean : ∀ x : UInt8, Clean x ↔ x ≠ 34 ∧ x ≠ 92 := by
    intro x
    unfold Clean
    constructor
    · intro h; exact ⟨fun e => h.1 (by rw [e]; rfl), fun e => h.2 (by rw [e]; rfl)⟩
    · intro h; exact ⟨fun e => h.1 (UInt8.toNat_inj.mp e), fun e => h.2 (UInt8.toNat_inj.mp e)⟩
  refine ⟨_, format_T P _ rfl, fun h => ?_, fun h => fine_denotes P (.bytes fun x hx => (hclean x).mpr (h x hx))⟩
  have e : text P true (.bytes b) = quoted ['b'] (printed b) := rfl
  rw [e] at h
  have hb : Bytes (printed b) b := by
    generalize hg : quoted ['b'] (printed b) = w at h
    cases h with
    | bytes hb =>
      simp only [quoted] at hg
      rw [List.append_cancel_right (List.cons.inj (List.append_cancel_left hg)).2]
      exact hb
  apply Classical.byContradiction
  intro hn
  have : ∃ p x q, b = p ++ x :: q ∧ (∀ y ∈ p, Clean y) ∧ ¬ Clean x := by
    clear hb h e
    induction b with
    | nil => exact absurd (by simp) hn
    | cons y b ih =>
      by_cases hy : Clean y
      · have : ¬ ∀ x ∈ b, x ≠ 34 ∧ x ≠ 92 := by
          intro hh
          apply hn
          intro x hx
          rcases List.mem_cons.mp hx with rfl | hx
          · exact (hclean x).mp hy
          · exact hh x hx
        obtain ⟨p, x, q, rfl, hp, hx⟩ := ih this
        refine ⟨y :: p, x, q, rfl, ?_, hx⟩
        intro z hz
        rcases List.mem_cons.mp hz with rfl | hz
        · exact hy
        · exact hp z hz
      · exact ⟨[], y, b, rfl, by simp, hy⟩
  obtain ⟨p, x, q, rfl, hp, hx⟩ := this
  rw [printed, List.flatMap_append] at hb
  obtain ⟨b', hbe, hb'⟩ := bytes_prefix p hp hb
  have hbe' := List.append_cancel_left hbe
  subst hbe'
  have hx : x.toNat = 34 ∨ x.toNat = 92 := by unfold Clean at hx; omega
  rcases hx with hx | hx
  · have hxe : x = 34 := UInt8.toNat_inj.mp hx
    subst hxe
    have e : (34 :: q).flatMap byteText = '"' :: printed q := rfl
    rw [e] at hb'
    generalize (34 : UInt8) :: q = o at hb'
    cases hb' with
    | raw hr _ => exact absurd rfl hr.1
  · have hxe : x = 92 := UInt8.toNat_inj.mp hx
    subst hxe
    have e : (92 :: q).flatMap byteText = '\\' :: printed q := rfl
    rw [e] at hb'
    generalize hg : printed q = tq at hb'
    generalize ho : (92 : UInt8) :: q = o at hb'
    cases hb' with
    | raw hr _ => exact absurd rfl hr.2.1
    | @esc e' c t b he k =>
      obtain ⟨h1, rfl⟩ := List.cons.inj ho
      have hl := simple_lt he
      have h92 : c.toNat = 92 := by
        have := congrArg UInt8.toNat h1
        rw [UInt8.toNat_ofNat', Nat.mod_eq_of_lt (by omega)] at this
        exact this.symm
      have he' := hl.2 h92
      subst he'
      cases q with
      | nil => simp [printed] at hg
      | cons d q2 =>
        by_cases hd : 32 ≤ d.toNat ∧ d.toNat ≤ 126
        · simp only [printed, List.flatMap_cons, byteText_shown hd, List.singleton_append] at hg
          obtain ⟨g1, g2⟩ := List.cons.inj hg
          have hde := byte_of_char hd g1
          rw [← g2] at k
          have := read_counts _ q2 (d :: q2) (Nat.le_refl _) k
          have c1 := counts_cons d q2
          rw [hde, show '\\'.toNat = 92 by decide] at c1
          simp only [if_true] at c1
          omega
        · simp only [printed, List.flatMap_cons, byteText_hidden hd, List.cons_append, List.nil_append] at hg
          obtain ⟨g1, g2⟩ := List.cons.inj hg
          rw [← g2] at k
          obtain ⟨o1, h1, _⟩ := bytes_raw (c := 'x') (by unfold Raw; decide) (by decide) k
          have := (List.cons.inj h1).1
          rw [this] at hd
          exact hd (by decide)
    | @x p' r m t b he k =>
      obtain ⟨h1, rfl⟩ := List.cons.inj ho
      have hpr := hexNum_two he
      obtain ⟨d1, q1, rfl, e1, s1, g1⟩ := printed_uncons hg (by decide)
      obtain ⟨d2, q2, rfl, e2, s2, g2⟩ := printed_uncons g1.symm hpr.1
      obtain ⟨d3, q3, rfl, e3, s3, g3⟩ := printed_uncons g2.symm hpr.2
      rw [g3] at k
      have := read_counts _ q3 _ (Nat.le_refl _) k
      have c1 := counts_cons d1 (d2 :: d3 :: q3)
      have c2 := counts_cons d2 (d3 :: q3)
      have c3 := counts_cons d3 q3
      simp only [s1, s2, s3, and_self, if_true] at c1 c2 c3
      simp only [List.length_cons] at this
      omega

end Verif.Printable
