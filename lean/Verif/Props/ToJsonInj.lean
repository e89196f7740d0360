import Verif.Props.ToJson
import Verif.Props.Codec

/-!
# C192: TO_JSON_STRING tells values apart

The same text is the key of DISTINCT in aggregates over arrays and structs.
-/

namespace Verif.ToJson

open Go Verif.Val JsonSpec
open Codec (Canon CanonList Equal EqualList)

/-! ## C192: different values have different texts -/

mutual

/-- Values of a type. -/
def HasTy : Val → Cast.Ty → Prop
  | .null, _ => True
  | .int _, .int => True
  | .bool _, .bool => True
  | .str _, .str => True
  | .bytes _, .bytes => True
  | .num _ b, .num b' => b = b'
  | .time k _, .time k' => k = k'
  | .arr vs, .arr e => AllTy vs e
  | .struct ks vs, .struct names types => ks = names ∧ FieldTy vs types
  | _, _ => False

@[inherit_doc HasTy] def AllTy : List Val → Cast.Ty → Prop
  | [], _ => True
  | v :: vs, e => HasTy v e ∧ AllTy vs e

@[inherit_doc HasTy] def FieldTy : List Val → List Cast.Ty → Prop
  | [], [] => True
  | v :: vs, t :: ts => HasTy v t ∧ FieldTy vs ts
  | _, _ => False

end

/-! ### strconv.Quote can be undone -/

/-- The value of hexadecimal digits. -/
def hexAll (s : List Char) : Nat := s.foldl (fun a c => a * 16 + (hexVal c).getD 0) 0

/-- The first character of a quoted text, undone. -/
def unq : List Char → Option (Char × List Char)
  | [] => none
  | c :: s =>
    if c = '\\' then
      match s with
      | [] => none
      | e :: s =>
        if e = 'a' then some (Char.ofNat 7, s)
        else if e = 'b' then some (Char.ofNat 8, s)
        else if e = 'f' then some (Char.ofNat 12, s)
        else if e = 'n' then some (Char.ofNat 10, s)
        else if e = 'r' then some (Char.ofNat 13, s)
        else if e = 't' then some (Char.ofNat 9, s)
        else if e = 'v' then some (Char.ofNat 11, s)
        else if e = 'x' then some (Char.ofNat (hexAll (s.take 2)), s.drop 2)
        else if e = 'u' then some (Char.ofNat (hexAll (s.take 4)), s.drop 4)
        else if e = 'U' then some (Char.ofNat (hexAll (s.take 8)), s.drop 8)
        else some (e, s)
    else some (c, s)

theorem unq_quoteChar (P : Print) (c : Char) (r : List Char) : unq (quoteChar P c ++ r) = some (c, r) := by
  have hx : ∀ n, n < 16 → (hexVal (hexDigit n)).getD 0 = n := fun n h => by rw [hexVal_digit n h]; rfl
  have hc : c.toNat < 1114112 := by
    have := c.valid
    rcases this with h | h
    · have : c.toNat < 0xD800 := h
      omega
    · exact h.2
  unfold quoteChar
  split
  · rename_i h
    rcases h with rfl | rfl <;> rfl
  split
  · rename_i h1 h2
    simp only [List.cons_append, List.nil_append, unq]
    rw [if_neg (fun h => h1 (.inr h))]
  split
  · rename_i h; rw [toNat_inj h]; rfl
  split
  · rename_i h; rw [toNat_inj h]; rfl
  split
  · rename_i h; rw [toNat_inj h]; rfl
  split
  · rename_i h; rw [toNat_inj h]; rfl
  split
  · rename_i h; rw [toNat_inj h]; rfl
  split
  · rename_i h; rw [toNat_inj h]; rfl
  split
  · rename_i h; rw [toNat_inj h]; rfl
  split
  · rename_i h
    have e : unq ('\\' :: 'x' :: hexDigit (c.toNat / 16) :: hexDigit (c.toNat % 16) :: r) =
      some (Char.ofNat (hexAll [hexDigit (c.toNat / 16), hexDigit (c.toNat % 16)]), r) := rfl
    refine e.trans ?_
    simp only [hexAll, List.foldl_cons, List.foldl_nil]
    rw [hx _ (by omega), hx _ (by omega), show (0 * 16 + c.toNat / 16) * 16 + c.toNat % 16 = c.toNat by omega, Char.ofNat_toNat]
  split
  · rename_i h
    have e : unq (('\\' :: 'u' :: Json.hex4 c.toNat) ++ r) = some (Char.ofNat (hexAll (Json.hex4 c.toNat)), r) := rfl
    refine e.trans ?_
    simp only [hexAll, Json.hex4, List.foldl_cons, List.foldl_nil]
    rw [hx _ (by omega), hx _ (by omega), hx _ (by omega), hx _ (by omega),
      show (((0 * 16 + c.toNat / 4096 % 16) * 16 + c.toNat / 256 % 16) * 16 + c.toNat / 16 % 16) * 16 + c.toNat % 16 = c.toNat by omega,
      Char.ofNat_toNat]
  · have e : unq (('\\' :: 'U' :: (Json.hex4 (c.toNat / 65536) ++ Json.hex4 (c.toNat % 65536))) ++ r) =
      some (Char.ofNat (hexAll (Json.hex4 (c.toNat / 65536) ++ Json.hex4 (c.toNat % 65536))), r) := rfl
    refine e.trans ?_
    have h4 : ∀ a n, n < 65536 → (Json.hex4 n).foldl (fun a c => a * 16 + (hexVal c).getD 0) a = a * 65536 + n := by
      intro a n hn
      simp only [Json.hex4, List.foldl_cons, List.foldl_nil]
      rw [hx _ (by omega), hx _ (by omega), hx _ (by omega), hx _ (by omega)]
      omega
    unfold hexAll
    rw [List.foldl_append, h4 _ _ (by omega), h4 _ _ (by omega),
      show (0 * 65536 + c.toNat / 65536) * 65536 + c.toNat % 65536 = c.toNat by omega, Char.ofNat_toNat]

theorem unq_quote (r : List Char) : unq ('"' :: r) = some ('"', r) := rfl

/-- No character is written starting with a bare quote. -/
theorem quoteChar_head (P : Print) (c : Char) : ∃ d s, quoteChar P c = d :: s ∧ d ≠ '"' := by
  cases h : quoteChar P c with
  | nil => exact absurd h (quoteChar_ne_nil P c)
  | cons d s =>
    refine ⟨d, s, rfl, ?_⟩
    rintro rfl
    have := unq_quoteChar P c []
    rw [h] at this
    simp only [List.append_nil, unq_quote, Option.some.injEq, Prod.mk.injEq] at this
    rw [← this.1] at h
    have e : quoteChar P '"' = ['\\', '"'] := rfl
    rw [e] at h
    simp at h

theorem body_cut (P : Print) : ∀ s s' r r' : List Char, s.flatMap (quoteChar P) ++ '"' :: r = s'.flatMap (quoteChar P) ++ '"' :: r' → s = s' ∧ r = r'
  | [], [], r, r', h => by simpa using h
  | [], c :: s', r, r', h => by
    obtain ⟨d, t, e, hd⟩ := quoteChar_head P c
    rw [List.flatMap_cons, e] at h
    simp only [List.flatMap_nil, List.nil_append, List.cons_append, List.cons.injEq] at h
    exact absurd h.1.symm hd
  | c :: s, [], r, r', h => by
    obtain ⟨d, t, e, hd⟩ := quoteChar_head P c
    rw [List.flatMap_cons, e] at h
    simp only [List.flatMap_nil, List.nil_append, List.cons_append, List.cons.injEq] at h
    exact absurd h.1 hd
  | c :: s, c' :: s', r, r', h => by
    rw [List.flatMap_cons, List.flatMap_cons, List.append_assoc, List.append_assoc] at h
    have h1 := congrArg unq h
    rw [unq_quoteChar, unq_quoteChar] at h1
    simp only [Option.some.injEq, Prod.mk.injEq] at h1
    obtain ⟨rfl, h1⟩ := h1
    obtain ⟨rfl, rfl⟩ := body_cut P s s' r r' h1
    exact ⟨rfl, rfl⟩

theorem quote_cut (P : Print) {s s' r r' : List Char} (h : goQuote P s ++ r = goQuote P s' ++ r') : s = s' ∧ r = r' := by
  unfold goQuote at h
  simp only [List.cons_append, List.append_assoc, List.nil_append, List.cons.injEq, true_and] at h
  exact body_cut P s s' r r' h

/-! ### Texts without brackets and commas -/

/-- No comma or closing bracket. -/
def plain (c : Char) : Bool := decide (c ≠ ',' ∧ c ≠ ']' ∧ c ≠ '}')

theorem span_plain {t r : List Char} (h : ∀ c ∈ t, plain c = true) (hr : Stop r) : (t ++ r).takeWhile plain = t ∧ (t ++ r).dropWhile plain = r := by
  cases r with
  | nil => rw [List.append_nil]; exact ⟨Codec.takeWhile_all h, Codec.dropWhile_all h⟩
  | cons c r => exact Codec.takeWhile_stop h (by rcases hr c rfl with rfl | rfl | rfl <;> decide)

theorem plain_cut {t t' r r' : List Char} (h : ∀ c ∈ t, plain c = true) (h' : ∀ c ∈ t', plain c = true) (hr : Stop r) (hr' : Stop r')
    (e : t ++ r = t' ++ r') : t = t' ∧ r = r' := by
  have h1 := span_plain h hr
  have h2 := span_plain h' hr'
  rw [e] at h1
  exact ⟨h1.1.symm.trans h2.1, h1.2.symm.trans h2.2⟩

theorem plain_digit {c : Char} (h : isDig c = true) : plain c = true := by
  unfold plain
  apply decide_eq_true
  refine ⟨?_, ?_, ?_⟩ <;> (rintro rfl; revert h; decide)

theorem plain_decInt (i : Int) : ∀ c ∈ decInt i, plain c = true := by
  intro c hc
  rcases decInt_chars i c hc with rfl | h
  · decide
  · exact plain_digit (decide_eq_true h)

theorem plain_trim {s : List Char} (h : ∀ c ∈ s, plain c = true) : ∀ c ∈ trimRight s ['0'], plain c = true := by
  intro c hc
  obtain ⟨j, hj⟩ := trimRight_zeros s
  exact h c (by rw [hj]; simp [hc])

theorem plain_padDigits (w n : Nat) : ∀ c ∈ padDigits w n, plain c = true := fun c hc => plain_digit (decide_eq_true (padDigits_digits w n c hc))

theorem plain_pad (w n : Nat) : ∀ c ∈ pad w n, plain c = true := fun c hc => plain_digit (Cast.pad_digits w n c hc)

theorem plain_numText (r : Rat) (big : Bool) : ∀ c ∈ Cast.numText r big, plain c = true := by
  intro c hc
  rw [Cast.numText_eq] at hc
  simp only [List.mem_append] at hc
  rcases hc with hc | hc | hc
  · split at hc
    · simp at hc; subst hc; decide
    · cases hc
  · exact plain_digit (isDig_decNat _ c hc)
  · split at hc
    · cases hc
    · rcases List.mem_cons.1 hc with rfl | hc
      · decide
      · exact plain_trim (plain_padDigits _ _) c hc

theorem plain_date (t : Int) : ∀ c ∈ dateText t, plain c = true := by
  intro c hc
  unfold dateText padInt at hc
  simp only [List.mem_append, List.mem_cons] at hc
  rcases hc with hc | rfl | hc | rfl | hc
  · split at hc
    · rcases List.mem_cons.1 hc with rfl | hc
      · decide
      · exact plain_pad _ _ c hc
    · exact plain_pad _ _ c hc
  · decide
  · exact plain_pad _ _ c hc
  · decide
  · exact plain_pad _ _ c hc

theorem plain_clock (w : Nat) (t : Int) : ∀ c ∈ clockText w t, plain c = true := by
  intro c hc
  unfold clockText fracText at hc
  simp only [List.mem_append, List.mem_cons] at hc
  rcases hc with hc | rfl | hc | rfl | hc | hc
  · exact plain_pad _ _ c hc
  · decide
  · exact plain_pad _ _ c hc
  · decide
  · exact plain_pad _ _ c hc
  · split at hc
    · cases hc
    · rename_i h
      rcases List.mem_cons.1 hc with rfl | hc
      · decide
      · exact plain_trim (plain_padDigits _ _) c (by simpa [h] using hc)

theorem plain_time {k : TimeKind} {t : Int} {s : List Char} (h : Cast.toStr (.time k t) = .ok s) : ∀ c ∈ s, plain c = true := by
  intro c hc
  cases k <;> cases h
  · exact plain_date t c hc
  · simp only [Codec.timeText, List.mem_append, List.mem_cons] at hc
    rcases hc with hc | rfl | hc
    · exact plain_date t c hc
    · decide
    · exact plain_clock 6 t c hc
  · exact plain_clock 6 t c hc
  · simp only [List.mem_append, List.mem_cons] at hc
    rcases hc with hc | rfl | hc | hc
    · exact plain_date t c hc
    · decide
    · exact plain_clock 9 t c hc
    · rcases hc with rfl | hc
      · decide
      · cases hc

theorem time_cut {k : TimeKind} {t u : Int} (ht : Canon (.time k t)) (hu : Canon (.time k u))
    (h : Cast.toStr (.time k t) = Cast.toStr (.time k u)) : Equal (.time k t) (.time k u) := by
  cases k
  · simp only [Cast.toStr, Codec.timeText, Res.ok.injEq] at h
    have h1 := parseDate_text t (by have := ht.2.1; omega) ht.2.2
    have h2 := parseDate_text u (by have := hu.2.1; omega) hu.2.2
    rw [h, h2, ht.1, hu.1] at h1
    refine ⟨rfl, ?_⟩
    have := Option.some.inj h1
    omega
  · simp only [Cast.toStr, Codec.timeText, Res.ok.injEq] at h
    have h1 := parseDatetime_text (w := 6) (by omega) 'T' t (by have := ht.2.1; omega) ht.2.2
    have h2 := parseDatetime_text (w := 6) (by omega) 'T' u (by have := hu.2.1; omega) hu.2.2
    rw [h, h2, Codec.tod_us t ht.1, Codec.tod_us u hu.1] at h1
    have := Option.some.inj h1
    exact ⟨rfl, by omega⟩
  · simp only [Cast.toStr, Codec.timeText, Res.ok.injEq] at h
    have h1 := parseClock_text (w := 6) (by omega) t
    have h2 := parseClock_text (w := 6) (by omega) u
    rw [h, h2, Codec.tod_us t ht, Codec.tod_us u hu] at h1
    have := Option.some.inj h1
    show tod t = tod u
    omega
  · simp only [Cast.toStr, Res.ok.injEq] at h
    have year : ∀ x : Int, -62135596800000000000 ≤ x → x < 253402300800000000000 → 0 ≤ yearOf (tDay x) ∧ yearOf (tDay x) ≤ 9999 := by
      intro x h1 h2
      have d1 : -719162 ≤ tDay x := by unfold tDay dayNs; omega
      have d2 : tDay x ≤ 2932896 := by unfold tDay dayNs; omega
      have y1 := yearOf_mono d1
      have y2 := yearOf_mono d2
      have e1 : yearOf (-719162) = 1 := by decide +kernel
      have e2 : yearOf 2932896 = 9999 := by decide +kernel
      omega
    obtain ⟨a0, a1, a2⟩ : _ ∧ _ ∧ _ := ht
    obtain ⟨b0, b1, b2⟩ : _ ∧ _ ∧ _ := hu
    have h1 := Cast.parseTimestamp_text (w := 9) (by omega) t (year t a1 a2).1 (year t a1 a2).2 ['Z'] (.inr rfl)
    have h2 := Cast.parseTimestamp_text (w := 9) (by omega) u (year u b1 b2).1 (year u b1 b2).2 ['Z'] (.inr rfl)
    rw [h, h2] at h1
    have := Option.some.inj h1
    simp only [Nat.sub_self, Int.pow_zero, Int.emod_one, Int.sub_zero] at this
    exact ⟨rfl, this.symm⟩

theorem numText_inj {r r' : Rat} {big : Bool} (h : ∃ n : Int, r = mkRat n (10 ^ (if big then 38 else 9)))
    (h' : ∃ n : Int, r' = mkRat n (10 ^ (if big then 38 else 9))) (e : Cast.numText r big = Cast.numText r' big) : r = r' := by
  obtain ⟨n, rfl⟩ := h
  obtain ⟨m, rfl⟩ := h'
  have h1 := Cast.setString_numText (fun _ => 0) n big
  have h2 := Cast.setString_numText (fun _ => 0) m big
  rw [show Cast.places big = if big then 38 else 9 from rfl] at h1 h2
  rw [e, h2] at h1
  exact h1.symm

/-! ### All texts -/

theorem join_cons (t : List Char) (ts : List (List Char)) : join [','] (t :: ts) = t ++ ts.flatMap (',' :: ·) := by
  induction ts generalizing t with
  | nil => simp [join]
  | cons u us ih => rw [join, ih, List.flatMap_cons]; simp; simp

theorem tail_stop {e : Char} (he : e = ']' ∨ e = '}') (ts : List (List Char)) (r : List Char) : Stop (ts.flatMap (',' :: ·) ++ e :: r) := by
  cases ts with
  | nil => exact .cons (by rcases he with rfl | rfl <;> simp) _
  | cons t ts => exact .cons (.inl rfl) _

/-- The texts that start like null. -/
theorem null_text {P : Print} {w : Val} {t : List Char} (h : textOf P w = .ok ('n' :: t)) : w = .null := by
  unfold textOf at h
  cases w with
  | null => rfl
  | int i =>
    simp only [Val.isNull, Bool.false_eq_true, if_false, toJSON, Res.ok.injEq] at h
    obtain ⟨c, s, e, hc⟩ := decInt_head i
    rw [e] at h
    cases h
    rcases hc with hc | hc <;> exact absurd hc (by decide)
  | bool b => cases b <;> simp [Val.isNull, toJSON] at h
  | str s => simp [Val.isNull, toJSON, goQuote] at h
  | bytes s => simp [Val.isNull, toJSON, goQuote] at h
  | num r big =>
    simp only [Val.isNull, Bool.false_eq_true, if_false, toJSON, Res.ok.injEq] at h
    obtain ⟨c, s, e, hc⟩ := numText_head r big
    rw [e] at h
    cases h
    rcases hc with hc | hc <;> exact absurd hc (by decide)
  | time k x =>
    simp only [Val.isNull, Bool.false_eq_true, if_false, toJSON] at h
    obtain ⟨c, s, e, hc⟩ := time_head h
    cases e
    rcases hc with hc | hc <;> exact absurd hc (by decide)
  | arr vs =>
    simp only [Val.isNull, Bool.false_eq_true, if_false, toJSON] at h
    cases he : elemTexts P vs <;> rw [he] at h <;> simp [Res.bind] at h
  | struct ks vs =>
    simp only [Val.isNull, Bool.false_eq_true, if_false, toJSON] at h
    cases he : fieldTexts P ks vs <;> rw [he] at h <;> simp [Res.bind] at h

theorem elemTexts_cons {P : Print} {v : Val} {vs : List Val} {ts : List (List Char)} (h : elemTexts P (v :: vs) = .ok ts) :
    ∃ t ts', textOf P v = .ok t ∧ elemTexts P vs = .ok ts' ∧ ts = t :: ts' := by
  simp only [elemTexts] at h
  unfold textOf
  cases ht : (if v.isNull then Res.ok nullText else toJSON P v) <;> rw [ht] at h
  · cases hts : elemTexts P vs <;> rw [hts] at h <;> cases h
    exact ⟨_, _, rfl, rfl, rfl⟩
  · cases h
  · cases h

theorem fieldTexts_cons {P : Print} {k : List Char} {ks : List (List Char)} {v : Val} {vs : List Val} {ts : List (List Char)}
    (h : fieldTexts P (k :: ks) (v :: vs) = .ok ts) :
    ∃ t ts', textOf P v = .ok t ∧ fieldTexts P ks vs = .ok ts' ∧ ts = (goQuote P k ++ ':' :: t) :: ts' := by
  simp only [fieldTexts] at h
  unfold textOf
  cases ht : (if v.isNull then Res.ok nullText else toJSON P v) <;> rw [ht] at h
  · cases hts : fieldTexts P ks vs <;> rw [hts] at h <;> cases h
    exact ⟨_, _, rfl, rfl, rfl⟩
  · cases h
  · cases h

/-- Where the text of one value starts, the text of no other value of the type starts. -/
def Cut (P : Print) (v w : Val) : Prop :=
  ∀ (t t' r r' : List Char), textOf P v = .ok t → textOf P w = .ok t' → Stop r → Stop r' → t ++ r = t' ++ r' → Equal v w ∧ r = r'

theorem cut_null {P : Print} {w : Val} : Cut P .null w := by
  intro t t' r r' h h' _ _ e
  cases h
  obtain ⟨c, s, rfl, _⟩ := text_head h'
  obtain rfl : c = 'n' := by
    have := congrArg List.head? e
    simpa [nullText] using this.symm
  have := null_text h'
  subst this
  cases h'
  exact ⟨trivial, by simpa [nullText] using e⟩

theorem cut_null' {P : Print} {w : Val} : Cut P w .null := by
  intro t t' r r' h h' hr hr' e
  obtain ⟨h1, h2⟩ := cut_null t' t r' r h' h hr' hr e.symm
  cases w <;> simp only [Equal] at h1
  exact ⟨trivial, h2.symm⟩

mutual

theorem text_cut (P : Print) : ∀ (v w : Val) (ty : Cast.Ty), Sound v → Sound w → Canon v → Canon w → HasTy v ty → HasTy w ty → Cut P v w
  | .null, w, _, _, _, _, _, _, _ => cut_null
  | v, .null, _, _, _, _, _, _, _ => cut_null'
  | .int i, w, ty, _, _, _, _, hv, hw => by
    cases ty <;> simp only [HasTy] at hv
    cases w <;> simp only [HasTy] at hw
    · exact cut_null'
    intro t t' r r' h h' hr hr' e
    simp only [textOf, Val.isNull, Bool.false_eq_true, if_false, toJSON, Res.ok.injEq] at h h'
    subst h h'
    obtain ⟨h1, h2⟩ := plain_cut (plain_decInt _) (plain_decInt _) hr hr' e
    exact ⟨decInt_injective h1, h2⟩
  | .bool b, w, ty, _, _, _, _, hv, hw => by
    cases ty <;> simp only [HasTy] at hv
    cases w with
    | null => exact cut_null'
    | bool b' =>
      intro t t' r r' h h' hr hr' e
      simp only [textOf, Val.isNull, Bool.false_eq_true, if_false, toJSON, Res.ok.injEq] at h h'
      subst h h'
      cases b <;> cases b' <;> simp [Equal] at e ⊢ <;> exact e
    | _ => simp only [HasTy] at hw
  | .str s, w, ty, _, _, _, _, hv, hw => by
    cases ty <;> simp only [HasTy] at hv
    cases w <;> simp only [HasTy] at hw
    · exact cut_null'
    intro t t' r r' h h' hr hr' e
    simp only [textOf, Val.isNull, Bool.false_eq_true, if_false, toJSON, Res.ok.injEq] at h h'
    subst h h'
    exact quote_cut P e
  | .bytes s, w, ty, _, _, _, _, hv, hw => by
    cases ty <;> simp only [HasTy] at hv
    cases w <;> simp only [HasTy] at hw
    · exact cut_null'
    intro t t' r r' h h' hr hr' e
    simp only [textOf, Val.isNull, Bool.false_eq_true, if_false, toJSON, Res.ok.injEq] at h h'
    subst h h'
    obtain ⟨h1, h2⟩ := quote_cut P e
    exact ⟨Base64.encode_injective h1, h2⟩
  | .num x big, w, ty, hs, hs', _, _, hv, hw => by
    cases ty <;> simp only [HasTy] at hv
    cases w <;> simp only [HasTy] at hw
    · exact cut_null'
    subst hv hw
    intro t t' r r' h h' hr hr' e
    simp only [textOf, Val.isNull, Bool.false_eq_true, if_false, toJSON, Res.ok.injEq] at h h'
    subst h h'
    obtain ⟨h1, h2⟩ := plain_cut (plain_numText _ _) (plain_numText _ _) hr hr' e
    exact ⟨⟨numText_inj hs hs' h1, rfl⟩, h2⟩
  | .time k x, w, ty, _, _, hc, hc', hv, hw => by
    cases ty <;> simp only [HasTy] at hv
    cases w <;> simp only [HasTy] at hw
    · exact cut_null'
    subst hv hw
    intro t t' r r' h h' hr hr' e
    simp only [textOf, Val.isNull, Bool.false_eq_true, if_false, toJSON] at h h'
    obtain ⟨h1, h2⟩ := plain_cut (plain_time h) (plain_time h') hr hr' e
    subst h1
    exact ⟨time_cut hc hc' (h.trans h'.symm), h2⟩
  | .arr vs, w, ty, hs, hs', hc, hc', hv, hw => by
    cases ty <;> simp only [HasTy] at hv
    cases w <;> simp only [HasTy] at hw
    · exact cut_null'
    rename_i ty ws
    intro t t' r r' h h' hr hr' e
    simp only [textOf, Val.isNull, Bool.false_eq_true, if_false, toJSON] at h h'
    cases he : elemTexts P vs <;> rw [he] at h <;> cases h
    cases he' : elemTexts P ws <;> rw [he'] at h' <;> cases h'
    rename_i ts ts'
    simp only [List.cons_append, List.append_assoc, List.nil_append, List.cons.injEq, true_and] at e
    simp only [Equal]
    match vs, ws, he, he', hs, hs', hc, hc', hv, hw with
    | [], [], he, he', _, _, _, _, _, _ =>
      simp only [elemTexts, Res.ok.injEq] at he he'
      subst he he'
      exact ⟨trivial, by simpa [join] using e⟩
    | [], w :: ws, he, he', _, _, _, _, _, _ =>
      obtain ⟨t, ts, h1, h2, rfl⟩ := elemTexts_cons he'
      simp only [elemTexts, Res.ok.injEq] at he
      subst he
      obtain ⟨c, s, rfl, _, hb, _⟩ := text_head h1
      rw [join_cons] at e
      simp only [join, List.nil_append, List.cons_append, List.cons.injEq] at e
      exact absurd e.1.symm hb
    | v :: vs, [], he, he', _, _, _, _, _, _ =>
      obtain ⟨t, ts, h1, h2, rfl⟩ := elemTexts_cons he
      simp only [elemTexts, Res.ok.injEq] at he'
      subst he'
      obtain ⟨c, s, rfl, _, hb, _⟩ := text_head h1
      rw [join_cons] at e
      simp only [join, List.nil_append, List.cons_append, List.cons.injEq] at e
      exact absurd e.1 hb
    | v :: vs, w :: ws, he, he', hs, hs', hc, hc', hv, hw =>
      obtain ⟨t, ts, h1, h2, rfl⟩ := elemTexts_cons he
      obtain ⟨t', ts', h1', h2', rfl⟩ := elemTexts_cons he'
      rw [join_cons, join_cons, List.append_assoc, List.append_assoc] at e
      obtain ⟨g1, g2⟩ := text_cut P v w ty hs.1 hs'.1 hc.1 hc'.1 hv.1 hw.1 t t' _ _ h1 h1' (tail_stop (.inl rfl) _ _) (tail_stop (.inl rfl) _ _) e
      obtain ⟨g3, g4⟩ := elems_cut P vs ws ty hs.2 hs'.2 hc.2 hc'.2 hv.2 hw.2 ts ts' r r' h2 h2' g2
      exact ⟨⟨g1, g3⟩, g4⟩
  | .struct ks vs, w, ty, hs, hs', hc, hc', hv, hw => by
    cases ty <;> simp only [HasTy] at hv
    cases w <;> simp only [HasTy] at hw
    · exact cut_null'
    rename_i names types ks' ws
    obtain ⟨rfl, hv⟩ := hv
    obtain ⟨rfl, hw⟩ := hw
    simp only [Sound] at hs hs'
    simp only [Canon] at hc hc'
    intro t t' r r' h h' hr hr' e
    simp only [textOf, Val.isNull, Bool.false_eq_true, if_false, toJSON] at h h'
    cases he : fieldTexts P ks' vs <;> rw [he] at h <;> cases h
    cases he' : fieldTexts P ks' ws <;> rw [he'] at h' <;> cases h'
    rename_i ts ts'
    simp only [List.cons_append, List.append_assoc, List.nil_append, List.cons.injEq, true_and] at e
    simp only [Equal, true_and]
    match ks', vs, ws, types, he, he', hs, hs', hc, hc', hv, hw with
    | [], [], [], _, he, he', _, _, _, _, _, _ =>
      simp only [fieldTexts, Res.ok.injEq] at he he'
      subst he he'
      exact ⟨trivial, by simpa [join] using e⟩
    | [], _ :: _, _, _, _, _, hs, _, _, _, _, _ => simp at hs
    | [], _, _ :: _, _, _, _, _, hs, _, _, _, _ => simp at hs
    | _ :: _, [], _, _, _, _, hs, _, _, _, _, _ => simp at hs
    | _ :: _, _, [], _, _, _, _, hs, _, _, _, _ => simp at hs
    | _ :: _, _ :: _, _ :: _, [], _, _, _, _, _, _, hv, _ => exact hv.elim
    | k :: ks, v :: vs, w :: ws, ty :: types, he, he', hs, hs', hc, hc', hv, hw =>
      obtain ⟨t, ts, h1, h2, rfl⟩ := fieldTexts_cons he
      obtain ⟨t', ts', h1', h2', rfl⟩ := fieldTexts_cons he'
      rw [join_cons, join_cons] at e
      simp only [List.append_assoc, List.cons_append] at e
      have e := (quote_cut P e).2
      simp only [List.cons.injEq, true_and] at e
      obtain ⟨g1, g2⟩ := text_cut P v w ty hs.2.1 hs'.2.1 hc.2.1 hc'.2.1 hv.1 hw.1 t t' _ _ h1 h1' (tail_stop (.inr rfl) _ _) (tail_stop (.inr rfl) _ _) e
      obtain ⟨g3, g4⟩ := fields_cut P vs ws ks types (by simpa using hs.1) (by simpa using hs'.1) hs.2.2 hs'.2.2 hc.2.2 hc'.2.2 hv.2 hw.2 ts ts' r r' h2 h2' g2
      exact ⟨⟨g1, g3⟩, g4⟩

theorem elems_cut (P : Print) : ∀ (vs ws : List Val) (ty : Cast.Ty), SoundL vs → SoundL ws → CanonList vs → CanonList ws → AllTy vs ty → AllTy ws ty →
    ∀ (ts ts' : List (List Char)) (r r' : List Char), elemTexts P vs = .ok ts → elemTexts P ws = .ok ts' →
    ts.flatMap (',' :: ·) ++ ']' :: r = ts'.flatMap (',' :: ·) ++ ']' :: r' → EqualList vs ws ∧ r = r'
  | [], [], _, _, _, _, _, _, _, ts, ts', r, r', h, h', e => by
    simp only [elemTexts, Res.ok.injEq] at h h'
    subst h h'
    exact ⟨trivial, by simpa using e⟩
  | [], w :: ws, _, _, _, _, _, _, _, ts, ts', r, r', h, h', e => by
    obtain ⟨t, ts, h1, h2, rfl⟩ := elemTexts_cons h'
    simp only [elemTexts, Res.ok.injEq] at h
    subst h
    simp at e
  | v :: vs, [], _, _, _, _, _, _, _, ts, ts', r, r', h, h', e => by
    obtain ⟨t, ts, h1, h2, rfl⟩ := elemTexts_cons h
    simp only [elemTexts, Res.ok.injEq] at h'
    subst h'
    simp at e
  | v :: vs, w :: ws, ty, hs, hs', hc, hc', hv, hw, ts, ts', r, r', h, h', e => by
    obtain ⟨t, ts, h1, h2, rfl⟩ := elemTexts_cons h
    obtain ⟨t', ts', h1', h2', rfl⟩ := elemTexts_cons h'
    rw [List.flatMap_cons, List.flatMap_cons, List.append_assoc, List.append_assoc] at e
    simp only [List.cons_append, List.cons.injEq, true_and] at e
    obtain ⟨g1, g2⟩ := text_cut P v w ty hs.1 hs'.1 hc.1 hc'.1 hv.1 hw.1 t t' _ _ h1 h1' (tail_stop (.inl rfl) _ _) (tail_stop (.inl rfl) _ _) e
    obtain ⟨g3, g4⟩ := elems_cut P vs ws ty hs.2 hs'.2 hc.2 hc'.2 hv.2 hw.2 ts ts' r r' h2 h2' g2
    exact ⟨⟨g1, g3⟩, g4⟩

theorem fields_cut (P : Print) : ∀ (vs ws : List Val) (ks : List (List Char)) (types : List Cast.Ty), ks.length = vs.length → ks.length = ws.length →
    SoundL vs → SoundL ws → CanonList vs → CanonList ws → FieldTy vs types → FieldTy ws types →
    ∀ (ts ts' : List (List Char)) (r r' : List Char), fieldTexts P ks vs = .ok ts → fieldTexts P ks ws = .ok ts' →
    ts.flatMap (',' :: ·) ++ '}' :: r = ts'.flatMap (',' :: ·) ++ '}' :: r' → EqualList vs ws ∧ r = r'
  | [], [], ks, _, hl, _, _, _, _, _, _, _, ts, ts', r, r', h, h', e => by
    cases ks with
    | nil =>
      simp only [fieldTexts, Res.ok.injEq] at h h'
      subst h h'
      exact ⟨trivial, by simpa using e⟩
    | cons k ks => simp at hl
  | [], w :: ws, ks, _, hl, hl', _, _, _, _, _, _, _, _, _, _, _, _, _ => by rw [hl] at hl'; simp at hl'
  | v :: vs, [], ks, _, hl, hl', _, _, _, _, _, _, _, _, _, _, _, _, _ => by rw [hl] at hl'; simp at hl'
  | v :: vs, w :: ws, [], _, hl, _, _, _, _, _, _, _, _, _, _, _, _, _, _ => by simp at hl
  | v :: vs, w :: ws, k :: ks, [], _, _, _, _, _, _, hv, _, _, _, _, _, _, _, _ => hv.elim
  | v :: vs, w :: ws, k :: ks, ty :: types, hl, hl', hs, hs', hc, hc', hv, hw, ts, ts', r, r', h, h', e => by
    obtain ⟨t, ts, h1, h2, rfl⟩ := fieldTexts_cons h
    obtain ⟨t', ts', h1', h2', rfl⟩ := fieldTexts_cons h'
    rw [List.flatMap_cons, List.flatMap_cons] at e
    simp only [List.cons_append, List.append_assoc, List.cons.injEq, true_and] at e
    have e := (quote_cut P e).2
    simp only [List.cons.injEq, true_and] at e
    obtain ⟨g1, g2⟩ := text_cut P v w ty hs.1 hs'.1 hc.1 hc'.1 hv.1 hw.1 t t' _ _ h1 h1' (tail_stop (.inr rfl) _ _) (tail_stop (.inr rfl) _ _) e
    obtain ⟨g3, g4⟩ := fields_cut P vs ws ks types (by simpa using hl) (by simpa using hl') hs.2 hs'.2 hc.2 hc'.2 hv.2 hw.2 ts ts' r r' h2 h2' g2
    exact ⟨⟨g1, g3⟩, g4⟩

end

mutual

theorem text_equal (P : Print) : ∀ v w : Val, Equal v w → textOf P v = textOf P w
  | .null, w, h => by cases w <;> simp_all [Equal]
  | .int i, w, h => by cases w <;> simp_all [Equal]
  | .bool b, w, h => by cases w <;> simp_all [Equal]
  | .str s, w, h => by cases w <;> simp_all [Equal]
  | .bytes b, w, h => by cases w <;> simp_all [Equal]
  | .num r big, w, h => by cases w <;> simp_all [Equal]
  | .time k t, w, h => by
    cases w with
    | time k' t' =>
      cases k <;> cases k' <;> simp only [Equal, true_and, reduceCtorEq, false_and] at h
      · rw [h]
      · rw [h]
      · simp only [textOf, Val.isNull, Bool.false_eq_true, if_false, toJSON, Cast.toStr, Codec.timeText, Codec.clockText_tod h]
      · rw [h]
    | _ => cases k <;> simp [Equal] at h
  | .arr vs, w, h => by
    cases w with
    | arr ws => simp only [textOf, Val.isNull, Bool.false_eq_true, if_false, toJSON]; rw [elems_equal P vs ws h]
    | _ => simp [Equal] at h
  | .struct ks vs, w, h => by
    cases w with
    | struct ks' ws =>
      obtain ⟨rfl, h⟩ : _ ∧ _ := h
      simp only [textOf, Val.isNull, Bool.false_eq_true, if_false, toJSON]
      rw [fields_equal P vs ws ks h]
    | _ => simp [Equal] at h

theorem elems_equal (P : Print) : ∀ vs ws : List Val, EqualList vs ws → elemTexts P vs = elemTexts P ws
  | [], [], _ => rfl
  | [], _ :: _, h => h.elim
  | _ :: _, [], h => h.elim
  | v :: vs, w :: ws, h => by
    have := text_equal P v w h.1
    unfold textOf at this
    simp only [elemTexts, this, elems_equal P vs ws h.2]

theorem fields_equal (P : Print) : ∀ (vs ws : List Val) (ks : List (List Char)), EqualList vs ws → fieldTexts P ks vs = fieldTexts P ks ws
  | [], [], _, _ => rfl
  | [], _ :: _, _, h => h.elim
  | _ :: _, [], _, h => h.elim
  | v :: vs, w :: ws, [], _ => by simp only [fieldTexts]
  | v :: vs, w :: ws, k :: ks, h => by
    have := text_equal P v w h.1
    unfold textOf at this
    simp only [fieldTexts, this, fields_equal P vs ws ks h.2]

end

/-- **C192**: two values of one type have the same text exactly if they are the same value, at any depth: also with
characters and dates that make the text no JSON. -/
theorem C192 (P : Print) (ty : Cast.Ty) (v w : Val) (hs : Sound v) (hs' : Sound w) (hc : Canon v) (hc' : Canon w)
    (hv : HasTy v ty) (hw : HasTy w ty) (n : v.isNull = false) (n' : w.isNull = false) :
    toJsonString P v false = toJsonString P w false ↔ Equal v w := by
  obtain ⟨t, h1⟩ := text_total P v hs
  obtain ⟨t', h2⟩ := text_total P w hs'
  have e1 : toJsonString P v false = textOf P v := by unfold toJsonString textOf; rw [n]; rfl
  have e2 : toJsonString P w false = textOf P w := by unfold toJsonString textOf; rw [n']; rfl
  rw [e1, e2]
  constructor
  · intro h
    rw [h1, h2] at h
    cases h
    exact (text_cut P v w ty hs hs' hc hc' hv hw t t [] [] h1 h2 Stop.nil Stop.nil rfl).1
  · exact text_equal P v w

example : HasTy (.struct [['a']] [.arr [.int 1, .null]]) (.struct [['a']] [.arr .int]) := ⟨rfl, ⟨⟨trivial, trivial, trivial⟩, trivial⟩⟩
example : Canon (.arr [.time .date 0, .str ['\\']]) := ⟨⟨by decide +kernel, by decide +kernel, by decide +kernel⟩, trivial, trivial⟩

end Verif.ToJson
