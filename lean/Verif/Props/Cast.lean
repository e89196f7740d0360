import Verif.Lemmas.Cast
import Verif.Props.Codec

/-!
# CAST and SAFE_CAST: C94 to C103
-/

namespace Verif.Cast

open Go Verif.Val Codec

/-! ### C94: CAST to STRING and back -/

/-- The values of the types that have a text, as SQL documents them. -/
def Scalar : Ty → Val → Prop
  | .int, .int i => InI64 i
  | .bool, .bool _ => True
  | .str, .str _ => True
  | .num false, .num r false => ∃ n : Int, r = mkRat n (10 ^ 9)
  | .num true, .num r true => ∃ n : Int, r = mkRat n (10 ^ 38)
  | .time .date, .time .date t => tod t = 0 ∧ 1 ≤ yearOf (tDay t) ∧ yearOf (tDay t) ≤ 9999
  | .time .datetime, .time .datetime t => t % 1000 = 0 ∧ 1 ≤ yearOf (tDay t) ∧ yearOf (tDay t) ≤ 9999
  | .time .time, .time .time t => t % 1000 = 0
  | .time .timestamp, .time .timestamp t => 1 ≤ yearOf (tDay t) ∧ yearOf (tDay t) ≤ 9999
  | _, _ => False

/-- The same value; of TIME values the time of day counts. -/
def SameValue : Val → Val → Prop
  | .time .time t, w => ∃ t', w = .time .time t' ∧ tod t' = tod t
  | v, w => w = v

/-- C94: CAST to STRING succeeds and CAST of the text to the type of the value gives the value back, for INT64, BOOL,
STRING, NUMERIC, BIGNUMERIC, DATE, DATETIME, TIME and TIMESTAMP. -/
theorem C94 (other : List Char → Rat) (ty : Ty) (v : Val) (h : Scalar ty v) :
    ∃ s w, cast other ty .str false v = .ok (.str s) ∧ cast other .str ty false (.str s) = .ok w ∧ SameValue v w := by
  cases ty <;> cases v <;> try (exfalso; simp [Scalar] at h; done)
  case int.int i =>
    refine ⟨decInt i, .int i, rfl, ?_, rfl⟩
    simp [cast, castValue, toStr, toI64, strInt_decInt h]
  case bool.bool b => cases b <;> exact ⟨_, _, rfl, by rfl, rfl⟩
  case str.str s => exact ⟨s, _, rfl, rfl, rfl⟩
  case num.num big r big' =>
    have hb : big' = big ∧ ∃ n : Int, r = mkRat n (10 ^ places big) := by
      cases big <;> cases big' <;> first | exact ⟨rfl, h⟩ | exact h.elim
    obtain ⟨rfl, n, rfl⟩ := hb
    refine ⟨numText (mkRat n (10 ^ places big')) big', .num (mkRat n (10 ^ places big')) big', rfl, ?_, rfl⟩
    simp [cast, castValue, toStr, toRat, setString_numText]
  case time.time k k' t =>
    cases k <;> cases k' <;> try exact h.elim
    case date =>
      obtain ⟨h0, h1, h2⟩ := h
      refine ⟨dateText t, .time .date t, rfl, ?_, rfl⟩
      have := strTime_date t (by omega) h2
      rw [h0] at this
      simp [cast, castValue, toStr, toTime, this]
    case datetime =>
      obtain ⟨h0, h1, h2⟩ := h
      refine ⟨_, .time .datetime t, rfl, ?_, rfl⟩
      have := strTime_datetime t (by omega) h2
      rw [tod_us t h0] at this
      simp [cast, castValue, toStr, toTime, timeText, this]
    case time =>
      refine ⟨_, .time .time (tDate 0 1 1 0 0 0 0 + tod t), rfl, ?_, _, rfl, ?_⟩
      · have := strTime_time t
        rw [tod_us t h] at this
        simp [cast, castValue, toStr, toTime, timeText, this]
      · have hb : 0 ≤ tod t ∧ tod t < dayNs := by unfold tod dayNs; omega
        have : tDate 0 1 1 0 0 0 0 = daysOf 0 1 1 * dayNs := by unfold tDate; omega
        rw [this, tod_day _ _ hb]
    case timestamp =>
      obtain ⟨h1, h2⟩ := h
      refine ⟨_, .time .timestamp t, rfl, ?_, rfl⟩
      have := strTime_timestamp t (by omega) h2
      simp [cast, castValue, toStr, toTime, this]

/-- A negative NUMERIC with a fraction; a DATETIME with a fraction of a second. -/
example : toStr (.num (mkRat (-1500000001) (10 ^ 9)) false) = .ok "-1.500000001".toList := by decide_cbv
example : Scalar (.num false) (.num (mkRat (-1500000001) (10 ^ 9)) false) := ⟨_, rfl⟩
example : Scalar (.time .datetime) (.time .datetime 1500000000) := by unfold Scalar; decide

/-! ### C95: STRING and BYTES -/

/-- C95: BYTES that are the UTF-8 form of a text are cast to that text, and a text is cast to its UTF-8 form. -/
def C95_full : Prop := ∀ (other : List Char → Rat) (s : List Char),
  cast other .bytes .str false (.bytes (utf8 s)) = .ok (.str s) ∧ cast other .str .bytes false (.str s) = .ok (.bytes (utf8 s))

theorem base64_longer : ∀ b : List UInt8, b ≠ [] → b.length < (Base64.encode b).length := by
  intro b
  induction b using Base64.encode.induct with
  | case1 a b c rest ih =>
    intro _
    simp only [Base64.encode, List.length_cons]
    have := base64_length rest
    omega
  | case2 => simp [Base64.encode]
  | case3 => simp [Base64.encode]
  | case4 => simp

theorem utf8_ne_nil {s : List Char} (h : s ≠ []) : utf8 s ≠ [] := by
  cases s with
  | nil => exact absurd rfl h
  | cons c s =>
    intro e
    have h1 := utf8_length (c :: s)
    rw [e] at h1
    simp at h1

/-- C95, partial: a text is cast to its UTF-8 form; BYTES are cast to their base64 form, which is the text they encode
for the empty text only.  Missing: BYTES to STRING as UTF-8. -/
theorem C95_partial (other : List Char → Rat) :
    (∀ s, cast other .str .bytes false (.str s) = .ok (.bytes (utf8 s))) ∧
    (∀ b, cast other .bytes .str false (.bytes b) = .ok (.str (Base64.encode b))) ∧
    (∀ s, cast other .bytes .str false (.bytes (utf8 s)) = .ok (.str s) ↔ s = []) := by
  refine ⟨fun s => rfl, fun b => rfl, fun s => ⟨fun h => ?_, by rintro rfl; rfl⟩⟩
  have e : Base64.encode (utf8 s) = s := by
    have h' : Res.ok (Val.str (Base64.encode (utf8 s))) = .ok (.str s) := h
    simpa using h'
  refine Classical.byContradiction fun h0 => ?_
  have h1 := base64_longer _ (utf8_ne_nil h0)
  have h2 := utf8_length s
  rw [e] at h1
  omega

theorem C95_full_false : ¬ C95_full := fun h => by
  have := ((C95_partial fun _ => 0).2.2 ['a']).1 (h (fun _ => 0) ['a']).1
  cases this

/-! ### C96: CAST of text to INT64 -/

/-- The value of digits in a base. -/
def value (base : Nat) (ds : List Char) : Nat :=
  ds.foldl (fun a c => a * base + (if c.toNat ≤ 57 then c.toNat - 48 else if c.toNat ≤ 70 then c.toNat - 55 else c.toNat - 87)) 0

/-- A decimal digit, a hexadecimal digit. -/
def Digit (c : Char) : Prop := 48 ≤ c.toNat ∧ c.toNat ≤ 57
@[inherit_doc Digit] def HexDigit (c : Char) : Prop :=
  (48 ≤ c.toNat ∧ c.toNat ≤ 57) ∨ (65 ≤ c.toNat ∧ c.toNat ≤ 70) ∨ (97 ≤ c.toNat ∧ c.toNat ≤ 102)

/-- A sign, possibly none, and its factor. -/
def Sign (sg : List Char) (σ : Int) : Prop := (sg = [] ∧ σ = 1) ∨ (sg = ['+'] ∧ σ = 1) ∨ (sg = ['-'] ∧ σ = -1)

/-- A text that denotes an integer: decimal digits, or hexadecimal digits after 0x, with a sign or without. -/
def IntText (s : List Char) (i : Int) : Prop :=
  ∃ sg σ, Sign sg σ ∧
    ((∃ ds, ds ≠ [] ∧ (∀ c ∈ ds, Digit c) ∧ s = sg ++ ds ∧ i = σ * value 10 ds) ∨
     (∃ x ds, (x = 'x' ∨ x = 'X') ∧ ds ≠ [] ∧ (∀ c ∈ ds, HexDigit c) ∧ s = sg ++ '0' :: x :: ds ∧ i = σ * value 16 ds))

/-- C96: CAST of a text to INT64 is the integer the text denotes, and an error for every text that denotes none, or one
out of range. -/
def C96_full : Prop := ∀ (other : List Char → Rat) (s : List Char) (i : Int),
  cast other .str .int false (.str s) = .ok (.int i) ↔ IntText s i ∧ InI64 i

theorem cast_str_int (other : List Char → Rat) (s : List Char) (i : Int) :
    cast other .str .int false (.str s) = .ok (.int i) ↔ strInt s = .ok i := by
  simp only [cast, castValue, toStr, toI64, Res.bind'_ok]
  cases strInt s <;> simp [Res.bind]

theorem digitsVal_iff (s : List Char) : ∀ (a n : Nat), digitsVal a s = some n ↔
    (∀ c ∈ s, Digit c) ∧ n = s.foldl (fun a c => a * 10 + (if c.toNat ≤ 57 then c.toNat - 48 else if c.toNat ≤ 70 then c.toNat - 55 else c.toNat - 87)) a := by
  induction s with
  | nil => intro a n; simp [digitsVal, eq_comm]
  | cons c s ih =>
    intro a n
    simp only [digitsVal, digitVal, List.foldl_cons, List.mem_cons, forall_eq_or_imp]
    by_cases hd : 48 ≤ c.toNat ∧ c.toNat ≤ 57
    · have hD : Digit c := hd
      rw [if_pos hd, if_pos hd.2]
      simp only [ih, hD, true_and]
    · rw [if_neg hd]
      simp [Digit, hd]

theorem hexDigits_some {c : Char} {d : Nat} (h : hexDigitVal c = some d) (a : Nat) (s : List Char) : hexDigits a (c :: s) = hexDigits (a * 16 + d) s := by
  conv => lhs; unfold hexDigits
  simp only [h]

theorem hexDigits_none {c : Char} (h : hexDigitVal c = none) (hc : c ≠ '_') (a : Nat) (s : List Char) : hexDigits a (c :: s) = none := by
  unfold hexDigits
  simp only [h, if_neg hc]

theorem hexDigits_iff : ∀ (s : List Char), '_' ∉ s → ∀ (a n : Nat), hexDigits a s = some n ↔
    (∀ c ∈ s, HexDigit c) ∧ n = s.foldl (fun a c => a * 16 + (if c.toNat ≤ 57 then c.toNat - 48 else if c.toNat ≤ 70 then c.toNat - 55 else c.toNat - 87)) a
  | [], _, a, n => by simp [hexDigits, eq_comm]
  | c :: s, hu, a, n => by
    have ih := hexDigits_iff s (fun h => hu (by simp [h]))
    simp only [List.foldl_cons, List.mem_cons, forall_eq_or_imp]
    by_cases h1 : 48 ≤ c.toNat ∧ c.toNat ≤ 57
    · have e : hexDigitVal c = some (c.toNat - 48) := by simp [hexDigitVal, h1]
      rw [hexDigits_some e, ih, if_pos h1.2]
      simp [HexDigit, h1]
    · by_cases h2 : 97 ≤ c.toNat ∧ c.toNat ≤ 102
      · have e : hexDigitVal c = some (c.toNat - 87) := by simp [hexDigitVal, h1, h2]
        rw [hexDigits_some e, ih]
        rw [if_neg (by omega), if_neg (by omega)]
        simp [HexDigit, h1, h2]
      · by_cases h3 : 65 ≤ c.toNat ∧ c.toNat ≤ 70
        · have e : hexDigitVal c = some (c.toNat - 55) := by simp [hexDigitVal, h1, h2, h3]
          rw [hexDigits_some e, ih]
          rw [if_neg (by omega), if_pos (by omega)]
          simp [HexDigit, h1, h2, h3]
        · have e : hexDigitVal c = none := by simp [hexDigitVal, h1, h2, h3]
          have hc : c ≠ '_' := fun h => hu (by simp [h])
          rw [hexDigits_none e hc]
          simp [HexDigit, h1, h2, h3]

/-- The sign is read off a text whose rest does not begin with one. -/
theorem sign_split (P : List Char → Option Nat) (Q : List Char → Nat → Prop) (c : Char) (s : List Char)
    (hP : ∀ n, P s = some n ↔ Q s n) (hP' : ∀ n, P (c :: s) = some n ↔ Q (c :: s) n)
    (hQ : ∀ c s n, Q (c :: s) n → c ≠ '-' ∧ c ≠ '+') (i : Int) :
    (if c = '-' then (P s).map fun (n : Nat) => -(n : Int) else if c = '+' then (P s).map fun (n : Nat) => (n : Int) else (P (c :: s)).map fun (n : Nat) => (n : Int)) = some i ↔
      ∃ sg σ, Sign sg σ ∧ ∃ ds n, Q ds n ∧ c :: s = sg ++ ds ∧ i = σ * (n : Int) := by
  constructor
  · intro h
    split at h
    · rename_i hc
      obtain ⟨n, hn, rfl⟩ := Option.map_eq_some_iff.1 h
      exact ⟨['-'], -1, .inr (.inr ⟨rfl, rfl⟩), s, n, (hP n).1 hn, by simp [hc], by omega⟩
    · split at h
      · rename_i hc
        obtain ⟨n, hn, rfl⟩ := Option.map_eq_some_iff.1 h
        exact ⟨['+'], 1, .inr (.inl ⟨rfl, rfl⟩), s, n, (hP n).1 hn, by simp [hc], by omega⟩
      · obtain ⟨n, hn, rfl⟩ := Option.map_eq_some_iff.1 h
        exact ⟨[], 1, .inl ⟨rfl, rfl⟩, c :: s, n, (hP' n).1 hn, rfl, by omega⟩
  · rintro ⟨sg, σ, (⟨rfl, rfl⟩ | ⟨rfl, rfl⟩ | ⟨rfl, rfl⟩), ds, n, hq, e, rfl⟩
    · simp only [List.nil_append] at e
      subst e
      obtain ⟨h1, h2⟩ := hQ c s n hq
      rw [if_neg h1, if_neg h2, (hP' n).2 hq]
      simp
    · simp only [List.cons_append, List.nil_append, List.cons.injEq] at e
      obtain ⟨rfl, rfl⟩ := e
      rw [if_neg (by decide), if_pos rfl, (hP n).2 hq]
      simp
    · simp only [List.cons_append, List.nil_append, List.cons.injEq] at e
      obtain ⟨rfl, rfl⟩ := e
      rw [if_pos rfl, (hP n).2 hq]
      simp

/-- Digits in base 10 and their value; hexadecimal digits after 0x and their value. -/
def DecDigits (ds : List Char) (n : Nat) : Prop := ds ≠ [] ∧ (∀ c ∈ ds, Digit c) ∧ n = value 10 ds
@[inherit_doc DecDigits] def HexNumber (ds : List Char) (n : Nat) : Prop :=
  ∃ x hs, (x = 'x' ∨ x = 'X') ∧ hs ≠ [] ∧ (∀ c ∈ hs, HexDigit c) ∧ ds = '0' :: x :: hs ∧ n = value 16 hs

theorem parseNat_iff (s : List Char) (n : Nat) : parseNat s = some n ↔ DecDigits s n := by
  unfold parseNat DecDigits value
  split
  · rename_i h; simp [h]
  · rename_i h
    rw [digitsVal_iff]
    simp [h]

theorem parseHex_iff (s : List Char) (hu : '_' ∉ s) (n : Nat) : parseHex s = some n ↔ HexNumber s n := by
  unfold HexNumber
  constructor
  · intro h
    unfold parseHex at h
    split at h
    · rename_i a b c t
      split at h
      · rename_i hab
        obtain ⟨rfl, hb⟩ := hab
        have := (hexDigits_iff (c :: t) (fun h => hu (List.mem_cons_of_mem _ (List.mem_cons_of_mem _ h))) 0 n).1 h
        exact ⟨b, c :: t, hb, by simp, this.1, rfl, this.2⟩
      · cases h
    · cases h
  · rintro ⟨x, hs, hx, h0, hd, rfl, rfl⟩
    cases hs with
    | nil => exact absurd rfl h0
    | cons c t =>
      unfold parseHex
      simp only [hx, and_self, if_true]
      exact (hexDigits_iff (c :: t) (fun h => hu (List.mem_cons_of_mem _ (List.mem_cons_of_mem _ h))) 0 _).2 ⟨hd, rfl⟩

theorem parseSigned_iff (s : List Char) (i : Int) : parseSigned s = some i ↔
    ∃ sg σ, Sign sg σ ∧ ∃ ds n, DecDigits ds n ∧ s = sg ++ ds ∧ i = σ * (n : Int) := by
  cases s with
  | nil =>
    simp only [parseSigned]
    constructor
    · intro h; cases h
    · rintro ⟨sg, σ, _, ds, n, ⟨h0, _⟩, e, _⟩
      have := List.append_eq_nil_iff.1 e.symm
      exact absurd this.2 h0
  | cons c s =>
    exact sign_split parseNat DecDigits c s (parseNat_iff s) (parseNat_iff (c :: s)) (fun c s n h => by
      have := h.2.1 c (by simp)
      constructor <;> rintro rfl <;> revert this <;> unfold Digit <;> decide) i

theorem parseInt0_iff (s : List Char) (hu : '_' ∉ s) (i : Int) : parseInt0 s = some i ↔
    InI64 i ∧ ∃ sg σ, Sign sg σ ∧ ∃ ds n, HexNumber ds n ∧ s = sg ++ ds ∧ i = σ * (n : Int) := by
  cases s with
  | nil =>
    simp only [parseInt0]
    constructor
    · intro h; cases h
    · rintro ⟨_, sg, σ, _, ds, n, ⟨x, hs, _, _, _, rfl, _⟩, e, _⟩
      have := List.append_eq_nil_iff.1 e.symm
      cases this.2
  | cons c s =>
    have := sign_split parseHex HexNumber c s (parseHex_iff s fun h => hu (by simp [h])) (parseHex_iff (c :: s) hu) (fun c s n h => by
      obtain ⟨x, hs, _, _, _, e, _⟩ := h
      cases e
      decide)
    simp only [parseInt0]
    generalize (if c = '-' then (parseHex s).map fun (n : Nat) => -(n : Int) else if c = '+' then (parseHex s).map fun (n : Nat) => (n : Int) else (parseHex (c :: s)).map fun (n : Nat) => (n : Int)) = r at *
    cases r with
    | none =>
      constructor
      · intro h; cases h
      · rintro ⟨_, h⟩; exact absurd ((this i).2 h) (by simp)
    | some j =>
      rw [← this i]
      simp only
      split <;> rename_i h
      · simp only [Option.some.injEq]
        constructor
        · rintro rfl; exact ⟨h, rfl⟩
        · exact fun h => h.2
      · simp only [Option.some.injEq, reduceCtorEq, false_iff]
        rintro ⟨h1, rfl⟩
        exact h h1

theorem has0x_mem (s t : List Char) (x : Char) (hx : x = 'x' ∨ x = 'X') : has0x (s ++ '0' :: x :: t) = true := by
  induction s with
  | nil => simp [has0x, hx]
  | cons c s ih => simp only [List.cons_append, has0x, ih, Bool.or_true]

theorem has0x_x : ∀ s : List Char, has0x s = true → 'x' ∈ s ∨ 'X' ∈ s
  | [], h => by cases h
  | c :: s, h => by
    simp only [has0x, Bool.or_eq_true, Bool.and_eq_true] at h
    rcases h with ⟨_, h⟩ | h
    · cases s with
      | nil => cases h
      | cons d s =>
        rcases of_decide_eq_true h with rfl | rfl <;> simp
    · rcases has0x_x s h with h | h <;> simp [h]

/-- C96, partial: right for every text that is not empty and has no underscore.  Missing: the empty text, which is 0, and
hexadecimal texts with underscores, which are accepted. -/
theorem C96_partial (other : List Char → Rat) (s : List Char) (h0 : s ≠ []) (hu : '_' ∉ s) (i : Int) :
    cast other .str .int false (.str s) = .ok (.int i) ↔ IntText s i ∧ InI64 i := by
  rw [cast_str_int]
  unfold strInt
  rw [if_neg h0]
  have hr : ((match (if has0x s then parseInt0 s else parseInt64 s) with | some i => Res.ok i | none => .err) = .ok i) ↔
      (if has0x s then parseInt0 s else parseInt64 s) = some i := by
    generalize (if has0x s then parseInt0 s else parseInt64 s) = o
    cases o <;> simp
  refine Iff.trans hr ?_
  by_cases hx : has0x s = true
  · rw [if_pos hx, parseInt0_iff s hu]
    constructor
    · rintro ⟨hi, sg, σ, hs, ds, n, ⟨x, hs', h1, h2, h3, rfl, rfl⟩, e, rfl⟩
      exact ⟨⟨sg, σ, hs, .inr ⟨x, hs', h1, h2, h3, e, rfl⟩⟩, hi⟩
    · rintro ⟨⟨sg, σ, hs, (⟨ds, hd0, hd, rfl, rfl⟩ | ⟨x, ds, h1, h2, h3, e, rfl⟩)⟩, hi⟩
      · exfalso
        have hm := has0x_x _ hx
        have : ∀ x, (x = 'x' ∨ x = 'X') → x ∉ sg ++ ds := by
          intro x hx h
          rcases List.mem_append.1 h with h | h
          · rcases hs with ⟨rfl, _⟩ | ⟨rfl, _⟩ | ⟨rfl, _⟩
            · cases h
            · simp only [List.mem_singleton] at h; subst h; revert hx; decide
            · simp only [List.mem_singleton] at h; subst h; revert hx; decide
          · have := hd x h
            rcases hx with rfl | rfl <;> revert this <;> unfold Digit <;> decide
        rcases hm with h | h
        · exact this _ (.inl rfl) h
        · exact this _ (.inr rfl) h
      · exact ⟨hi, sg, σ, hs, _, _, ⟨x, ds, h1, h2, h3, rfl, rfl⟩, e, rfl⟩
  · rw [if_neg hx]
    have hp : parseInt64 s = some i ↔ parseSigned s = some i ∧ InI64 i := by
      unfold parseInt64
      cases parseSigned s with
      | none => simp
      | some j =>
        simp only
        split <;> rename_i h
        · simp only [Option.some.injEq]
          exact ⟨by rintro rfl; exact ⟨rfl, h⟩, fun h => h.1⟩
        · simp only [Option.some.injEq, reduceCtorEq, false_iff]
          rintro ⟨rfl, h1⟩
          exact h h1
    rw [hp, parseSigned_iff]
    constructor
    · rintro ⟨⟨sg, σ, hs, ds, n, ⟨h1, h2, rfl⟩, e, rfl⟩, hi⟩
      exact ⟨⟨sg, σ, hs, .inl ⟨ds, h1, h2, e, rfl⟩⟩, hi⟩
    · rintro ⟨⟨sg, σ, hs, (⟨ds, hd0, hd, e, rfl⟩ | ⟨x, ds, h1, h2, h3, rfl, rfl⟩)⟩, hi⟩
      · exact ⟨⟨sg, σ, hs, ds, _, ⟨hd0, hd, rfl⟩, e, rfl⟩, hi⟩
      · exact absurd (has0x_mem sg ds x h1) hx

/-- Hexadecimal digits with underscores, each of which has a digit after it. -/
def Grouped (hs : List Char) : Prop :=
  hs ≠ [] ∧ (∀ c ∈ hs, HexDigit c ∨ c = '_') ∧ ∀ a b, hs = a ++ '_' :: b → ∃ d t, b = d :: t ∧ HexDigit d

theorem hexDigitVal_iff (c : Char) : (∃ d, hexDigitVal c = some d) ↔ HexDigit c := by
  unfold hexDigitVal HexDigit
  constructor
  · rintro ⟨d, h⟩
    simp only at h
    split at h
    · omega
    · split at h
      · omega
      · split at h
        · omega
        · cases h
  · intro h
    simp only
    split
    · exact ⟨_, rfl⟩
    · split
      · exact ⟨_, rfl⟩
      · split
        · exact ⟨_, rfl⟩
        · omega

theorem hexDigit_value {c : Char} {d : Nat} (h : hexDigitVal c = some d) :
    d = if c.toNat ≤ 57 then c.toNat - 48 else if c.toNat ≤ 70 then c.toNat - 55 else c.toNat - 87 := by
  unfold hexDigitVal at h
  simp only at h
  split at h
  · cases h; rw [if_pos (by omega)]
  · split at h
    · cases h; rw [if_neg (by omega), if_neg (by omega)]
    · split at h
      · cases h; rw [if_neg (by omega), if_pos (by omega)]
      · cases h

theorem hexDigit_not_underscore {c : Char} (h : HexDigit c) : c ≠ '_' := by
  rintro rfl
  revert h
  unfold HexDigit
  decide

/-- The rest of the digits after a first character. -/
def Tail (hs : List Char) : Prop := (∀ c ∈ hs, HexDigit c ∨ c = '_') ∧ ∀ a b, hs = a ++ '_' :: b → ∃ d t, b = d :: t ∧ HexDigit d

theorem tail_digit {c : Char} (hc : HexDigit c) (s : List Char) : Tail (c :: s) ↔ Tail s := by
  constructor
  · intro h
    exact ⟨fun x hx => h.1 x (by simp [hx]), fun a b e => h.2 (c :: a) b (by rw [e]; rfl)⟩
  · intro h
    refine ⟨?_, ?_⟩
    · intro x hx
      rcases List.mem_cons.1 hx with rfl | hx
      · exact .inl hc
      · exact h.1 x hx
    · intro a b e
      cases a with
      | nil => exact absurd (List.cons.inj e).1 (hexDigit_not_underscore hc)
      | cons y a => exact h.2 a b (List.cons.inj e).2

theorem tail_underscore (s : List Char) : Tail ('_' :: s) ↔ ∃ d t, s = d :: t ∧ HexDigit d ∧ Tail t := by
  constructor
  · intro h
    obtain ⟨d, t, rfl, hd⟩ := h.2 [] s rfl
    exact ⟨d, t, rfl, hd, (tail_digit hd t).1 ⟨fun x hx => h.1 x (List.mem_cons_of_mem _ hx), fun a b e => h.2 ('_' :: a) b (by rw [e]; rfl)⟩⟩
  · rintro ⟨d, t, rfl, hd, ht⟩
    have h' := (tail_digit hd t).2 ht
    refine ⟨?_, ?_⟩
    · intro x hx
      rcases List.mem_cons.1 hx with rfl | hx
      · exact .inr rfl
      · exact h'.1 x hx
    · intro a b e
      cases a with
      | nil => exact ⟨d, t, (List.cons.inj e).2.symm, hd⟩
      | cons y a => exact h'.2 a b (List.cons.inj e).2

theorem hexDigits_tail : ∀ (k : Nat) (s : List Char), s.length ≤ k → ∀ (a n : Nat), hexDigits a s = some n ↔
    Tail s ∧ n = (s.filter fun c => decide (c ≠ '_')).foldl (fun a c => a * 16 + (if c.toNat ≤ 57 then c.toNat - 48 else if c.toNat ≤ 70 then c.toNat - 55 else c.toNat - 87)) a := by
  intro k
  induction k with
  | zero =>
    intro s hs a n
    have : s = [] := List.eq_nil_of_length_eq_zero (by omega)
    subst this
    simp [hexDigits, Tail, eq_comm]
  | succ k ih =>
    intro s hs a n
    cases s with
    | nil => simp [hexDigits, Tail, eq_comm]
    | cons c s =>
      simp only [List.length_cons] at hs
      cases hv : hexDigitVal c with
      | some d =>
        have hd := (hexDigitVal_iff c).1 ⟨d, hv⟩
        rw [hexDigits_some hv, ih s (by omega), tail_digit hd, List.filter_cons, if_pos (by simpa using hexDigit_not_underscore hd), List.foldl_cons,
          ← hexDigit_value hv]
      | none =>
        by_cases hc : c = '_'
        · subst hc
          rw [List.filter_cons, if_neg (by simp), tail_underscore]
          cases s with
          | nil =>
            simp only [hexDigits, hv, if_true]
            constructor
            · intro h; cases h
            · rintro ⟨⟨d, t, h, _⟩, _⟩; cases h
          | cons e t =>
            simp only [List.length_cons] at hs
            cases he : hexDigitVal e with
            | none =>
              rw [hexDigits]
              simp only [hv, he, if_true]
              constructor
              · intro h; cases h
              · rintro ⟨⟨d, t', h, hd, _⟩, _⟩
                cases h
                obtain ⟨d, hd⟩ := (hexDigitVal_iff e).2 hd
                rw [he] at hd
                cases hd
            | some d =>
              have hd := (hexDigitVal_iff e).1 ⟨d, he⟩
              have e1 : hexDigits a ('_' :: e :: t) = hexDigits (a * 16 + d) t := by
                rw [hexDigits]
                simp only [hv, he, if_true]
              rw [e1, ih t (by omega), List.filter_cons, if_pos (by simpa using hexDigit_not_underscore hd), List.foldl_cons, ← hexDigit_value he]
              constructor
              · rintro ⟨h1, h2⟩; exact ⟨⟨e, t, rfl, hd, h1⟩, h2⟩
              · rintro ⟨⟨d', t', h, _, h1⟩, h2⟩; cases h; exact ⟨h1, h2⟩
        · rw [hexDigits_none hv hc]
          constructor
          · intro h; cases h
          · rintro ⟨h, _⟩
            rcases h.1 c (by simp) with h | h
            · obtain ⟨d, hd⟩ := (hexDigitVal_iff c).2 h
              rw [hv] at hd
              cases hd
            · exact absurd h hc

/-- A hexadecimal number whose digits are grouped by underscores, and its value. -/
def HexGroups (ds : List Char) (n : Nat) : Prop :=
  ∃ x hs, (x = 'x' ∨ x = 'X') ∧ Grouped hs ∧ ds = '0' :: x :: hs ∧ n = value 16 (hs.filter fun c => decide (c ≠ '_'))

theorem parseHex_groups (s : List Char) (n : Nat) : parseHex s = some n ↔ HexGroups s n := by
  unfold HexGroups
  constructor
  · intro h
    unfold parseHex at h
    split at h
    · rename_i a b c t
      split at h
      · rename_i hab
        obtain ⟨rfl, hb⟩ := hab
        have := (hexDigits_tail _ (c :: t) (Nat.le_refl _) 0 n).1 h
        exact ⟨b, c :: t, hb, ⟨by simp, this.1⟩, rfl, this.2⟩
      · cases h
    · cases h
  · rintro ⟨x, hs, hx, h0, rfl, rfl⟩
    cases hs with
    | nil => exact absurd rfl h0.1
    | cons c t =>
      unfold parseHex
      simp only [hx, and_self, if_true]
      exact (hexDigits_tail _ (c :: t) (Nat.le_refl _) 0 _).2 ⟨h0.2, rfl⟩

theorem parseInt0_groups (s : List Char) (i : Int) : parseInt0 s = some i ↔
    InI64 i ∧ ∃ sg σ, Sign sg σ ∧ ∃ ds n, HexGroups ds n ∧ s = sg ++ ds ∧ i = σ * (n : Int) := by
  cases s with
  | nil =>
    simp only [parseInt0]
    constructor
    · intro h; cases h
    · rintro ⟨_, sg, σ, _, ds, n, ⟨x, hs, _, _, rfl, _⟩, e, _⟩
      have := List.append_eq_nil_iff.1 e.symm
      cases this.2
  | cons c s =>
    have := sign_split parseHex HexGroups c s (parseHex_groups s) (parseHex_groups (c :: s)) (fun c s n h => by
      obtain ⟨x, hs, _, _, e, _⟩ := h
      cases e
      decide)
    simp only [parseInt0]
    generalize (if c = '-' then (parseHex s).map fun (n : Nat) => -(n : Int) else if c = '+' then (parseHex s).map fun (n : Nat) => (n : Int) else (parseHex (c :: s)).map fun (n : Nat) => (n : Int)) = r at *
    cases r with
    | none =>
      constructor
      · intro h; cases h
      · rintro ⟨_, h⟩; exact absurd ((this i).2 h) (by simp)
    | some j =>
      rw [← this i]
      simp only
      split <;> rename_i h
      · simp only [Option.some.injEq]
        constructor
        · rintro rfl; exact ⟨h, rfl⟩
        · exact fun h => h.2
      · simp only [Option.some.injEq, reduceCtorEq, false_iff]
        rintro ⟨h1, rfl⟩
        exact h h1

/-- **C96** for the texts with underscores: exactly the hexadecimal ones in which each underscore has a digit after it are accepted, for
the number without the underscores. -/
theorem C96_underscore (other : List Char → Rat) (s : List Char) (hu : '_' ∈ s) (i : Int) :
    cast other .str .int false (.str s) = .ok (.int i) ↔
      InI64 i ∧ ∃ sg σ x hs, Sign sg σ ∧ (x = 'x' ∨ x = 'X') ∧ Grouped hs ∧ s = sg ++ '0' :: x :: hs ∧
        i = σ * value 16 (hs.filter fun c => decide (c ≠ '_')) := by
  have h0 : s ≠ [] := by rintro rfl; cases hu
  rw [cast_str_int]
  unfold strInt
  rw [if_neg h0]
  have hr : ((match (if has0x s then parseInt0 s else parseInt64 s) with | some i => Res.ok i | none => .err) = .ok i) ↔
      (if has0x s then parseInt0 s else parseInt64 s) = some i := by
    generalize (if has0x s then parseInt0 s else parseInt64 s) = o
    cases o <;> simp
  refine Iff.trans hr ?_
  by_cases hx : has0x s = true
  · rw [if_pos hx, parseInt0_groups s]
    constructor
    · rintro ⟨hi, sg, σ, hs, ds, n, ⟨x, hs', h1, h2, rfl, rfl⟩, e, rfl⟩
      exact ⟨hi, sg, σ, x, hs', hs, h1, h2, e, rfl⟩
    · rintro ⟨hi, sg, σ, x, hs', hs, h1, h2, e, rfl⟩
      exact ⟨hi, sg, σ, hs, _, _, ⟨x, hs', h1, h2, rfl, rfl⟩, e, rfl⟩
  · rw [if_neg hx]
    constructor
    · intro h
      exfalso
      have hp : parseSigned s = some i := by
        unfold parseInt64 at h
        cases hs : parseSigned s with
        | none => rw [hs] at h; cases h
        | some j =>
          rw [hs] at h
          simp only at h
          split at h
          · exact h
          · cases h
      obtain ⟨sg, σ, hs, ds, n, ⟨h1, h2, _⟩, rfl, _⟩ := (parseSigned_iff s i).1 hp
      rcases List.mem_append.1 hu with h | h
      · rcases hs with ⟨rfl, _⟩ | ⟨rfl, _⟩ | ⟨rfl, _⟩ <;> revert h <;> decide
      · have := h2 _ h
        revert this
        unfold Digit
        decide
    · rintro ⟨_, sg, σ, x, hs', hs, h1, _, rfl, _⟩
      exact absurd (has0x_mem sg hs' x h1) hx

/-- C96, exactly: right unless the text is empty or a hexadecimal number in range with underscores. -/
theorem C96_iff (other : List Char → Rat) (s : List Char) :
    (∀ i, cast other .str .int false (.str s) = .ok (.int i) ↔ IntText s i ∧ InI64 i) ↔
      s ≠ [] ∧ ('_' ∈ s → ∀ sg σ x hs, Sign sg σ → (x = 'x' ∨ x = 'X') → Grouped hs → s = sg ++ '0' :: x :: hs →
        ¬ InI64 (σ * value 16 (hs.filter fun c => decide (c ≠ '_')))) := by
  have hnot : '_' ∈ s → ∀ i, ¬ IntText s i := by
    rintro hu i ⟨sg, σ, hs, (⟨ds, _, hd, rfl, _⟩ | ⟨x, ds, hx, _, hd, rfl, _⟩)⟩
    · rcases List.mem_append.1 hu with h | h
      · rcases hs with ⟨rfl, _⟩ | ⟨rfl, _⟩ | ⟨rfl, _⟩ <;> revert h <;> decide
      · have := hd _ h
        revert this
        unfold Digit
        decide
    · rcases List.mem_append.1 hu with h | h
      · rcases hs with ⟨rfl, _⟩ | ⟨rfl, _⟩ | ⟨rfl, _⟩ <;> revert h <;> decide
      · rcases List.mem_cons.1 h with h | h
        · cases h
        · rcases List.mem_cons.1 h with h | h
          · rcases hx with rfl | rfl <;> cases h
          · exact hexDigit_not_underscore (hd _ h) rfl
  constructor
  · intro h
    refine ⟨?_, ?_⟩
    · rintro rfl
      obtain ⟨⟨sg, σ, _, h | h⟩, _⟩ := (h 0).1 rfl
      · obtain ⟨ds, h0, _, e, _⟩ := h
        exact h0 (List.append_eq_nil_iff.1 e.symm).2
      · obtain ⟨x, ds, _, _, _, e, _⟩ := h
        cases (List.append_eq_nil_iff.1 e.symm).2
    · intro hu sg σ x hs h1 h2 h3 h4 hi
      exact hnot hu _ ((h _).1 ((C96_underscore other s hu _).2 ⟨hi, sg, σ, x, hs, h1, h2, h3, h4, rfl⟩)).1
  · rintro ⟨h0, h⟩ i
    by_cases hu : '_' ∈ s
    · rw [C96_underscore other s hu i]
      constructor
      · rintro ⟨hi, sg, σ, x, hs, h1, h2, h3, h4, rfl⟩
        exact absurd hi (h hu sg σ x hs h1 h2 h3 h4)
      · rintro ⟨h1, _⟩
        exact absurd h1 (hnot hu i)
    · exact C96_partial other s h0 hu i

example : Grouped ['_', '1', '_', '0'] := by
  refine ⟨by decide, by unfold HexDigit; decide, ?_⟩
  intro a b e
  match a, e with
  | [], e => cases e; exact ⟨_, _, rfl, by unfold HexDigit; decide⟩
  | [_, _], e => cases e; exact ⟨_, _, rfl, by unfold HexDigit; decide⟩
  | [_], e => cases e
  | [_, _, _], e => cases e
  | _ :: _ :: _ :: _ :: a, e =>
    have := congrArg List.length e
    simp at this

/-- CAST('' AS INT64) is 0 -/
theorem C96_full_false : ¬ C96_full := by
  intro h
  obtain ⟨⟨sg, σ, _, h | h⟩, _⟩ := (h (fun _ => 0) [] 0).1 rfl
  · obtain ⟨ds, h0, _, e, _⟩ := h
    exact h0 (List.append_eq_nil_iff.1 e.symm).2
  · obtain ⟨x, ds, _, _, _, e, _⟩ := h
    cases (List.append_eq_nil_iff.1 e.symm).2

example : IntText "-0x1F".toList (-31) := ⟨['-'], -1, .inr (.inr ⟨rfl, rfl⟩), .inr ⟨'x', ['1', 'F'], .inl rfl, by decide, by unfold HexDigit; decide, rfl, rfl⟩⟩
example : IntText "0042".toList 42 := ⟨[], 1, .inl ⟨rfl, rfl⟩, .inl ⟨"0042".toList, by decide, by unfold Digit; decide, rfl, rfl⟩⟩
/-- CAST('0x1_0' AS INT64) is 16. -/
example : strInt "0x1_0".toList = .ok 16 := by decide_cbv

/-! ### C97: NUMERIC to INT64 -/

/-- `n` units of `10^-p` are nearest to `r`, a tie going away from zero. -/
def Rounded (p : Nat) (r : Rat) (n : Int) : Prop :=
  2 * (r.num * 10 ^ p - n * r.den).natAbs ≤ r.den ∧
  (2 * (r.num * 10 ^ p - n * r.den).natAbs = r.den → (r.num * 10 ^ p).natAbs ≤ (n * r.den).natAbs)

/-- C97: CAST of a NUMERIC to INT64 rounds to the nearest integer, halves away from zero, and fails when that is out of
range. -/
def C97_full : Prop := ∀ (other : List Char → Rat) (r : Rat) (big : Bool) (n : Int), Rounded 0 r n →
  cast other (.num big) .int false (.num r big) = if InI64 n then .ok (.int n) else .err

theorem cast_num_int (other : List Char → Rat) (r : Rat) (big : Bool) :
    cast other (.num big) .int false (.num r big) = .ok (.int (wrap64 r.num)) := rfl

/-- CAST(1.5 AS INT64) is 3. -/
theorem C97_full_false : ¬ C97_full := by
  intro h
  have := h (fun _ => 0) (mkRat 3 2) false 2 (by unfold Rounded; decide_cbv)
  rw [cast_num_int, if_pos (by decide)] at this
  simp only [Res.ok.injEq, Val.int.injEq] at this
  exact absurd this (by decide_cbv)

/-- C97, partial: a NUMERIC whose numerator is an INT64 is cast to the nearest integer exactly when it is an integer, 0.5
or -0.5; the result is the numerator.  Missing: all other numbers, and the numerators beyond INT64, which wrap around. -/
theorem C97_partial (other : List Char → Rat) (r : Rat) (big : Bool) (hr : InI64 r.num) (n : Int) (hn : Rounded 0 r n) :
    cast other (.num big) .int false (.num r big) = .ok (.int n) ↔ r.den = 1 ∨ (r.den = 2 ∧ (r.num = 1 ∨ r.num = -1)) := by
  rw [cast_num_int, wrap64_eq hr]
  simp only [Res.ok.injEq, Val.int.injEq]
  obtain ⟨h1, h2⟩ := hn
  simp only [Int.pow_zero, Int.mul_one] at h1 h2
  have hd := Nat.pos_of_ne_zero r.den_nz
  have hz : r.num = 0 → r.den = 1 := fun h => by
    have := r.reduced
    rw [h] at this
    simpa using this
  generalize r.num = a at *
  generalize r.den = d at *
  constructor
  · rintro rfl
    by_cases ha : a = 0
    · exact .inl (hz ha)
    · have e : (a - a * d).natAbs = a.natAbs * (d - 1) := by
        have : a - a * (d : Int) = -(a * ((d - 1 : Nat) : Int)) := by
          rw [Int.ofNat_sub (by omega), Int.mul_sub]
          omega
        rw [this, Int.natAbs_neg, Int.natAbs_mul, Int.natAbs_natCast]
      rw [e] at h1
      by_cases ha1 : a.natAbs = 1
      · rw [ha1] at h1
        have : d = 1 ∨ d = 2 := by omega
        rcases this with h | h
        · exact .inl h
        · exact .inr ⟨h, by omega⟩
      · have : 2 * (d - 1) ≤ a.natAbs * (d - 1) := Nat.mul_le_mul_right _ (by omega)
        exact .inl (by omega)
  · rintro (rfl | ⟨rfl, h⟩)
    · omega
    · omega

example : Rounded 0 (mkRat (-1) 2) (-1) := by unfold Rounded; decide_cbv
example : Rounded 0 (mkRat 3 2) 2 ∧ InI64 (mkRat 3 2).num := by unfold Rounded InI64; decide_cbv

/-! ### C105 and C98: text and NUMERIC -/

/-- A text that denotes a decimal number: digits, perhaps a point among them, with a sign or without. -/
def DecimalText (s : List Char) (q : Rat) : Prop :=
  ∃ sg σ a b, Sign sg σ ∧ a ++ b ≠ [] ∧ (∀ c ∈ a ++ b, Digit c) ∧ ((b = [] ∧ s = sg ++ a) ∨ s = sg ++ (a ++ '.' :: b)) ∧
    q = mkRat (σ * value 10 (a ++ b)) (10 ^ b.length)

theorem isDigit_digit (c : Char) : isDigit c = true ↔ Digit c := isDigit_iff c

theorem decimalDigits_iff (s : List Char) (q : Rat) : decimalDigits s = some q ↔
    ∃ a b, a ++ b ≠ [] ∧ (∀ c ∈ a ++ b, Digit c) ∧ ((b = [] ∧ s = a) ∨ s = a ++ '.' :: b) ∧ q = mkRat (value 10 (a ++ b)) (10 ^ b.length) := by
  have hp : isDigit '.' = false := by decide
  constructor
  · intro h
    have hsplit := List.takeWhile_append_dropWhile (p := isDigit) (l := s)
    have ha : ∀ c ∈ s.takeWhile isDigit, isDigit c = true := by
      have := List.all_takeWhile (p := isDigit) (l := s)
      exact fun c hc => List.all_eq_true.1 this c hc
    unfold decimalDigits at h
    generalize s.takeWhile isDigit = a at *
    simp only at h
    generalize s.dropWhile isDigit = d at *
    subst hsplit
    cases d with
    | nil =>
      simp only at h
      obtain ⟨n, hn, rfl⟩ := Option.map_eq_some_iff.1 h
      obtain ⟨h1, h2, rfl⟩ := (parseNat_iff a n).1 hn
      refine ⟨a, [], by simpa using h1, by simpa using h2, .inl ⟨rfl, by simp⟩, ?_⟩
      rw [List.append_nil, List.length_nil, Nat.pow_zero, Rat.mkRat_one]
      rfl
    | cons c b =>
      simp only at h
      split at h
      · rename_i hc
        obtain ⟨rfl, hb⟩ := hc
        obtain ⟨n, hn, rfl⟩ := Option.map_eq_some_iff.1 h
        obtain ⟨h1, h2, rfl⟩ := (parseNat_iff (a ++ b) n).1 hn
        exact ⟨a, b, h1, h2, .inr rfl, rfl⟩
      · cases h
  · rintro ⟨a, b, h1, h2, h3, rfl⟩
    have ha : ∀ c ∈ a, isDigit c = true := fun c hc => (isDigit_digit c).2 (h2 c (by simp [hc]))
    have hb : b.all isDigit = true := List.all_eq_true.2 fun c hc => (isDigit_digit c).2 (h2 c (by simp [hc]))
    have hn := (parseNat_iff (a ++ b) _).2 ⟨h1, h2, rfl⟩
    unfold decimalDigits
    rcases h3 with ⟨rfl, rfl⟩ | rfl
    · rw [List.append_nil] at hn
      rw [dropWhile_all ha, takeWhile_all ha]
      simp only [hn, Option.map_some, List.append_nil, List.length_nil, Nat.pow_zero, Rat.mkRat_one]
      rfl
    · rw [(takeWhile_stop ha hp).1, (takeWhile_stop ha hp).2]
      simp only [hb, hn, and_self, if_true, Option.map_some]

theorem decimal_iff (s : List Char) (q : Rat) : decimal s = some q ↔ DecimalText s q := by
  have hne : ∀ c (s a b : List Char), (c = '-' ∨ c = '+') → (∀ d ∈ a ++ b, Digit d) → ¬ ((b = [] ∧ c :: s = a) ∨ c :: s = a ++ '.' :: b) := by
    intro c s a b hc h
    rintro (⟨_, rfl⟩ | e)
    · have := h c (by simp)
      rcases hc with rfl | rfl <;> revert this <;> unfold Digit <;> decide
    · cases a with
      | nil =>
        simp only [List.nil_append, List.cons.injEq] at e
        rcases hc with rfl | rfl <;> exact absurd e.1 (by decide)
      | cons d a =>
        simp only [List.cons_append, List.cons.injEq] at e
        obtain ⟨rfl, _⟩ := e
        have := h c (by simp)
        rcases hc with rfl | rfl <;> revert this <;> unfold Digit <;> decide
  unfold DecimalText
  cases s with
  | nil =>
    simp only [decimal]
    constructor
    · intro h; cases h
    · rintro ⟨sg, σ, a, b, _, h1, _, (⟨rfl, e⟩ | e), _⟩
      · have := List.append_eq_nil_iff.1 e.symm
        simp [this.2] at h1
      · have := List.append_eq_nil_iff.1 e.symm
        simp at this
  | cons c s =>
    simp only [decimal]
    constructor
    · intro h
      split at h
      · rename_i hc
        subst hc
        obtain ⟨q', hq, rfl⟩ := Option.map_eq_some_iff.1 h
        obtain ⟨a, b, h1, h2, h3, rfl⟩ := (decimalDigits_iff s q').1 hq
        refine ⟨['-'], -1, a, b, .inr (.inr ⟨rfl, rfl⟩), h1, h2, ?_, ?_⟩
        · rcases h3 with ⟨rfl, rfl⟩ | rfl <;> simp
        · rw [Rat.neg_mkRat]; congr 1; omega
      · split at h
        · rename_i hc
          subst hc
          obtain ⟨a, b, h1, h2, h3, rfl⟩ := (decimalDigits_iff s q).1 h
          refine ⟨['+'], 1, a, b, .inr (.inl ⟨rfl, rfl⟩), h1, h2, ?_, ?_⟩
          · rcases h3 with ⟨rfl, rfl⟩ | rfl <;> simp
          · congr 1; omega
        · obtain ⟨a, b, h1, h2, h3, rfl⟩ := (decimalDigits_iff (c :: s) q).1 h
          refine ⟨[], 1, a, b, .inl ⟨rfl, rfl⟩, h1, h2, ?_, ?_⟩
          · simpa using h3
          · congr 1; omega
    · rintro ⟨sg, σ, a, b, (⟨rfl, rfl⟩ | ⟨rfl, rfl⟩ | ⟨rfl, rfl⟩), h1, h2, h3, rfl⟩
      · simp only [List.nil_append] at h3
        have hm : c ≠ '-' := fun hc => hne c s a b (.inl hc) h2 h3
        have hp : c ≠ '+' := fun hc => hne c s a b (.inr hc) h2 h3
        rw [if_neg hm, if_neg hp, decimalDigits_iff]
        exact ⟨a, b, h1, h2, h3, by congr 1; omega⟩
      · simp only [List.cons_append, List.nil_append, List.cons.injEq] at h3
        have hc : c = '+' := by rcases h3 with ⟨_, h, _⟩ | ⟨h, _⟩ <;> exact h
        subst hc
        rw [if_neg (by decide), if_pos rfl, decimalDigits_iff]
        exact ⟨a, b, h1, h2, by simpa using h3, by congr 1; omega⟩
      · simp only [List.cons_append, List.nil_append, List.cons.injEq] at h3
        have hc : c = '-' := by rcases h3 with ⟨_, h, _⟩ | ⟨h, _⟩ <;> exact h
        subst hc
        rw [if_pos rfl]
        rw [(decimalDigits_iff s _).2 ⟨a, b, h1, h2, by simpa using h3, rfl⟩, Option.map_some, Rat.neg_mkRat]
        congr 2
        omega

/-- C105: CAST of a text to NUMERIC is the number the text denotes, and an error for a text that denotes none (here: a
text without any digit). -/
def C105_full : Prop := ∀ (other : List Char → Rat) (s : List Char) (big : Bool),
  (∀ q, DecimalText s q → cast other .str (.num big) false (.str s) = .ok (.num q big)) ∧
  ((∀ c ∈ s, ¬ Digit c) → cast other .str (.num big) false (.str s) = .err)

/-- C105, partial: a decimal text with at most a million digits after the point is cast to the number it denotes, all its digits
being kept; no text at all is an error.  Missing: the errors, longer texts.  `other` is what the code makes of the texts that
are not decimal. -/
theorem C105_partial (other : List Char → Rat) (s : List Char) (big : Bool) :
    (∀ q, DecimalText s q → (s.dropWhile fun c => decide (c ≠ '.')).length ≤ 1000001 → cast other .str (.num big) false (.str s) = .ok (.num q big)) ∧
    ∃ q, cast other .str (.num big) false (.str s) = .ok (.num q big) := by
  refine ⟨fun q hq hl => ?_, ⟨_, rfl⟩⟩
  have := (decimal_iff s q).2 hq
  have e : setString other s = q := by unfold setString; rw [if_pos hl, this]; rfl
  simp [cast, castValue, toStr, toRat, e]

/-- CAST('abc' AS NUMERIC) does not fail. -/
theorem C105_full_false : ¬ C105_full := by
  intro h
  obtain ⟨q, hq⟩ := (C105_partial (fun _ => 0) ['a', 'b', 'c'] false).2
  have := (h (fun _ => 0) ['a', 'b', 'c'] false).2 (by unfold Digit; decide)
  rw [hq] at this
  cases this

example : DecimalText "-.50".toList (mkRat (-1) 2) :=
  ⟨['-'], -1, [], ['5', '0'], .inr (.inr ⟨rfl, rfl⟩), by decide, by unfold Digit; decide, .inr rfl, by decide_cbv⟩

/-- No zero is written that could be left out, and no point without digits after it. -/
def Tidy (s : List Char) : Prop :=
  ∃ sg a b, (sg = [] ∨ sg = ['-']) ∧ a ≠ [] ∧ (∀ c ∈ a ++ b, Digit c) ∧ (a.head? = some '0' → a = ['0']) ∧ b.getLast? ≠ some '0' ∧
    s = sg ++ (a ++ if b = [] then [] else '.' :: b)

theorem units_rounded (p : Nat) (r : Rat) : Rounded p r (if r.num < 0 then -(units p r : Int) else units p r) := by
  have hd := Nat.pos_of_ne_zero r.den_nz
  unfold Rounded units
  generalize r.den = d at *
  have hx : (r.num * 10 ^ p).natAbs = r.num.natAbs * 10 ^ p := by
    rw [Int.natAbs_mul, Int.natAbs_pow]
    rfl
  have hs : r.num * 10 ^ p = if r.num < 0 then -((r.num.natAbs * 10 ^ p : Nat) : Int) else ((r.num.natAbs * 10 ^ p : Nat) : Int) := by
    have e : ((r.num.natAbs * 10 ^ p : Nat) : Int) = (r.num.natAbs : Int) * 10 ^ p := by simp
    rw [e]
    split
    · rw [← Int.neg_mul]; congr 1; omega
    · congr 1; omega
  rw [Nat.mul_assoc]
  rw [hx]
  rw [hs]
  generalize r.num.natAbs * 10 ^ p = x at *
  generalize hu : (2 * x + d) / (2 * d) = u
  have hdm := Nat.div_add_mod (2 * x + d) (2 * d)
  have hlt := Nat.mod_lt (2 * x + d) (show 0 < 2 * d by omega)
  rw [hu] at hdm
  have hm : 2 * d * u = 2 * (u * d) := by rw [Nat.mul_assoc, Nat.mul_comm d u]
  rw [hm] at hdm
  have hc : ((u * d : Nat) : Int) = (u : Int) * d := by simp
  generalize (2 * x + d) % (2 * d) = m at *
  split
  · have e : -(u : Int) * d = -((u * d : Nat) : Int) := by rw [hc, Int.neg_mul]
    rw [e]
    generalize u * d = y at *
    omega
  · rw [← hc]
    generalize u * d = y at *
    omega

theorem decNat_head0 (n : Nat) : (decNat n).head? = some '0' → decNat n = ['0'] := by
  induction n using Nat.strongRecOn with
  | _ n ih =>
    rw [decNat_eq]
    split
    · rename_i h
      intro h
      simpa using h
    · rename_i h
      intro h0
      have hne := decNat_ne_nil (n / 10)
      have h0 : (decNat (n / 10)).head? = some '0' := by
        revert h0
        cases hd : decNat (n / 10) with
        | nil => exact absurd hd hne
        | cons c cs => simp
      have := ih (n / 10) (by omega) h0
      have hv := digitsVal_decNat (n / 10)
      rw [this] at hv
      have : digitsVal 0 ['0'] = some 0 := by decide
      rw [this] at hv
      simp only [Option.some.injEq] at hv
      omega

theorem trimRight_last (s : List Char) : (trimRight s ['0']).getLast? ≠ some '0' := by
  unfold trimRight
  rw [List.getLast?_reverse]
  induction s.reverse with
  | nil => simp
  | cons c s ih =>
    rw [List.dropWhile_cons]
    split
    · exact ih
    · rename_i h
      simp only [List.head?_cons, ne_eq, Option.some.injEq]
      rintro rfl
      simp at h

/-- C98: CAST of a NUMERIC or BIGNUMERIC to STRING is the decimal text of the number rounded to 9 or 38 digits after the
point, halves away from zero, without superfluous zeros. -/
theorem C98 (other : List Char → Rat) (r : Rat) (big : Bool) :
    ∃ s n, cast other (.num big) .str false (.num r big) = .ok (.str s) ∧ Tidy s ∧
      Rounded (if big then 38 else 9) r n ∧ DecimalText s (mkRat n (10 ^ if big then 38 else 9)) := by
  refine ⟨numText r big, _, rfl, ?_, units_rounded _ r, (decimal_iff _ _).1 (decimal_numText r big)⟩
  refine ⟨_, _, _, ?_, ?_, ?_, ?_, ?_, numText_eq r big⟩
  · split
    · exact .inr rfl
    · exact .inl rfl
  · exact decNat_ne_nil _
  · intro c hc
    rcases List.mem_append.1 hc with h | h
    · exact decNat_digits _ c h
    · obtain ⟨j, hj⟩ := trimRight_zeros (padDigits (places big) (units (places big) r % 10 ^ places big))
      exact padDigits_digits _ _ c (by rw [hj]; simp [h])
  · exact decNat_head0 _
  · exact trimRight_last _

/-- One third; a number that rounds up to the next integer. -/
example : numText (mkRat 1 3) false = "0.333333333".toList := by decide_cbv
example : numText (mkRat 19999999999 10000000000) false = "2".toList := by decide_cbv

/-! ### C99: SAFE_CAST -/

/-- C99: SAFE_CAST gives what CAST gives, and NULL where CAST is an error; it is never an error. -/
theorem C99 (other : List Char → Rat) (src dst : Ty) (v : Val) :
    (∀ w, cast other src dst false v = .ok w → cast other src dst true v = .ok w) ∧
    (cast other src dst false v = .err → cast other src dst true v = .ok .null) ∧
    cast other src dst true v ≠ .err := by
  unfold cast
  cases castValue other src v with
  | err => simp
  | panic => simp
  | ok w => simp only; cases castValue other dst w <;> simp

/-- CAST('x' AS INT64) fails and SAFE_CAST('x' AS INT64) is NULL. -/
example : cast (fun _ => 0) .str .int false (.str ['x']) = .err ∧ cast (fun _ => 0) .str .int true (.str ['x']) = .ok .null := ⟨rfl, rfl⟩

/-! ### C100: INT64 and BOOL -/

/-- C100: CAST of an INT64 to BOOL is whether it is not 0, and CAST of a BOOL to INT64 is 1 or 0. -/
def C100_full : Prop := ∀ (other : List Char → Rat),
  (∀ i, InI64 i → cast other .int .bool false (.int i) = .ok (.bool (decide (i ≠ 0)))) ∧
  (∀ b, cast other .bool .int false (.bool b) = .ok (.int (if b then 1 else 0)))

/-- C100, partial: BOOL to INT64 is right; INT64 to BOOL is right exactly for 0 and 1 and an error otherwise.  Missing: the
other integers. -/
theorem C100_partial (other : List Char → Rat) :
    (∀ i, (cast other .int .bool false (.int i) = .ok (.bool (decide (i ≠ 0))) ↔ i = 0 ∨ i = 1) ∧
      (i ≠ 0 → i ≠ 1 → cast other .int .bool false (.int i) = .err)) ∧
    (∀ b, cast other .bool .int false (.bool b) = .ok (.int (if b then 1 else 0))) := by
  refine ⟨fun i => ?_, fun b => rfl⟩
  by_cases h0 : i = 0
  · subst h0
    simp [cast, castValue, toI64, toInt64, toB, Val.toBool]
  · by_cases h1 : i = 1
    · subst h1
      simp [cast, castValue, toI64, toInt64, toB, Val.toBool]
    · simp [cast, castValue, toI64, toInt64, toB, Val.toBool, h0, h1, Res.bind]

/-- CAST(2 AS BOOL) is an error. -/
theorem C100_full_false : ¬ C100_full := fun h => by
  have := ((C100_partial fun _ => 0).1 2).1.1 ((h fun _ => 0).1 2 (by decide))
  omega

/-- The BOOL that SQLite gives back as an integer is still a BOOL for CAST. -/
example (other : List Char → Rat) : cast other .bool .str false (.int 1) = .ok (.str ['t', 'r', 'u', 'e']) := rfl

/-! ### C104: CAST of text to BOOL -/

/-- C104: CAST of a text to BOOL is TRUE for `true` and FALSE for `false`, in any case of the letters, and an error for
every other text. -/
def C104_full : Prop := ∀ (other : List Char → Rat) (s : List Char) (b : Bool),
  cast other .str .bool false (.str s) = .ok (.bool b) ↔ s.map Char.toLower = if b then ['t', 'r', 'u', 'e'] else ['f', 'a', 'l', 's', 'e']

theorem cast_str_bool (other : List Char → Rat) (s : List Char) (b : Bool) :
    cast other .str .bool false (.str s) = .ok (.bool b) ↔ (if s = [] then .ok false else parseBool s) = .ok b := by
  simp only [cast, castValue, toStr, toB, Val.toBool, Res.bind'_ok]
  generalize (if s = [] then Res.ok false else parseBool s) = r
  cases r <;> simp [Res.bind]

/-- CAST('' AS BOOL) is FALSE. -/
theorem C104_full_false : ¬ C104_full := fun h => by
  have := (h (fun _ => 0) [] false).1 rfl
  simp at this

/-- C104, partial: right exactly for the texts that are not among the empty text, `1`, `t`, `T`, `0`, `f`, `F` and the
words true and false in a mixture of cases other than True and False.  Missing: those texts; the first seven are accepted
and the mixtures are errors. -/
theorem C104_partial (other : List Char → Rat) (s : List Char) :
    (∀ b, cast other .str .bool false (.str s) = .ok (.bool b) ↔ s.map Char.toLower = if b then ['t', 'r', 'u', 'e'] else ['f', 'a', 'l', 's', 'e']) ↔
      s ∉ [[], ['1'], ['t'], ['T'], ['0'], ['f'], ['F']] ∧
      (s.map Char.toLower = ['t', 'r', 'u', 'e'] → s ∈ [['t', 'r', 'u', 'e'], ['T', 'R', 'U', 'E'], ['T', 'r', 'u', 'e']]) ∧
      (s.map Char.toLower = ['f', 'a', 'l', 's', 'e'] → s ∈ [['f', 'a', 'l', 's', 'e'], ['F', 'A', 'L', 'S', 'E'], ['F', 'a', 'l', 's', 'e']]) := by
  simp only [cast_str_bool]
  by_cases hbad : s ∈ [[], ['1'], ['t'], ['T'], ['0'], ['f'], ['F']]
  · simp only [hbad, not_true_eq_false, false_and, iff_false]
    intro h
    simp only [List.mem_cons, List.not_mem_nil, or_false] at hbad
    rcases hbad with rfl | rfl | rfl | rfl | rfl | rfl | rfl
    · exact absurd ((h false).1 rfl) (by decide)
    · exact absurd ((h true).1 rfl) (by decide)
    · exact absurd ((h true).1 rfl) (by decide)
    · exact absurd ((h true).1 rfl) (by decide)
    · exact absurd ((h false).1 rfl) (by decide)
    · exact absurd ((h false).1 rfl) (by decide)
    · exact absurd ((h false).1 rfl) (by decide)
  · by_cases ht : s ∈ [['t', 'r', 'u', 'e'], ['T', 'R', 'U', 'E'], ['T', 'r', 'u', 'e']]
    · simp only [List.mem_cons, List.not_mem_nil, or_false] at ht
      rcases ht with rfl | rfl | rfl <;> decide
    · by_cases hf : s ∈ [['f', 'a', 'l', 's', 'e'], ['F', 'A', 'L', 'S', 'E'], ['F', 'a', 'l', 's', 'e']]
      · simp only [List.mem_cons, List.not_mem_nil, or_false] at hf
        rcases hf with rfl | rfl | rfl <;> decide
      · have he : (if s = [] then .ok false else parseBool s) = Res.err := by
          simp only [List.mem_cons, List.not_mem_nil, or_false, not_or] at hbad ht hf
          unfold parseBool
          simp [hbad, ht, hf]
        simp only [he, hbad, ht, hf, not_false_eq_true, true_and, imp_false, reduceCtorEq, false_iff, Bool.forall_bool]
        simp [and_comm]

/-! ### C101: NULL and arrays -/

open Verif.Logic in
/-- C101: CAST of NULL is NULL for every type, and CAST of an array casts every element, NULL elements included, and fails
if one of them does. -/
theorem C101 (other : List Char → Rat) :
    (∀ src dst safe, cast other src dst safe .null = .ok .null) ∧
    (∀ a b vs w, cast other (.arr a) (.arr b) false (.arr vs) = .ok w ↔ ∃ ws, w = .arr ws ∧ All2 (fun v w => cast other a b false v = .ok w) vs ws) := by
  have hnull : ∀ ty, castValue other ty .null = .ok .null := by intro ty; cases ty <;> simp [castValue]
  refine ⟨fun src dst safe => by simp [cast, hnull], fun a b vs w => ?_⟩
  have hall : ∀ (f : Val → Res Val) (vs ws : List Val), castAll f vs = .ok ws ↔ All2 (fun v w => f v = .ok w) vs ws := by
    intro f vs
    induction vs with
    | nil =>
      intro ws
      constructor
      · intro h; cases h; exact .nil
      · intro h; cases h; rfl
    | cons v vs ih =>
      intro ws
      simp only [castAll]
      constructor
      · intro h
        cases h1 : f v with
        | err => rw [h1] at h; cases h
        | panic => rw [h1] at h; cases h
        | ok x =>
          rw [h1, Res.bind'_ok] at h
          cases h2 : castAll f vs with
          | err => rw [h2] at h; cases h
          | panic => rw [h2] at h; cases h
          | ok xs =>
            rw [h2, Res.bind'_ok] at h
            cases h
            exact .cons h1 ((ih xs).1 h2)
      · intro h
        cases h with
        | cons h1 h2 => rw [h1, Res.bind'_ok, (ih _).2 h2, Res.bind'_ok]
  have hcast : ∀ s d v w, cast other s d false v = .ok w ↔ ∃ u, castValue other s v = .ok u ∧ castValue other d u = .ok w := by
    intro s d v w
    unfold cast
    cases castValue other s v with
    | err => simp
    | panic => simp
    | ok u => simp only [Res.ok.injEq, exists_eq_left']; cases castValue other d u <;> simp
  have harr : ∀ e vs w, castValue other (.arr e) (.arr vs) = .ok w ↔ ∃ ws, w = .arr ws ∧ castAll (castValue other e) vs = .ok ws := by
    intro e vs w
    simp only [castValue]
    cases castAll (castValue other e) vs with
    | err => simp [Res.bind]
    | panic => simp [Res.bind]
    | ok ws => simp [Res.bind'_ok, eq_comm]
  rw [hcast]
  have hsplit : ∀ vs ws, All2 (fun v w => cast other a b false v = .ok w) vs ws ↔
      ∃ us, All2 (fun v w => castValue other a v = .ok w) vs us ∧ All2 (fun v w => castValue other b v = .ok w) us ws := by
    intro vs
    induction vs with
    | nil =>
      intro ws
      constructor
      · intro h; cases h; exact ⟨[], .nil, .nil⟩
      · rintro ⟨us, h1, h2⟩; cases h1; cases h2; exact .nil
    | cons v vs ih =>
      intro ws
      constructor
      · intro h
        cases h with
        | cons h1 h2 =>
          obtain ⟨u, hu1, hu2⟩ := (hcast _ _ _ _).1 h1
          obtain ⟨us, h3, h4⟩ := (ih _).1 h2
          exact ⟨u :: us, .cons hu1 h3, .cons hu2 h4⟩
      · rintro ⟨us, h1, h2⟩
        cases h1 with
        | cons h1 h3 =>
          cases h2 with
          | cons h2 h4 => exact .cons ((hcast _ _ _ _).2 ⟨_, h1, h2⟩) ((ih _).2 ⟨_, h3, h4⟩)
  constructor
  · rintro ⟨u, h1, h2⟩
    obtain ⟨us, rfl, h3⟩ := (harr a vs u).1 h1
    obtain ⟨ws, rfl, h4⟩ := (harr b us w).1 h2
    exact ⟨ws, rfl, (hsplit _ _).2 ⟨us, (hall _ _ _).1 h3, (hall _ _ _).1 h4⟩⟩
  · rintro ⟨ws, rfl, h⟩
    obtain ⟨us, h1, h2⟩ := (hsplit _ _).1 h
    exact ⟨.arr us, (harr _ _ _).2 ⟨us, rfl, (hall _ _ _).2 h1⟩, (harr _ _ _).2 ⟨ws, rfl, (hall _ _ _).2 h2⟩⟩

example : cast (fun _ => 0) (.arr .int) (.arr .str) false (.arr [.int 7, .null]) = .ok (.arr [.str ['7'], .null]) := by rfl

/-! ### C102: structs -/

/-- The fields are cast one by one. -/
inductive FieldsCast (other : List Char → Rat) : List Ty → List Ty → List Val → List Val → Prop where
  | nil : FieldsCast other [] [] [] []
  | cons {t t' ts ts' v w vs ws} : cast other t t' false v = .ok w → FieldsCast other ts ts' vs ws →
      FieldsCast other (t :: ts) (t' :: ts') (v :: vs) (w :: ws)

/-- C102: CAST between struct types casts the fields by position; the result has the field names of the target. -/
def C102_full : Prop := ∀ (other : List Char → Rat) (ks ks' : List (List Char)) (ts ts' : List Ty) (vs ws : List Val),
  ks.length = vs.length → ks'.length = vs.length → FieldsCast other ts ts' vs ws →
    cast other (.struct ks ts) (.struct ks' ts') false (.struct ks vs) = .ok (.struct ks' ws)

/-- CAST(STRUCT(1 AS a) AS STRUCT<b INT64>) is a struct with NULL, and CAST(STRUCT(1) AS STRUCT<STRING>) is not cast. -/
theorem C102_full_false : ¬ C102_full := by
  intro h
  have := h (fun _ => 0) [['a']] [['b']] [.int] [.int] [.int 1] [.int 1] rfl rfl (.cons rfl .nil)
  have e : cast (fun _ => 0) (.struct [['a']] [.int]) (.struct [['b']] [.int]) false (.struct [['a']] [.int 1]) = .ok (.struct [['b']] [.null]) := rfl
  rw [e] at this
  simp at this

theorem C102_anonymous_false : ¬ ∀ (other : List Char → Rat) (t t' : Ty) (v w : Val), cast other t t' false v = .ok w →
    cast other (.struct [[]] [t]) (.struct [[]] [t']) false (.struct [[]] [v]) = .ok (.struct [[]] [w]) := by
  intro h
  have := h (fun _ => 0) .int .str (.int 1) (.str ['1']) rfl
  have e : cast (fun _ => 0) (.struct [[]] [.int]) (.struct [[]] [.str]) false (.struct [[]] [.int 1]) = .ok (.struct [[]] [.int 1]) := rfl
  rw [e] at this
  simp at this

/-- The fields are cast to the types, `castValue` being used once. -/
inductive Fields1 (other : List Char → Rat) : List Ty → List Val → List Val → Prop where
  | nil : Fields1 other [] [] []
  | cons {t ts v w vs ws} : castValue other t v = .ok w → Fields1 other ts vs ws → Fields1 other (t :: ts) (v :: vs) (w :: ws)

theorem Fields1.length {other : List Char → Rat} {ts vs ws} (h : Fields1 other ts vs ws) : ts.length = vs.length ∧ ws.length = vs.length := by
  induction h <;> simp_all

theorem lookup_unique {α β} [BEq α] [LawfulBEq α] (k : α) (v : β) : ∀ l : List (α × β), (k, v) ∈ l → (∀ v', (k, v') ∈ l → v' = v) → l.lookup k = some v
  | [], h, _ => by cases h
  | (a, b) :: l, h, hu => by
    rw [List.lookup_cons]
    by_cases hk : k = a
    · subst hk
      have : b = v := hu b (by simp)
      simp [this]
    · have hb : (k == a) = false := by simp [hk]
      rw [hb]
      have hm : (k, v) ∈ l := by
        rcases List.mem_cons.1 h with h | h
        · cases h; exact absurd rfl hk
        · exact h
      exact lookup_unique k v l hm fun v' h' => hu v' (by simp [h'])

theorem zip_unique {α β} : ∀ (ks : List α) (vs : List β), ks.Nodup → ∀ k v v', (k, v) ∈ ks.zip vs → (k, v') ∈ ks.zip vs → v' = v
  | [], _, _, _, _, _, h, _ => by simp at h
  | _ :: _, [], _, _, _, _, h, _ => by simp at h
  | a :: ks, b :: vs, hn, k, v, v', h, h' => by
    obtain ⟨hn1, hn2⟩ := List.nodup_cons.1 hn
    simp only [List.zip_cons_cons, List.mem_cons, Prod.mk.injEq] at h h'
    rcases h with ⟨rfl, rfl⟩ | h
    · rcases h' with ⟨_, rfl⟩ | h'
      · rfl
      · exact absurd (List.of_mem_zip h').1 hn1
    · rcases h' with ⟨rfl, rfl⟩ | h'
      · exact absurd (List.of_mem_zip h).1 hn1
      · exact zip_unique ks vs hn2 k v v' h h'

theorem castFields_iff (other : List Char → Rat) (m : List Char → Option Val) : ∀ (ks : List (List Char)) (ts : List Ty) (vs ws : List Val),
    ks.length = vs.length → ts.length = vs.length → (∀ p ∈ ks.zip vs, m p.1 = some p.2) →
    (castFields other ks ts m = .ok ws ↔ Fields1 other ts vs ws)
  | [], [], [], ws, _, _, _ => by
    simp only [castFields, Res.ok.injEq]
    constructor
    · rintro rfl; exact .nil
    · intro h; cases h; rfl
  | k :: ks, t :: ts, v :: vs, ws, h1, h2, hm => by
    have hk := hm (k, v) (by simp)
    have ih := castFields_iff other m ks ts vs
    simp only [castFields, hk]
    constructor
    · intro h
      cases e1 : castValue other t v with
      | err => rw [e1] at h; cases h
      | panic => rw [e1] at h; cases h
      | ok w =>
        rw [e1, Res.bind'_ok] at h
        cases e2 : castFields other ks ts m with
        | err => rw [e2] at h; cases h
        | panic => rw [e2] at h; cases h
        | ok us =>
          rw [e2, Res.bind'_ok] at h
          cases h
          exact .cons e1 ((ih us (by simpa using h1) (by simpa using h2) fun p hp => hm p (by simp [hp])).1 e2)
    · intro h
      cases h with
      | cons e1 e2 =>
        rw [e1, Res.bind'_ok, (ih _ (by simpa using h1) (by simpa using h2) fun p hp => hm p (by simp [hp])).2 e2, Res.bind'_ok]
  | [], _ :: _, [], _, _, h, _ => by simp at h
  | [], _, _ :: _, _, h, _, _ => by simp at h
  | _ :: _, _, [], _, h, _, _ => by simp at h
  | _ :: _, [], _ :: _, _, _, h, _ => by simp at h

theorem castStruct_iff (other : List Char → Rat) (ks : List (List Char)) (ts : List Ty) (vs : List Val) (w : Val) (hn : ks.Nodup) (h0 : ∃ k ∈ ks, k ≠ [])
    (h1 : ks.length = vs.length) (h2 : ts.length = vs.length) :
    castValue other (.struct ks ts) (.struct ks vs) = .ok w ↔ ∃ ws, w = .struct ks ws ∧ Fields1 other ts vs ws := by
  have ha : (ks.all fun k => decide (k = [])) = false := by
    obtain ⟨k, hk, hne⟩ := h0
    rw [List.all_eq_false]
    exact ⟨k, hk, by simp [hne]⟩
  have hm : ∀ p ∈ ks.zip vs, (List.zip ks vs).reverse.lookup p.1 = some p.2 := by
    rintro ⟨k, v⟩ hp
    apply lookup_unique
    · simpa using hp
    · intro v' h'
      exact zip_unique ks vs hn k v v' hp (by simpa using h')
  have hc := castFields_iff other (fun k => (List.zip ks vs).reverse.lookup k) ks ts vs
  simp only [castValue, ha, Bool.false_eq_true, if_false]
  constructor
  · intro h
    cases e : castFields other ks ts (fun k => (List.zip ks vs).reverse.lookup k) with
    | err => rw [e] at h; cases h
    | panic => rw [e] at h; cases h
    | ok ws =>
      rw [e, Res.bind'_ok] at h
      cases h
      exact ⟨ws, rfl, (hc ws h1 h2 hm).1 e⟩
  · rintro ⟨ws, rfl, h⟩
    rw [(hc ws h1 h2 hm).2 h, Res.bind'_ok]

/-- C102, partial: right when the field names are distinct, not all empty and the same in both types.  Missing: other
names (fields are matched by name) and structs without names (they are not cast). -/
theorem C102_partial (other : List Char → Rat) (ks : List (List Char)) (ts ts' : List Ty) (vs : List Val) (w : Val)
    (hn : ks.Nodup) (h0 : ∃ k ∈ ks, k ≠ []) (h1 : ks.length = vs.length) (h2 : ts.length = vs.length) (h3 : ts'.length = vs.length) :
    cast other (.struct ks ts) (.struct ks ts') false (.struct ks vs) = .ok w ↔ ∃ ws, w = .struct ks ws ∧ FieldsCast other ts ts' vs ws := by
  have hcast : ∀ s d v w, cast other s d false v = .ok w ↔ ∃ u, castValue other s v = .ok u ∧ castValue other d u = .ok w := by
    intro s d v w
    unfold cast
    cases castValue other s v with
    | err => simp
    | panic => simp
    | ok u => simp only [Res.ok.injEq, exists_eq_left']; cases castValue other d u <;> simp
  have hsplit : ∀ (ts ts' : List Ty) (vs ws : List Val), FieldsCast other ts ts' vs ws ↔ ∃ us, Fields1 other ts vs us ∧ Fields1 other ts' us ws := by
    intro ts ts' vs ws
    constructor
    · intro h
      induction h with
      | nil => exact ⟨[], .nil, .nil⟩
      | cons h1 _ ih =>
        obtain ⟨u, hu1, hu2⟩ := (hcast _ _ _ _).1 h1
        obtain ⟨us, h3, h4⟩ := ih
        exact ⟨u :: us, .cons hu1 h3, .cons hu2 h4⟩
    · rintro ⟨us, h1, h2⟩
      induction h1 generalizing ts' ws with
      | nil => cases h2; exact .nil
      | cons h1 _ ih =>
        cases h2 with
        | cons h2 h4 => exact .cons ((hcast _ _ _ _).2 ⟨_, h1, h2⟩) (ih _ _ h4)
  rw [hcast]
  constructor
  · rintro ⟨u, e1, e2⟩
    obtain ⟨us, rfl, f1⟩ := (castStruct_iff other ks ts vs u hn h0 h1 h2).1 e1
    have := f1.length.2
    obtain ⟨ws, rfl, f2⟩ := (castStruct_iff other ks ts' us w hn h0 (by omega) (by omega)).1 e2
    exact ⟨ws, rfl, (hsplit _ _ _ _).2 ⟨us, f1, f2⟩⟩
  · rintro ⟨ws, rfl, h⟩
    obtain ⟨us, f1, f2⟩ := (hsplit _ _ _ _).1 h
    have := f1.length.2
    exact ⟨.struct ks us, (castStruct_iff other ks ts vs _ hn h0 h1 h2).2 ⟨us, rfl, f1⟩,
      (castStruct_iff other ks ts' us _ hn h0 (by omega) (by omega)).2 ⟨ws, rfl, f2⟩⟩

example : cast (fun _ => 0) (.struct [['a'], ['b']] [.int, .str]) (.struct [['a'], ['b']] [.str, .int]) false (.struct [['a'], ['b']] [.int 7, .str ['8']]) =
    .ok (.struct [['a'], ['b']] [.str ['7'], .int 8]) := by rfl

theorem castFields_none (other : List Char → Rat) (m : List Char → Option Val) : ∀ (ks : List (List Char)) (ts : List Ty), ks.length = ts.length →
    (∀ k ∈ ks, m k = none) → castFields other ks ts m = .ok (List.replicate ks.length .null)
  | [], [], _, _ => rfl
  | k :: ks, t :: ts, hl, hm => by
    have ih := castFields_none other m ks ts (by simpa using hl) fun k hk => hm k (List.mem_cons_of_mem _ hk)
    simp only [castFields, hm k List.mem_cons_self, Res.bind'_ok, ih]
    rfl
  | [], _ :: _, hl, _ => by simp at hl
  | _ :: _, [], hl, _ => by simp at hl

/-- C102, what happens to fields with new names: all of them are lost.  A struct that can be read as one of its own type and is cast to
a type with none of its names becomes a struct of NULLs. -/
theorem C102_renamed (other : List Char → Rat) (ks ks' : List (List Char)) (ts ts' : List Ty) (vs : List Val) (w : Val)
    (hn : ks.Nodup) (h0 : ∃ k ∈ ks, k ≠ []) (h1 : ks.length = vs.length) (h2 : ts.length = vs.length) (h3 : ks'.length = ts'.length)
    (hd : ∀ k ∈ ks', k ∉ ks) (hr : cast other (.struct ks ts) (.struct ks ts) false (.struct ks vs) = .ok w) :
    cast other (.struct ks ts) (.struct ks' ts') false (.struct ks vs) = .ok (.struct ks' (List.replicate ks'.length .null)) := by
  unfold cast at hr ⊢
  cases e : castValue other (.struct ks ts) (.struct ks vs) with
  | err => rw [e] at hr; cases hr
  | panic => rw [e] at hr; cases hr
  | ok u =>
    obtain ⟨us, rfl, -⟩ := (castStruct_iff other ks ts vs u hn h0 h1 h2).1 e
    have ha : (ks.all fun k => decide (k = [])) = false := by
      obtain ⟨k, hk, hne⟩ := h0
      rw [List.all_eq_false]
      exact ⟨k, hk, by simp [hne]⟩
    have hm : ∀ k ∈ ks', (List.zip ks us).reverse.lookup k = none := by
      intro k hk
      rw [List.lookup_eq_none_iff]
      rintro ⟨a, b⟩ hp
      have ha : a ∈ ks := (List.of_mem_zip (List.mem_reverse.1 hp)).1
      have : k ≠ a := fun h => hd k hk (h ▸ ha)
      simpa using this
    simp only [castValue, ha, Bool.false_eq_true, if_false, castFields_none other _ ks' ts' h3 hm, Res.bind'_ok]

example : cast (fun _ => 0) (.struct [['a']] [.int]) (.struct [['b']] [.str]) false (.struct [['a']] [.int 7]) = .ok (.struct [['b']] [.null]) := by rfl

/-! ### C103: DATE, DATETIME, TIME and TIMESTAMP -/

/-- `t'` is what a moment `t` becomes: the day, the moment itself, or the time of day. -/
def Converted (k : TimeKind) (t t' : Int) : Prop :=
  match k with
  | .date => tod t' = 0 ∧ yearOf (tDay t') = yearOf (tDay t) ∧ monthOf (tDay t') = monthOf (tDay t) ∧ dayOf (tDay t') = dayOf (tDay t)
  | .time => tod t' = tod t
  | _ => t' = t

/-- C103: CAST from one of DATE, DATETIME, TIMESTAMP to DATE, DATETIME, TIME or TIMESTAMP gives, as it is stored and read by
the next function, the day, the moment or the time of day.  The time zone is UTC. -/
theorem C103 (other : List Char → Rat) (k k' : TimeKind) (t : Int) (hk : k ≠ .time) (h0 : t % 1000 = 0)
    (h : Scalar (.time k) (.time k t)) :
    ∃ w t', cast other (.time k) (.time k') false (.time k t) = .ok w ∧ decode (store (encode w)) = .ok (.time k' t') ∧ Converted k' t t' := by
  have hy : 1 ≤ yearOf (tDay t) ∧ yearOf (tDay t) ≤ 9999 := by
    cases k
    · exact h.2
    · exact h.2
    · exact absurd rfl hk
    · exact h
  have hdec : ∀ (k : TimeKind) (t t' : Int), decodeTime k (timeText k t) = some t' → decode (store (encode (.time k t))) = .ok (.time k t') := by
    intro k t t' h
    obtain ⟨m, hm, _⟩ := size_encode_le (Nat.le_refl (size (.text (wrapText (timeHeader k) (timeText k t)))))
    have := decode_wrap ofScalar m (timeHeader k) (timeText k t)
    rw [timeHeader_time _ k _ h, ← hm] at this
    exact this
  have hday := tDay_tod t
  refine ⟨.time k' t, ?_⟩
  cases k' with
  | date =>
    refine ⟨t - tod t, rfl, hdec .date t _ (parseDate_text t (by omega) hy.2), ?_⟩
    have e : t - tod t = tDay t * dayNs := by omega
    rw [e]
    simp only [Converted, tod_mul, tDay_mul, and_self]
  | datetime =>
    refine ⟨t, rfl, hdec .datetime t _ ?_, rfl⟩
    have := parseDatetime_text (w := 6) (by omega) 'T' t (by omega) hy.2
    rw [tod_us t h0, Int.sub_zero] at this
    simp only [decodeTime, timeText, this, Option.some_or]
  | time =>
    refine ⟨_, rfl, hdec .time t _ (parseClock_text (w := 6) (by omega) t), ?_⟩
    exact backTime_time t h0
  | timestamp =>
    refine ⟨t, rfl, ?_, rfl⟩
    have hb : InI64 (tUnixMicro t) := by
      have h1 := yearOf_spec (tDay t)
      have h2 := yearStart_le hy.1
      have h3 := yearStart_le (show yearOf (tDay t) + 1 ≤ 10000 by omega)
      have e1 : yearStart 1 = -719162 := by decide
      have e2 : yearStart 10000 = 2932897 := by decide
      unfold tDay dayNs at *
      unfold InI64 tUnixMicro us
      omega
    have := hdec .timestamp t (tUnixMicro t * 1000) (by
      simp only [decodeTime, timeText, parseInt64_decInt hb, Option.map]
      congr 1
      generalize tUnixMicro t = x
      generalize x.tdiv 1000000 = q
      omega)
    have e : tUnixMicro t * 1000 = t := by unfold tUnixMicro us; omega
    rw [e] at this
    exact this

example : Scalar (.time .timestamp) (.time .timestamp 1500000000) ∧ (1500000000 : Int) % 1000 = 0 := by unfold Scalar; decide

/-! ### C106: CAST of text to DATE -/

/-- Four digits, two digits and two digits with hyphens between them. -/
def DateShape (s ys ms ds : List Char) : Prop :=
  s = ys ++ '-' :: (ms ++ '-' :: ds) ∧ ys.length = 4 ∧ ms.length = 2 ∧ ds.length = 2 ∧ (∀ c ∈ ys ++ ms ++ ds, Digit c)

/-- A text that denotes a day: year, month and day are those of the midnight `t`. -/
def DateText (s : List Char) (t : Int) : Prop :=
  ∃ ys ms ds, DateShape s ys ms ds ∧ tod t = 0 ∧
    yearOf (tDay t) = value 10 ys ∧ monthOf (tDay t) = value 10 ms ∧ dayOf (tDay t) = value 10 ds

/-- C106: CAST of a text to DATE is the day the text denotes, and an error for a text that denotes none. -/
def C106_full : Prop := ∀ (other : List Char → Rat) (s : List Char) (t : Int),
  cast other .str (.time .date) false (.str s) = .ok (.time .date t) ↔ DateText s t

theorem cast_str_time (other : List Char → Rat) (k : TimeKind) (s : List Char) (t : Int) :
    cast other .str (.time k) false (.str s) = .ok (.time k t) ↔ strTime s = .ok t := by
  simp only [cast, castValue, toStr, toTime, Res.bind'_ok]
  cases strTime s <;> simp [Res.bind]

/-- CAST('10:00:00' AS DATE) is 0000-01-01. -/
theorem C106_full_false : ¬ C106_full := by
  intro h
  have e : cast (fun _ => 0) .str (.time .date) false (.str "10:00:00".toList) = .ok (.time .date (tDate 0 1 1 0 0 0 0 + 10 * hour)) := by
    rw [cast_str_time]; decide_cbv
  obtain ⟨ys, ms, ds, ⟨e, h1, h2, h3, _⟩, _⟩ := (h _ _ _).1 e
  have := congrArg List.length e
  simp [h1, h2, h3] at this

theorem takeDigits_value {ds : List Char} (h : ∀ c ∈ ds, Digit c) (rest : List Char) :
    takeDigits ds.length (ds ++ rest) = some (value 10 ds, rest) := by
  unfold takeDigits
  rw [if_neg (by simp), List.take_left' rfl, List.drop_left' rfl, (digitsVal_iff ds 0 (value 10 ds)).2 ⟨h, rfl⟩]
  rfl

/-- C106, partial: right for every text of the shape of a date, that is, such a text is cast to the day it denotes and is
an error when there is no such day.  Missing: other texts; those of times and timestamps are accepted. -/
theorem C106_partial (other : List Char → Rat) (s ys ms ds : List Char) (hs : DateShape s ys ms ds) (t : Int) :
    cast other .str (.time .date) false (.str s) = .ok (.time .date t) ↔ DateText s t := by
  obtain ⟨rfl, hy, hm, hd, hall⟩ := hs
  have h1 : ∀ c ∈ ys, Digit c := fun c hc => hall c (by simp [hc])
  have h2 : ∀ c ∈ ms, Digit c := fun c hc => hall c (by simp [hc])
  have h3 : ∀ c ∈ ds, Digit c := fun c hc => hall c (by simp [hc])
  rw [cast_str_time]
  have hdig : ∀ (l : List Char), (∀ c ∈ l, Digit c) → ∀ c ∈ l, isDigit c = true := fun l h c hc => (isDigit_digit c).2 (h c hc)
  have hdate : isDate (ys ++ '-' :: (ms ++ '-' :: ds)) = true := by
    have e : dateClasses = List.replicate ys.length isDigit ++ (lit '-' :: (List.replicate ms.length isDigit ++ (lit '-' :: (List.replicate ds.length isDigit ++ [])))) := by
      rw [hy, hm, hd]; rfl
    have hl : ∀ (ps : List (Char → Bool)) s, matchClasses (lit '-' :: ps) ('-' :: s) = matchClasses ps s := fun _ _ => rfl
    have e3 : ds = ds ++ [] := by simp
    unfold isDate
    rw [e, matchClasses_digits _ _ ys (hdig _ h1), hl, matchClasses_digits _ _ ms (hdig _ h2), hl]
    conv => lhs; arg 1; lhs; arg 2; rw [e3]
    rw [matchClasses_digits _ _ ds (hdig _ h3)]
    rfl
  have t1 := takeDigits_value h1 ('-' :: (ms ++ '-' :: ds))
  have t2 := takeDigits_value h2 ('-' :: ds)
  have t3 := takeDigits_value h3 []
  rw [hy] at t1
  rw [hm] at t2
  rw [hd, List.append_nil] at t3
  have hp : parseDatePart (ys ++ '-' :: (ms ++ '-' :: ds)) =
      if 1 ≤ value 10 ms ∧ value 10 ms ≤ 12 ∧ 1 ≤ value 10 ds ∧ (value 10 ds : Int) ≤ monthLen (value 10 ys) (value 10 ms) then
        some ((value 10 ys : Int), (value 10 ms : Int), (value 10 ds : Int), []) else none := by
    unfold parseDatePart
    simp only [t1, takeChar_cons, t2, t3]
  have hst : strTime (ys ++ '-' :: (ms ++ '-' :: ds)) = .ok t ↔ parseDate (ys ++ '-' :: (ms ++ '-' :: ds)) = some t := by
    unfold strTime
    rw [if_pos hdate]
    cases parseDate (ys ++ '-' :: (ms ++ '-' :: ds)) <;> simp
  rw [hst]
  unfold parseDate
  rw [hp]
  constructor
  · intro h
    split at h
    · rename_i heq
      split at heq
      · rename_i hv
        cases heq
        cases h
        obtain ⟨f1, f2, f3⟩ := daysOf_fields (y := value 10 ys) (m := value 10 ms) (d := value 10 ds) (by omega) (by omega) (by omega) hv.2.2.2
        refine ⟨ys, ms, ds, ⟨rfl, hy, hm, hd, hall⟩, ?_⟩
        have e : tDate (value 10 ys) (value 10 ms) (value 10 ds) 0 0 0 0 = daysOf (value 10 ys) (value 10 ms) (value 10 ds) * dayNs := by unfold tDate; omega
        rw [e, tDay_mul, tod_mul]
        exact ⟨rfl, f1, f2, f3⟩
      · cases heq
    · cases h
  · rintro ⟨ys', ms', ds', ⟨e, hy', hm', hd', _⟩, ht, f1, f2, f3⟩
    obtain ⟨hys, e1⟩ := List.append_inj e (by omega)
    obtain ⟨hms, e2⟩ := List.append_inj (List.cons.inj e1).2 (by omega)
    have hds := (List.cons.inj e2).2
    subst hys hms hds
    obtain ⟨m1, m12, d1, dl⟩ := civil_valid (tDay t)
    rw [f1, f2, f3] at dl
    rw [if_pos ⟨by omega, by omega, by omega, dl⟩]
    show some (tDate (value 10 ys) (value 10 ms) (value 10 ds) 0 0 0 0) = some t
    have e : tDate (value 10 ys) (value 10 ms) (value 10 ds) 0 0 0 0 = daysOf (value 10 ys) (value 10 ms) (value 10 ds) * dayNs := by unfold tDate; omega
    rw [e, ← f1, ← f2, ← f3, daysOf_civil]
    have := tDay_tod t
    congr 1
    omega

/-- C106, exactly: the texts for which the cast is wrong are those that do not have the shape of a date and are accepted all the same. -/
theorem C106_iff (other : List Char → Rat) (s : List Char) :
    (∀ t, cast other .str (.time .date) false (.str s) = .ok (.time .date t) ↔ DateText s t) ↔
      (∃ ys ms ds, DateShape s ys ms ds) ∨ ∀ t, cast other .str (.time .date) false (.str s) ≠ .ok (.time .date t) := by
  constructor
  · intro h
    by_cases hs : ∃ ys ms ds, DateShape s ys ms ds
    · exact .inl hs
    · refine .inr fun t ht => ?_
      obtain ⟨ys, ms, ds, hd, -⟩ := (h t).1 ht
      exact hs ⟨ys, ms, ds, hd⟩
  · rintro (⟨ys, ms, ds, hs⟩ | h) t
    · exact C106_partial other s ys ms ds hs t
    · refine ⟨fun ht => absurd ht (h t), fun hd => ?_⟩
      obtain ⟨ys, ms, ds, hs, -⟩ := id hd
      exact (C106_partial other s ys ms ds hs t).2 hd

example : DateText "1970-01-02".toList dayNs := ⟨"1970".toList, "01".toList, "02".toList, ⟨rfl, rfl, rfl, rfl, by unfold Digit; decide⟩, by decide_cbv⟩
example : strTime "2023-02-29".toList = .err := by decide_cbv

/-! ### C126: CAST of text with a zone to TIMESTAMP -/

/-- The texts of a zone: Z, or the hours and minutes east (+) or west (-) of UTC, or the hours alone.  `o` is the offset in
nanoseconds. -/
def ZoneText (z : List Char) (o : Int) : Prop :=
  (z = ['Z'] ∧ o = 0) ∨
  ∃ (east : Bool) (h m : Nat), h < 24 ∧ m < 60 ∧ o = (if east then 1 else -1) * ((h : Int) * 3600 + m * 60) * 1000000000 ∧
    (z = (if east then '+' else '-') :: (pad 2 h ++ ':' :: pad 2 m) ∨ (m = 0 ∧ z = (if east then '+' else '-') :: pad 2 h))

theorem parseZone_text {z : List Char} {o : Int} (h : ZoneText z o) : parseZone z = some o := by
  rcases h with ⟨rfl, rfl⟩ | ⟨east, h, m, hh, hm, rfl, hz⟩
  · rfl
  · have t1 := fun rest => takeDigits_pad (w := 2) (n := h) (by omega) rest
    have t2 := takeDigits_pad (w := 2) (n := m) (by omega) []
    have t3 := t1 []
    rw [List.append_nil] at t2 t3
    have hcond : ¬ (24 < h ∨ 60 < m) := by omega
    rcases hz with rfl | ⟨rfl, rfl⟩
    · cases east with
      | true =>
        simp only [parseZone, t1, t2, if_true, if_neg hcond, true_or, show ('+' : Char) ≠ 'Z' from by decide, show ('+' : Char) ≠ '-' from by decide, if_false]
        unfold hour minute
        rw [Option.some.injEq]
        omega
      | false =>
        simp only [parseZone, t1, t2, if_true, if_neg hcond, or_true, show ('-' : Char) ≠ 'Z' from by decide, if_false, Bool.false_eq_true]
        unfold hour minute
        rw [Option.some.injEq]
        omega
    · cases east with
      | true =>
        simp only [parseZone, t3, if_true, if_neg hcond, true_or, show ('+' : Char) ≠ 'Z' from by decide, show ('+' : Char) ≠ '-' from by decide, if_false]
        unfold hour minute
        rw [Option.some.injEq]
        omega
      | false =>
        simp only [parseZone, t3, if_true, if_neg hcond, or_true, show ('-' : Char) ≠ 'Z' from by decide, if_false, Bool.false_eq_true]
        unfold hour minute
        rw [Option.some.injEq]
        omega

/-- C126: a text of date, T or a space, time of day and zone is cast to the TIMESTAMP at which the clock in that zone shows this
date and time. -/
theorem C126 (other : List Char → Rat) (t o : Int) (sep : Char) (hs : sep = 'T' ∨ sep = ' ') (z : List Char) (hz : ZoneText z o)
    (h0 : 0 ≤ yearOf (tDay (t + o))) (h1 : yearOf (tDay (t + o)) ≤ 9999) :
    cast other .str (.time .timestamp) false (.str (dateText (t + o) ++ sep :: (clockText 9 (t + o) ++ z))) = .ok (.time .timestamp t) := by
  have hhead : ∃ c r, z = c :: r ∧ (c = 'Z' ∨ c = '+' ∨ c = '-') := by
    rcases hz with ⟨rfl, _⟩ | ⟨east, h, m, _, _, _, rfl | ⟨_, rfl⟩⟩
    · exact ⟨_, _, rfl, .inl rfl⟩
    · exact ⟨_, _, rfl, by cases east <;> simp⟩
    · exact ⟨_, _, rfl, by cases east <;> simp⟩
  obtain ⟨c, r, hzc, hc⟩ := hhead
  rw [cast_str_time]
  have hdt : isDatetime (dateText (t + o) ++ sep :: (clockText 9 (t + o) ++ z)) = false := by
    unfold isDatetime
    rw [dateClasses_text (t + o) h0 h1]
    have hs' : ∀ (ps : List (Char → Bool)) s, matchClasses (sepClass :: ps) (sep :: s) = matchClasses ps s := fun _ _ => by
      rcases hs with rfl | rfl <;> rfl
    have e := clockClasses_text 9 (t + o) [] z
    rw [List.append_nil] at e
    rw [hs', e, hzc]
    simp [matchClasses]
  unfold strTime
  rw [if_neg (by rw [isDate_longer (t + o) h0 h1]; decide), if_neg (by rw [hdt]; decide), if_neg (by rw [isTime_date (t + o) h0 h1]; decide)]
  unfold parseTimestamp
  rw [parseDatePart_text (t + o) _ h0 h1]
  simp only [if_pos hs]
  have hh : ∀ c, z.head? = some c → ¬ (48 ≤ c.toNat ∧ c.toNat ≤ 57) ∧ c ≠ '.' ∧ c ≠ ',' := by
    intro c' hc'
    rw [hzc] at hc'
    simp only [List.head?_cons, Option.some.injEq] at hc'
    subst hc'
    rcases hc with rfl | rfl | rfl <;> decide
  rw [parseClockPart_text (w := 9) (by omega) (t + o) z hh]
  simp only [parseZone_text hz, Option.map_some, Res.ok.injEq]
  have e : tDate (yearOf (tDay (t + o))) (monthOf (tDay (t + o))) (dayOf (tDay (t + o))) 0 0 0 0 = tDay (t + o) * dayNs := by
    unfold tDate
    rw [daysOf_civil]
    omega
  rw [e]
  have := tDay_tod (t + o)
  omega

example : ZoneText ['-', '0', '3', ':', '3', '0'] (-12600000000000) := .inr ⟨false, 3, 30, by decide, by decide, by decide, .inl (by decide)⟩

end Verif.Cast
