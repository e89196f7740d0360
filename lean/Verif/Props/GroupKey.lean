import Verif.Model.GroupKey
import Verif.Lemmas.Cast
import Verif.Props.Codec

/-!
# C284: GROUP BY tells keys apart
-/

namespace Verif.GroupKey

open Go Verif.Val Codec Cast

/-- Two values of one type, or NULLs, as they are stored: times in microseconds and the years 1 to 9999. -/
inductive Same : Val → Val → Prop where
  | nulls : Same .null .null
  | int (i j) : Same (.int i) (.int j)
  | bool (p q) : Same (.bool p) (.bool q)
  | str (s t) : Same (.str s) (.str t)
  | bytes (a b) : Same (.bytes a) (.bytes b)
  | num (r q big) : Same (.num r big) (.num q big)
  | time (k t u) : (k = .date → tod t = 0 ∧ tod u = 0) → t % 1000 = 0 → u % 1000 = 0 →
      (k ≠ .time → 1 ≤ yearOf (tDay t) ∧ yearOf (tDay t) ≤ 9999 ∧ 1 ≤ yearOf (tDay u) ∧ yearOf (tDay u) ≤ 9999) → Same (.time k t) (.time k u)
  | nullStr (s) : Same .null (.str s)
  | nullInt (i) : Same .null (.int i)
  | nullBool (p) : Same .null (.bool p)
  | nullBytes (b) : Same .null (.bytes b)
  | nullNum (r big) : Same .null (.num r big)
  | nullTime (k t) : Same .null (.time k t)

/-- The same value; of TIME values the time of day counts. -/
def Eql : Val → Val → Prop
  | .time .time t, .time .time u => tod t = tod u
  | a, b => a = b

/-- C284: GROUP BY and DISTINCT take two rows together if and only if their keys are the same value. -/
def C284_full : Prop := ∀ a b : Val, Same a b → ∃ x y, groupKey a = .ok x ∧ groupKey b = .ok y ∧ (x = y ↔ Eql a b)

/-- Which keys GROUP BY takes together. -/
def Together : Val → Val → Prop
  | .str s, .str t => ∃ p a b, Char.ofNat 0 ∉ p ∧ (s = p ++ a ∧ (a = [] ∨ a.head? = some (Char.ofNat 0))) ∧ (t = p ++ b ∧ (b = [] ∨ b.head? = some (Char.ofNat 0)))
  | .null, .bytes b => b = []
  | .time .timestamp t, .time .timestamp u => t / 1000000000 = u / 1000000000
  | a, b => Eql a b

theorem cstring_spec : ∀ s : List Char, ∃ a, s = cstring s ++ a ∧ (a = [] ∨ a.head? = some (Char.ofNat 0)) ∧ Char.ofNat 0 ∉ cstring s
  | [] => ⟨[], rfl, Or.inl rfl, by simp [cstring]⟩
  | c :: s => by
    by_cases h : c = Char.ofNat 0
    · subst h
      exact ⟨Char.ofNat 0 :: s, by simp [cstring], Or.inr rfl, by simp [cstring]⟩
    · obtain ⟨a, h1, h2, h3⟩ := cstring_spec s
      have e : cstring (c :: s) = c :: cstring s := by simp [cstring, h]
      refine ⟨a, by rw [e, List.cons_append, ← h1], h2, ?_⟩
      rw [e]
      simp only [List.mem_cons, not_or]
      exact ⟨fun h' => h h'.symm, h3⟩

theorem cstring_prefix : ∀ (p a : List Char), Char.ofNat 0 ∉ p → (a = [] ∨ a.head? = some (Char.ofNat 0)) → cstring (p ++ a) = p
  | [], a, _, h => by
    rcases h with rfl | h
    · rfl
    · cases a with
      | nil => rfl
      | cons c a =>
        simp only [List.head?_cons, Option.some.injEq] at h
        subst h
        simp [cstring]
  | c :: p, a, hp, h => by
    simp only [List.mem_cons, not_or] at hp
    have ih := cstring_prefix p a hp.2 h
    have hc : c ≠ Char.ofNat 0 := fun e => hp.1 e.symm
    have e : cstring (c :: (p ++ a)) = c :: cstring (p ++ a) := by simp [cstring, hc]
    rw [List.cons_append, e, ih]

theorem rat_text_inj {r q : Rat} (h : decInt r.num ++ '/' :: decNat r.den = decInt q.num ++ '/' :: decNat q.den) : r = q := by
  have h1 := takeWhile_stop (p := fun c => decide (c ≠ '/')) (m := decNat r.den) (decInt_no_slash r.num) (by decide : decide (('/' : Char) ≠ '/') = false)
  have h2 := takeWhile_stop (p := fun c => decide (c ≠ '/')) (m := decNat q.den) (decInt_no_slash q.num) (by decide : decide (('/' : Char) ≠ '/') = false)
  rw [h] at h1
  have hn : r.num = q.num := decInt_injective (h1.1.symm.trans h2.1)
  have hd := h1.2.symm.trans h2.2
  simp only [List.cons.injEq, true_and] at hd
  have hd' := congrArg (digitsVal 0) hd
  rw [digitsVal_decNat, digitsVal_decNat, Option.some.injEq] at hd'
  exact Rat.ext hn hd'

theorem seconds_eq (t : Int) : clockText 9 (t / 1000000000 * 1000000000) = seconds t := by
  have e : tod (t / 1000000000 * 1000000000) / 1000000000 = tod t / 1000000000 := by unfold tod dayNs; omega
  have h0 : tNano (t / 1000000000 * 1000000000) = 0 := by unfold tNano tod dayNs sec; omega
  have hf : fracText 9 (t / 1000000000 * 1000000000) = [] := by
    unfold fracText
    rw [h0]
    rfl
  have h1 : tHour (t / 1000000000 * 1000000000) = tHour t := by unfold tHour hour; omega
  have h2 : tMinute (t / 1000000000 * 1000000000) = tMinute t := by unfold tMinute hour minute; omega
  have h3 : tSecond (t / 1000000000 * 1000000000) = tSecond t := by unfold tSecond minute sec; omega
  unfold clockText seconds
  rw [hf, h1, h2, h3, List.append_nil]

theorem date_floor (t : Int) : tDay (t / 1000000000 * 1000000000) = tDay t := by
  unfold tDay dayNs
  omega

theorem timestamp_text (t : Int) : dateText t ++ 'T' :: (seconds t ++ ['Z']) =
    dateText (t / 1000000000 * 1000000000) ++ 'T' :: (clockText 9 (t / 1000000000 * 1000000000) ++ ['Z']) := by
  rw [seconds_eq]
  unfold dateText
  rw [date_floor]

theorem clock_tod (t u : Int) (h : tod t = tod u) : clockText 6 t = clockText 6 u := by
  simp only [clockText, fracText, tHour, tMinute, tSecond, tNano, h]

/-- **C284** exactly: TIMESTAMP keys are taken together if they are in the same second, STRING keys if they agree up to the first NUL, empty BYTES are
taken together with NULL; all other keys of the model only if they are the same. -/
theorem C284_iff (a b : Val) (h : Same a b) : ∃ x y, groupKey a = .ok x ∧ groupKey b = .ok y ∧ (x = y ↔ Together a b) := by
  cases h with
  | nulls => exact ⟨_, _, rfl, rfl, by simp [Together, Eql]⟩
  | int i j => exact ⟨_, _, rfl, rfl, by simp [Together, Eql]⟩
  | bool p q => exact ⟨_, _, rfl, rfl, by cases p <;> cases q <;> simp [Together, Eql]⟩
  | str s t =>
    refine ⟨_, _, rfl, rfl, ?_⟩
    simp only [Key.text.injEq, Together]
    constructor
    · intro e
      obtain ⟨a, h1, h2, h3⟩ := cstring_spec s
      obtain ⟨b, h4, h5, _⟩ := cstring_spec t
      refine ⟨cstring s, a, b, h3, ⟨h1, h2⟩, ?_, h5⟩
      rw [e]
      exact h4
    · rintro ⟨p, a, b, hp, ⟨rfl, ha⟩, rfl, hb⟩
      rw [cstring_prefix p a hp ha, cstring_prefix p b hp hb]
  | bytes x y =>
    refine ⟨_, _, rfl, rfl, ?_⟩
    simp only [Together, Eql, Val.bytes.injEq]
    by_cases hx : x = [] <;> by_cases hy : y = []
    · simp [hx, hy]
    · simp [hx, hy, eq_comm]
    · simp [hx, hy]
    · simp [hx, hy]
  | num r q big =>
    refine ⟨_, _, rfl, rfl, ?_⟩
    simp only [Key.text.injEq, Together, Eql, Val.num.injEq, and_true]
    exact ⟨rat_text_inj, fun e => by rw [e]⟩
  | time k t u hd ht hu hy =>
    cases k with
    | date =>
      refine ⟨_, _, rfl, rfl, ?_⟩
      have hy := hy (by decide)
      have hd := hd rfl
      simp only [Key.text.injEq, Together, Eql, Val.time.injEq, true_and, timeText]
      refine ⟨fun e => ?_, fun e => by rw [e]⟩
      have h1 := strTime_date t (by omega) hy.2.1
      have h2 := strTime_date u (by omega) hy.2.2.2
      rw [e, h2] at h1
      injection h1 with h1
      omega
    | datetime =>
      refine ⟨_, _, rfl, rfl, ?_⟩
      have hy := hy (by decide)
      simp only [Key.text.injEq, Together, Eql, Val.time.injEq, true_and, timeText]
      refine ⟨fun e => ?_, fun e => by rw [e]⟩
      have h1 := strTime_datetime t (by omega) hy.2.1
      have h2 := strTime_datetime u (by omega) hy.2.2.2
      rw [e, h2, tod_us t ht, tod_us u hu] at h1
      injection h1 with h1
      omega
    | time =>
      refine ⟨_, _, rfl, rfl, ?_⟩
      simp only [Key.text.injEq, Together, Eql, timeText]
      refine ⟨fun e => ?_, clock_tod t u⟩
      have h1 := strTime_time t
      have h2 := strTime_time u
      rw [e, h2, tod_us t ht, tod_us u hu] at h1
      injection h1 with h1
      omega
    | timestamp =>
      refine ⟨_, _, rfl, rfl, ?_⟩
      have hy := hy (by decide)
      simp only [Key.text.injEq, Together]
      rw [timestamp_text t, timestamp_text u]
      refine ⟨fun e => ?_, fun e => by rw [e]⟩
      have h1 := strTime_timestamp (t / 1000000000 * 1000000000) (by rw [date_floor]; omega) (by rw [date_floor]; omega)
      have h2 := strTime_timestamp (u / 1000000000 * 1000000000) (by rw [date_floor]; omega) (by rw [date_floor]; omega)
      rw [e, h2] at h1
      injection h1 with h1
      omega
  | nullStr s => exact ⟨_, _, rfl, rfl, by simp [Together, Eql]⟩
  | nullInt i => exact ⟨_, _, rfl, rfl, by simp [Together, Eql]⟩
  | nullBool p => exact ⟨_, _, rfl, rfl, by simp [Together, Eql]⟩
  | nullBytes b =>
    refine ⟨_, _, rfl, rfl, ?_⟩
    by_cases hb : b = [] <;> simp [Together, hb]
  | nullNum r big => exact ⟨_, _, rfl, rfl, by simp [Together, Eql]⟩
  | nullTime k t => cases k <;> exact ⟨_, _, rfl, rfl, by simp [Together, Eql]⟩

/-- C284, partial: right for INT64, BOOL, NUMERIC, DATE, DATETIME and TIME, for STRING without NUL, for BYTES beside BYTES and for TIMESTAMP in whole
seconds. -/
theorem C284_partial (a b : Val) (h : Same a b) (hs : ∀ s, a = .str s ∨ b = .str s → Char.ofNat 0 ∉ s) (hb : a = .null → b ≠ .bytes [])
    (ht : ∀ t, a = .time .timestamp t ∨ b = .time .timestamp t → t % 1000000000 = 0) :
    ∃ x y, groupKey a = .ok x ∧ groupKey b = .ok y ∧ (x = y ↔ Eql a b) := by
  obtain ⟨x, y, h1, h2, h3⟩ := C284_iff a b h
  refine ⟨x, y, h1, h2, h3.trans ?_⟩
  clear h1 h2 h3
  cases h with
  | str s t =>
    have h1 := hs s (Or.inl rfl)
    have h2 := hs t (Or.inr rfl)
    simp only [Together, Eql, Val.str.injEq]
    constructor
    · rintro ⟨p, c, d, _, ⟨rfl, hc⟩, rfl, hd⟩
      have h0 : ∀ {p e : List Char}, Char.ofNat 0 ∉ p ++ e → (e = [] ∨ e.head? = some (Char.ofNat 0)) → e = [] := by
        intro p e hn he
        rcases he with rfl | he
        · rfl
        · cases e with
          | nil => rfl
          | cons z e =>
            simp only [List.head?_cons, Option.some.injEq] at he
            subst he
            simp at hn
      rw [h0 h1 hc, h0 h2 hd]
    · rintro rfl
      exact ⟨s, [], [], h1, ⟨by simp, Or.inl rfl⟩, by simp, Or.inl rfl⟩
  | time k t u _ _ _ _ =>
    cases k with
    | timestamp =>
      have h1 := ht t (Or.inl rfl)
      have h2 := ht u (Or.inr rfl)
      simp only [Together, Eql, Val.time.injEq, true_and]
      omega
    | _ => simp [Together]
  | nullBytes b =>
    have := hb rfl
    simp only [Together, Eql]
    constructor
    · rintro rfl
      exact absurd rfl this
    · intro e
      cases e
  | _ => simp [Together]

/-- Two timestamps half a second apart. -/
theorem C284_full_false : ¬ C284_full := by
  intro h
  have hs : Same (.time .timestamp 0) (.time .timestamp 500000000) := .time _ _ _ (by simp) (by decide) (by decide) (fun _ => by decide +kernel)
  obtain ⟨x, y, h1, h2, h3⟩ := h _ _ hs
  obtain ⟨x', y', h4, h5, h6⟩ := C284_iff _ _ hs
  rw [h1] at h4
  rw [h2] at h5
  cases h4
  cases h5
  have e := h3.1 (h6.2 (by simp [Together]))
  simp [Eql] at e

example : groupKey (.time .timestamp 500000000) = .ok (.text "1970-01-01T00:00:00Z".toList) := by decide_cbv
example : groupKey (.str ['a', Char.ofNat 0, 'b']) = .ok (.text ['a']) := rfl

/-- The same FLOAT64 or both NULL: equal numbers are, the two zeros among them, and NaN is the same as NaN. -/
def EqlF : Option F64 → Option F64 → Prop
  | none, none => True
  | some .nan, some .nan => True
  | some (.inf s), some (.inf t) => s = t
  | some (.fin s a), some (.fin t b) => a = b ∧ (a = 0 ∨ s = t)
  | _, _ => False

/-- **C284** for FLOAT64, exactly: keys are taken together if and only if they are the same or one is NULL and the other NaN. -/
theorem C284_float_iff (x y : Option F64) : sameKey (floatKey x) (floatKey y) = true ↔
    EqlF x y ∨ x = none ∧ y = some .nan ∨ x = some .nan ∧ y = none := by
  rcases x with _ | ⟨s, a⟩ | s | _ <;> rcases y with _ | ⟨t, b⟩ | t | _ <;>
    simp [floatKey, FloatCodec.sqlite, sameKey, EqlF, F64.eq]
  cases s <;> cases t <;> simp [F64.sval] <;> omega

example : sameKey (floatKey none) (floatKey (some .nan)) = true := rfl

/-- **C284** Arrays and structs are no keys: the query fails. -/
theorem C284_nested (ks : List (List Char)) (vs : List Val) : groupKey (.arr vs) = .err ∧ groupKey (.struct ks vs) = .err := ⟨rfl, rfl⟩

end Verif.GroupKey
