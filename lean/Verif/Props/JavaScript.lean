import Verif.Model.JavaScript
import Verif.Props.ParseNumeric

/-! # C229: values that pass through JavaScript functions -/

namespace Verif.JavaScript
open Verif.Go Verif.Val Verif.Cast

/-! ### The text of a fraction -/

theorem value_decNat (n : Nat) : value 10 (decNat n) = n := by
  have h := (parseNat_iff (decNat n) n).1 (parseNat_decNat n)
  exact h.2.2.symm

theorem decNat_zero_head {n : Nat} (h : n ≠ 0) : (decNat n).head? ≠ some '0' := by
  intro hh
  have e := decNat_head0 n hh
  have := value_decNat n
  rw [e] at this
  exact h (by rw [← this]; rfl)

/-- Rat.SetString reads what Rat.String writes. -/
theorem setString_fraction (r : Rat) : RatScan.setString (decInt r.num ++ '/' :: decNat r.den) = (r, true) := by
  have hden : r.den ≠ 0 := r.den_nz
  have key : ∀ (sg : List Char) (σ : Int), Sign sg σ → ∀ n : Nat, n ≠ 0 → RatScan.setString (sg ++ (decNat n ++ '/' :: decNat r.den)) = (mkRat (σ * n) r.den, true) := by
    intro sg σ hsg n hn
    have := ParseNumeric.C226_fraction sg σ hsg (decNat n) (decNat r.den) (decNat_digits n) (decNat_digits _) (decNat_ne_nil _) (decNat_ne_nil _)
      (decNat_zero_head hn) (decNat_zero_head hden) false
    rw [value_decNat, value_decNat] at this
    unfold ParseNumeric.parseNumeric at this
    simp only at this
    split at this
    · rename_i hok
      simp only [Res.ok.injEq, Prod.mk.injEq, and_true] at this
      exact Prod.ext this hok
    · cases this
  by_cases h0 : r.num = 0
  · have hr : r = 0 := Rat.num_eq_zero.1 h0
    subst hr
    decide_cbv
  · by_cases hneg : r.num < 0
    · have e : decInt r.num = '-' :: decNat r.num.natAbs := by unfold decInt; rw [if_pos hneg]
      have := key ['-'] (-1) (.inr (.inr ⟨rfl, rfl⟩)) r.num.natAbs (by omega)
      rw [e, List.cons_append]
      rw [List.cons_append, List.nil_append] at this
      rw [this, show (-1 : Int) * (r.num.natAbs : Int) = r.num by omega, Rat.mkRat_self]
    · have e : decInt r.num = decNat r.num.natAbs := by unfold decInt; rw [if_neg hneg]
      have := key [] 1 (.inl ⟨rfl, rfl⟩) r.num.natAbs (by omega)
      rw [e]
      rw [List.nil_append] at this
      rw [this, show (1 : Int) * (r.num.natAbs : Int) = r.num by omega, Rat.mkRat_self]

/-! ### Specification -/

/-- The times of a type: years of four digits, microseconds. -/
def Range : TimeKind → Int → Prop
  | .date, t => 0 ≤ yearOf (tDay t) ∧ yearOf (tDay t) ≤ 9999 ∧ tod t = 0
  | .datetime, t => 0 ≤ yearOf (tDay t) ∧ yearOf (tDay t) ≤ 9999 ∧ tNano t % 1000 = 0
  | .time, t => t = tDate 0 1 1 0 0 0 0 + tod t ∧ tNano t % 1000 = 0
  | .timestamp, t => 0 ≤ yearOf (tDay t) ∧ yearOf (tDay t) ≤ 9999 ∧ tNano t % 1000 = 0

/-- The values of a type. -/
def Typed : Ty → Val → Prop
  | _, .null => True
  | .int, .int i => InI64 i
  | .bool, .bool _ => True
  | .str, .str _ => True
  | .bytes, .bytes _ => True
  | .num big, .num _ b => b = big
  | .time k, .time k' t => k = k' ∧ Range k t
  | .arr e, .arr vs => ∀ v ∈ vs, Typed e v
  | _, _ => False

/-- C229 at full strength: the function `return x` returns its argument, whatever its type and value, NULL included. -/
def C229_full : Prop := ∀ g : Goja, g.Lawful → ∀ t v, Typed t v → evalJs g List.head? t [v] = .ok v

/-- Types whose values come back from an array. -/
def Kept : Ty → Prop
  | .int | .bool | .str | .bytes | .num _ | .time .date | .time .datetime | .time .time => True
  | _ => False

theorem elem_kept {e : Ty} (he : Kept e) {v : Val} (hv : Typed e v) : castValue (fun s => (RatScan.setString s).1) e (fromGo (iface v)) = .ok v := by
  cases v with
  | null => simp [iface, fromGo, castValue]
  | int i => cases e <;> first | exact absurd hv id | rfl
  | bool b => cases e <;> first | exact absurd hv id | rfl
  | str s => cases e <;> first | exact absurd hv id | rfl
  | bytes b => cases e <;> first | exact absurd hv id | rfl
  | num r b =>
    cases e <;> first | exact absurd hv id | skip
    rename_i big
    have hb : b = big := hv
    subst hb
    have h1 := ParseNumeric.setString_cast (decInt r.num ++ '/' :: decNat r.den)
    rw [setString_fraction] at h1
    simp only [iface, fromGo, castValue, toRat, h1]
    rfl
  | time k t =>
    cases e <;> first | exact absurd hv id | skip
    rename_i k'
    obtain ⟨hk, hr⟩ := (show k' = k ∧ Range k' t from hv)
    subst hk
    cases k' with
    | date =>
      obtain ⟨h0, h1, h2⟩ := hr
      have := strTime_date t h0 h1
      rw [h2, Int.sub_zero] at this
      simp only [iface, timeString, fromGo, castValue, toTime, this]
      rfl
    | datetime =>
      obtain ⟨h0, h1, h2⟩ := hr
      have := strTime_datetime t h0 h1
      rw [show (10 : Int) ^ (9 - 6) = 1000 from rfl, h2, Int.sub_zero] at this
      simp only [iface, timeString, fromGo, castValue, toTime, this]
      rfl
    | time =>
      obtain ⟨h0, h2⟩ := hr
      have := strTime_time t
      rw [show (10 : Int) ^ (9 - 6) = 1000 from rfl, h2, Int.sub_zero, ← h0] at this
      simp only [iface, timeString, fromGo, castValue, toTime, this]
      rfl
    | timestamp => exact absurd he id
  | arr vs => cases e <;> first | exact absurd hv id | exact absurd he id
  | struct ks vs => cases e <;> first | exact absurd hv id | exact absurd he id

theorem elems_kept {e : Ty} (he : Kept e) : ∀ (vs : List Val), (∀ v ∈ vs, Typed e v) →
    castAll (castValue (fun s => (RatScan.setString s).1) e) (fromGos (ifaces vs)) = .ok vs
  | [], _ => rfl
  | v :: vs, h => by
    rw [ifaces, fromGos, castAll, elem_kept he (h v (by simp)), elems_kept he vs (fun w hw => h w (by simp [hw]))]
    rfl

/-- A time passes as its text. -/
theorem evalJs_time (g : Goja) (k : TimeKind) (t : Int) : evalJs g List.head? (.time k) [.time k t] = castJs g (.time k) (.str (timeString k t)) := by
  unfold evalJs
  rw [List.map_cons, List.map_nil, List.head?_cons, iface, toValue]

theorem castJs_text (g : Goja) (s : List Char) :
    castJs g (.time .date) (.str s) = timeOf .date (parseDate s) ∧ castJs g (.time .datetime) (.str s) = timeOf .datetime (parseDatetimeV s) ∧
    castJs g (.time .time) (.str s) = timeOf .time (parseClock s) ∧ castJs g (.time .timestamp) (.str s) = timeOf .timestamp (parseTimestamp s) :=
  ⟨rfl, rfl, rfl, rfl⟩

/-- C229, partial: `return x` returns its argument if that is a BOOL, a STRING, an INT64 up to 2^53, a DATE, DATETIME or TIME, or an array of such values
or of any INT64, BYTES or NUMERIC with or without NULLs.  Missing: NULL, NUMERIC, TIMESTAMP, larger INT64 (see below); BYTES. -/
theorem C229_partial (g : Goja) :
    (∀ b, evalJs g List.head? .bool [.bool b] = .ok (.bool b)) ∧
    (∀ s, evalJs g List.head? .str [.str s] = .ok (.str s)) ∧
    (∀ i, -(2 ^ 53) ≤ i → i ≤ 2 ^ 53 → evalJs g List.head? .int [.int i] = .ok (.int i)) ∧
    (∀ k t, k ≠ .timestamp → Range k t → evalJs g List.head? (.time k) [.time k t] = .ok (.time k t)) ∧
    (∀ e vs, Kept e → Typed (.arr e) (.arr vs) → evalJs g List.head? (.arr e) [.arr vs] = .ok (.arr vs)) := by
  refine ⟨fun _ => rfl, fun _ => rfl, ?_, ?_, ?_⟩
  · intro i h1 h2
    simp only [evalJs, List.map_cons, List.map_nil, List.head?_cons, iface, toValue, castJs, toInteger]
    rw [if_pos ⟨h1, h2⟩]
  · intro k t hk hr
    rw [evalJs_time]
    cases k with
    | date =>
      obtain ⟨h0, h1, h2⟩ := hr
      have := parseDate_text t h0 h1
      rw [h2, Int.sub_zero] at this
      rw [(castJs_text g _).1, timeString, this, timeOf]
    | datetime =>
      obtain ⟨h0, h1, h2⟩ := hr
      have := parseDatetime_text (w := 6) (by omega) 'T' t h0 h1
      rw [show (10 : Int) ^ (9 - 6) = 1000 from rfl, h2, Int.sub_zero] at this
      rw [(castJs_text g _).2.1, timeString, parseDatetimeV, this, Option.some_or, timeOf]
    | time =>
      obtain ⟨h0, h2⟩ := hr
      have := parseClock_text (w := 6) (by omega) t
      rw [show (10 : Int) ^ (9 - 6) = 1000 from rfl, h2, Int.sub_zero, ← h0] at this
      rw [(castJs_text g _).2.2.1, timeString, this, timeOf]
    | timestamp => exact absurd rfl hk
  · intro e vs he hv
    simp only [evalJs, List.map_cons, List.map_nil, List.head?_cons, iface, toValue, castJs]
    rw [elems_kept he vs hv]
    rfl

/-- Every NUMERIC that passes through JavaScript is 0: it goes in as the text of a fraction, which is not a number there. -/
theorem C229_numeric_lost (g : Goja) (hg : g.Lawful) (r : Rat) (b big : Bool) : evalJs g List.head? (.num big) [.num r b] = .ok (.num 0 false) := by
  simp only [evalJs, List.map_cons, List.map_nil, List.head?_cons, iface, toValue, castJs, numberText]
  rw [hg _ (by simp)]
  rfl

/-- A TIMESTAMP loses its fraction of a second. -/
theorem C229_timestamp (g : Goja) (t : Int) (h0 : 0 ≤ yearOf (tDay t)) (h1 : yearOf (tDay t) ≤ 9999) :
    evalJs g List.head? (.time .timestamp) [.time .timestamp t] = .ok (.time .timestamp (t - tNano t)) := by
  have := parseTimestamp_text (w := 0) (by omega) t h0 h1 ['Z'] (.inr rfl)
  have hn : tNano t % 10 ^ (9 - 0) = tNano t := by
    have : 0 ≤ tNano t ∧ tNano t < 1000000000 := by unfold tNano tod sec dayNs; omega
    rw [show (10 : Int) ^ (9 - 0) = 1000000000 from rfl]
    omega
  rw [hn] at this
  rw [evalJs_time, (castJs_text g _).2.2.2, timeString, this, timeOf]

/-- No JavaScript function of a scalar type ever returns NULL, whatever its body and its arguments. -/
theorem C229_never_null (g : Goja) (code : List JS → Option JS) (args : List Val) (t : Ty) (ht : ∀ e, t ≠ .arr e) : evalJs g code t args ≠ .ok .null := by
  unfold evalJs
  cases code (args.map fun v => toValue g (iface v)) with
  | none => intro h; cases h
  | some r =>
    simp only
    have htime : ∀ k o, timeOf k o ≠ .ok .null := by
      intro k o h
      cases o <;> cases h
    cases t with
    | arr e => exact absurd rfl (ht e)
    | time k => cases k <;> exact htime _ _
    | _ => intro h; simp [castJs] at h

/-- Nor a BIGNUMERIC. -/
theorem C229_never_bignumeric (g : Goja) (code : List JS → Option JS) (args : List Val) (q : Rat) : evalJs g code (.num true) args ≠ .ok (.num q true) := by
  unfold evalJs
  cases code (args.map fun v => toValue g (iface v)) with
  | none => intro h; cases h
  | some r => intro h; simp [castJs] at h

/-- What null becomes: 0, FALSE, the text `null`; for an array the process dies. -/
theorem C229_null (g : Goja) :
    evalJs g List.head? .int [.null] = .ok (.int 0) ∧ evalJs g List.head? .bool [.null] = .ok (.bool false) ∧
    evalJs g List.head? .str [.null] = .ok (.str "null".toList) ∧ evalJs g List.head? (.num false) [.null] = .ok (.num 0 false) ∧
    (∀ k, evalJs g List.head? (.time k) [.null] = .err) ∧ (∀ e, evalJs g List.head? (.arr e) [.null] = .panic) := by
  refine ⟨rfl, rfl, rfl, rfl, ?_, fun _ => rfl⟩
  intro k
  cases k <;> rfl

/-- What a function without `return` gives, whatever its arguments: 0, FALSE, the text `undefined`; times are errors, an array dies. -/
theorem C229_undefined (g : Goja) (args : List Val) :
    evalJs g (fun _ => some .undefined) .int args = .ok (.int 0) ∧ evalJs g (fun _ => some .undefined) .bool args = .ok (.bool false) ∧
    evalJs g (fun _ => some .undefined) .str args = .ok (.str "undefined".toList) ∧ evalJs g (fun _ => some .undefined) (.num false) args = .ok (.num 0 false) ∧
    (∀ k, evalJs g (fun _ => some .undefined) (.time k) args = .err) ∧ (∀ e, evalJs g (fun _ => some .undefined) (.arr e) args = .panic) := by
  refine ⟨rfl, rfl, rfl, rfl, ?_, fun _ => rfl⟩
  intro k
  cases k <;> rfl

/-- What values of other types than the declared one become: TRUE is 1, numbers are TRUE unless they are 0, texts unless they are empty. -/
theorem C229_convert (g : Goja) (b : Bool) (i : Int) (s : List Char) (h1 : -(2 ^ 53) ≤ i) (h2 : i ≤ 2 ^ 53) :
    evalJs g List.head? .int [.bool b] = .ok (.int (if b = true then 1 else 0)) ∧ evalJs g List.head? .bool [.int i] = .ok (.bool (decide (i ≠ 0))) ∧
    evalJs g List.head? .bool [.str s] = .ok (.bool (decide (s ≠ []))) ∧ evalJs g List.head? .str [.int i] = .ok (.str (decInt i)) ∧
    evalJs g List.head? .str [.bool b] = .ok (.str (if b = true then "true".toList else "false".toList)) := by
  have e : toValue g (.int i) = .num i := by rw [toValue, if_pos ⟨h1, h2⟩]
  have one : ∀ t v, evalJs g List.head? t [v] = castJs g t (toValue g (iface v)) := fun _ _ => rfl
  have st : ∀ v, castJs g .str v = .ok (.str (toText g v)) := fun v => by cases v <;> rfl
  have ei : iface (.int i) = .int i := by rw [iface]
  have es : toValue g (iface (.str s)) = .str s := by rw [iface, toValue]
  have eb : toValue g (iface (.bool b)) = .bool b := by rw [iface, toValue]
  refine ⟨?_, ?_, ?_, ?_, ?_⟩
  · rw [one, eb, castJs, toInteger]
  · rw [one, ei, e, castJs, toBoolean]
  · rw [one, es, castJs, toBoolean]
  · rw [one, ei, e]
    exact (st _).trans (congrArg (fun t => Res.ok (Val.str t)) rfl)
  · rw [one, eb]
    exact (st _).trans (congrArg (fun t => Res.ok (Val.str t)) rfl)

/-- A function declared to return an array dies unless it returns one. -/
theorem C229_array_panics (g : Goja) (code : List JS → Option JS) (args : List Val) (e : Ty) (r : JS)
    (hr : code (args.map fun v => toValue g (iface v)) = some r) (hl : ∀ vs, r ≠ .wrapped (.list vs)) : evalJs g code (.arr e) args = .panic := by
  unfold evalJs
  rw [hr]
  simp only
  unfold castJs
  split <;> first | rfl | skip
  all_goals simp_all

/-- Some engine. -/
def demo : Goja where
  round i := i
  strInteger _ := 0
  objInteger _ := 0
  strNumber s := if '/' ∈ s then "NaN".toList else s
  objNumber _ := "NaN".toList
  objText _ := []

theorem demo_lawful : demo.Lawful := by
  intro s hs
  unfold demo
  dsimp only
  rw [if_pos hs]
  rfl

/-- NUMERIC 1.5 comes back as 0. -/
theorem C229_full_false : ¬ C229_full := by
  intro h
  have := h demo demo_lawful (.num false) (.num (mkRat 3 2) false) rfl
  rw [C229_numeric_lost demo demo_lawful] at this
  simp only [Res.ok.injEq, Val.num.injEq, and_true] at this
  revert this
  decide_cbv

example : Typed (.arr (.num true)) (.arr [.num (mkRat 3 2) true, .null]) := by
  intro v hv
  simp only [List.mem_cons, List.not_mem_nil, or_false] at hv
  rcases hv with rfl | rfl <;> simp [Typed]
example : Range .datetime (tDate 2024 2 29 12 0 0 5000) := by unfold Range; decide_cbv

end Verif.JavaScript
