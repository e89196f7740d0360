import Verif.Props.Printable
import Verif.Props.Cast

/-!
# C278: FORMAT('%t', v) can be cast back
-/

namespace Verif.Printable

open Go Verif.Val Codec ToJson
open Cast (Ty Scalar SameValue isDatetime isDate isTime strTime castValue toStr toTime matchClasses sepClass)

/-- The values C278 is about: those of C94 and BYTES. -/
def Castable : Ty → Val → Prop
  | .bytes, .bytes _ => True
  | ty, v => Scalar ty v

/-- C278: CAST of the text FORMAT('%t', v) to the type of v gives v. -/
def C278_full : Prop := ∀ (P : ToJson.Print) (other : List Char → Rat) (ty : Ty) (v : Val), Castable ty v →
  ∃ s w, formatV P ['%', 't'] [v] = .ok (.str s) ∧ Cast.cast other .str ty false (.str s) = .ok w ∧ SameValue v w

theorem format_t (P : ToJson.Print) (v : Val) (hv : v.isNull = false) : formatV P ['%', 't'] [v] = .ok (.str (text P false v)) := by
  have hd : Format.directive ['t'] = .ok ({ flag := .none, width := .absent, precision := .absent, spec := 't' }, []) := rfl
  simp only [formatV, List.any_cons, List.any_nil, hv, Bool.or_false, Bool.false_eq_true, if_false, Format.format, Format.run, List.length_cons,
    List.length_nil, if_true, hd, Res.bind'_ok]
  have hr : Format.required { flag := .none, width := .absent, precision := .absent, spec := 't' } = 1 := rfl
  have hval : Format.validate { flag := .none, width := .absent, precision := .absent, spec := 't' } [v] = .ok () := by
    show Format.fits 't' v = .ok ()
    have : Format.fits 't' v = if v.isNull then .panic else .ok () := rfl
    rw [this, hv]; rfl
  have hc : Format.convert (ext P) { flag := .none, width := .absent, precision := .absent, spec := 't' } [v] = .ok (text P false v) := by
    cases v <;> rfl
  simp only [hr, List.take, hval, hc, Res.bind'_ok, Nat.lt_irrefl, Nat.zero_add, if_false, List.append_nil]

/-- C278, partial: right for INT64, BOOL, STRING, NUMERIC, BIGNUMERIC, DATE, DATETIME and TIME.  The text is the one of CAST to STRING.  Missing:
BYTES and TIMESTAMP, see below. -/
theorem C278_partial (P : ToJson.Print) (other : List Char → Rat) (ty : Ty) (v : Val) (h : Scalar ty v) (hts : ty ≠ .time .timestamp) :
    ∃ s w, formatV P ['%', 't'] [v] = .ok (.str s) ∧ Cast.cast other ty .str false v = .ok (.str s) ∧ Cast.cast other .str ty false (.str s) = .ok w ∧ SameValue v w := by
  obtain ⟨s, w, h1, h2, h3⟩ := Cast.C94 other ty v h
  have hn : v.isNull = false := by cases v <;> first | rfl | (cases ty <;> simp [Scalar] at h)
  refine ⟨s, w, ?_, h1, h2, h3⟩
  rw [format_t P v hn]
  have : Cast.cast other ty .str false v = .ok (.str (text P false v)) := by
    cases ty <;> cases v <;> try (exfalso; simp [Scalar] at h; done)
    case int.int => rfl
    case bool.bool => rfl
    case str.str => rfl
    case num.num big r big' =>
      have : big = big' := by cases big <;> cases big' <;> first | rfl | exact h.elim
      subst this
      rfl
    case time.time k k' t =>
      cases k <;> cases k' <;> first | exact absurd rfl hts | exact h.elim | rfl
  rw [this] at h1
  cases h1
  rfl

theorem isDatetime_zone (t : Int) (h0 : 0 ≤ yearOf (tDay t)) (h1 : yearOf (tDay t) ≤ 9999) : isDatetime (timeText .timestamp t) = false := by
  show isDatetime (dateText t ++ ' ' :: (clockText 0 t ++ ['+', '0', '0'])) = false
  unfold isDatetime
  rw [Cast.dateClasses_text t h0 h1]
  have hs : ∀ (ps : List (Char → Bool)) s, matchClasses (sepClass :: ps) (' ' :: s) = matchClasses ps s := fun _ _ => rfl
  have e := Cast.clockClasses_text 0 t [] ['+', '0', '0']
  rw [List.append_nil] at e
  rw [hs, e]
  simp [matchClasses]

/-- **C278** TIMESTAMP: right exactly for whole seconds. -/
theorem C278_timestamp_iff (P : ToJson.Print) (other : List Char → Rat) (t : Int) (h0 : 1 ≤ yearOf (tDay t)) (h1 : yearOf (tDay t) ≤ 9999) :
    (∃ s, formatV P ['%', 't'] [.time .timestamp t] = .ok (.str s) ∧
      Cast.cast other .str (.time .timestamp) false (.str s) = .ok (.time .timestamp t)) ↔ t % 1000000000 = 0 := by
  have hc : Cast.cast other .str (.time .timestamp) false (.str (timeText .timestamp t)) = .ok (.time .timestamp (t - tNano t)) := by
    have : strTime (timeText .timestamp t) = .ok (t - tNano t) := by
      unfold strTime
      have hd := Cast.isDate_longer t (by omega) h1 ' ' (clockText 0 t ++ ['+', '0', '0'])
      have ht := Cast.isTime_date t (by omega) h1 (' ' :: (clockText 0 t ++ ['+', '0', '0']))
      rw [if_neg (show ¬ isDate (timeText .timestamp t) = true by rw [show timeText .timestamp t = dateText t ++ ' ' :: (clockText 0 t ++ ['+', '0', '0']) from rfl, hd]; decide),
        if_neg (by rw [isDatetime_zone t (by omega) h1]; decide),
        if_neg (show ¬ isTime (timeText .timestamp t) = true by rw [show timeText .timestamp t = dateText t ++ ' ' :: (clockText 0 t ++ ['+', '0', '0']) from rfl, ht]; decide),
        parse_ts t (by omega) h1]
    simp [Cast.cast, castValue, toStr, toTime, this]
  have e : text P false (.time .timestamp t) = timeText .timestamp t := rfl
  rw [← nano_zero]
  constructor
  · rintro ⟨s, hs, h⟩
    rw [format_t P _ rfl, e] at hs
    cases hs
    rw [hc] at h
    have h : t - tNano t = t := by injection h with h; injection h
    omega
  · intro h
    exact ⟨_, by rw [format_t P _ rfl, e], by rw [hc, h, Int.sub_zero]⟩

theorem byteText_length (b : List UInt8) : b.length ≤ (printed b).length ∧
    ((printed b).length ≤ b.length → ∀ x ∈ b, 32 ≤ x.toNat ∧ x.toNat ≤ 126) := by
  induction b with
  | nil => simp [printed]
  | cons x b ih =>
    simp only [printed, List.flatMap_cons, List.length_append, List.length_cons] at ih ⊢
    by_cases hx : 32 ≤ x.toNat ∧ x.toNat ≤ 126
    · rw [byteText_shown hx]
      simp only [List.length_singleton]
      refine ⟨by omega, ?_⟩
      intro h y hy
      rcases List.mem_cons.1 hy with rfl | hy
      · exact hx
      · exact ih.2 (by omega) y hy
    · rw [byteText_hidden hx]
      simp only [List.length_cons, List.length_nil]
      refine ⟨by omega, ?_⟩
      intro h
      omega

theorem utf8_printed : ∀ (b : List UInt8), (∀ x ∈ b, 32 ≤ x.toNat ∧ x.toNat ≤ 126) → utf8 (printed b) = b
  | [], _ => rfl
  | x :: b, h => by
    have hx := h x (by simp)
    simp only [printed, List.flatMap_cons, byteText_shown hx, List.singleton_append, utf8_cons]
    rw [enc_ascii (by rw [ofNat_toNat (by omega)]; omega), ofNat_toNat (by omega), UInt8.ofNat_toNat]
    simp only [List.singleton_append, List.cons.injEq, true_and]
    exact utf8_printed b fun y hy => h y (by simp [hy])

/-- **C278** BYTES: right exactly if all bytes are printable ASCII. -/
theorem C278_bytes_iff (P : ToJson.Print) (other : List Char → Rat) (b : List UInt8) :
    (∃ s, formatV P ['%', 't'] [.bytes b] = .ok (.str s) ∧ Cast.cast other .str .bytes false (.str s) = .ok (.bytes b)) ↔
      ∀ x ∈ b, 32 ≤ x.toNat ∧ x.toNat ≤ 126 := by
  have e : text P false (.bytes b) = printed b := rfl
  have hc : Cast.cast other .str .bytes false (.str (printed b)) = .ok (.bytes (utf8 (printed b))) := rfl
  constructor
  · rintro ⟨s, hs, h⟩
    rw [format_t P _ rfl, e] at hs
    cases hs
    rw [hc] at h
    have h : utf8 (printed b) = b := by injection h with h; injection h
    have hl := utf8_length (printed b)
    rw [h] at hl
    exact (byteText_length b).2 hl
  · intro h
    exact ⟨_, by rw [format_t P _ rfl, e], by rw [hc, utf8_printed b h]⟩

/-- FORMAT('%t', b'\x00') is the text `\x00`. -/
theorem C278_full_false : ¬ C278_full := by
  intro h
  obtain ⟨s, w, h1, h2, h3⟩ := h ⟨fun c => decide (32 ≤ c.toNat ∧ c.toNat < 127), fun _ _ => rfl⟩ (fun _ => 0) .bytes (.bytes [0]) trivial
  have := (C278_bytes_iff ⟨fun c => decide (32 ≤ c.toNat ∧ c.toNat < 127), fun _ _ => rfl⟩ (fun _ => 0) [0]).1 ⟨s, h1, by rw [h2, show w = .bytes [0] from h3]⟩ 0 (by simp)
  revert this
  decide

example : Scalar (.num false) (.num (mkRat 15 (10 ^ 9)) false) ∧ Ty.num false ≠ .time .timestamp := ⟨⟨_, rfl⟩, by intro h; cases h⟩

end Verif.Printable
