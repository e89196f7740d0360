import Verif.Model.Literal
import Verif.Props.Cast
import Verif.Spec.Calendar

/-!
# Literals and parameters: C110, C111
-/

namespace Verif.Literal

open Go Verif.Val Codec Cast

/-! ### C110: literals -/

/-- The documented packing of a DATETIME literal into an integer. -/
def packed (y mo d h mi s us : Nat) : Nat :=
  ((((((y * 2 ^ 4 + mo) * 2 ^ 5 + d) * 2 ^ 5 + h) * 2 ^ 6 + mi) * 2 ^ 6 + s)) * 2 ^ 20 + us

theorem field_eq (b shift w : Nat) : field b shift w = b / 2 ^ shift % 2 ^ w := by
  unfold field
  rw [Nat.shiftRight_and_distrib, Nat.shiftLeft_shiftRight, Nat.and_two_pow_sub_one_eq_mod, Nat.shiftRight_eq_div_pow]

theorem packed_shift (y mo d h mi s us : Nat) (hu : us < 1000000) :
    packed y mo d h mi s us >>> 20 = (((((y * 2 ^ 4 + mo) * 2 ^ 5 + d) * 2 ^ 5 + h) * 2 ^ 6 + mi) * 2 ^ 6 + s) := by
  rw [Nat.shiftRight_eq_div_pow]
  unfold packed
  omega

theorem clock_bound {h mi s us : Nat} (hh : h < 24) (hm : mi < 60) (hs : s < 60) (hu : us < 1000000) :
    0 ≤ (h : Int) * hour + mi * minute + s * sec + us * 1000 ∧ (h : Int) * hour + mi * minute + s * sec + us * 1000 < dayNs := by
  unfold hour minute sec dayNs
  omega

theorem clock_fields {t : Int} {h mi s us : Nat} (hh : h < 24) (hm : mi < 60) (hs : s < 60) (hu : us < 1000000)
    (ht : tod t = (h : Int) * hour + mi * minute + s * sec + us * 1000) : tHour t = h ∧ tMinute t = mi ∧ tSecond t = s ∧ tNano t = us * 1000 := by
  unfold tHour tMinute tSecond tNano
  rw [ht]
  unfold hour minute sec
  omega

/-- C110: the literals of DATE, DATETIME, TIME and TIMESTAMP denote their day, moment or time of day. -/
theorem C110 :
    (∀ days : Int, ∃ t, dateLit days = .time .date t ∧ tDay t = days ∧ tod t = 0) ∧
    (∀ y mo d h mi s us : Nat, y ≤ 9999 → 1 ≤ mo → mo ≤ 12 → 1 ≤ d → (d : Int) ≤ Spec.daysIn y mo → h < 24 → mi < 60 → s < 60 → us < 1000000 →
      ∃ t, datetimeLit (packed y mo d h mi s us) = .time .datetime t ∧
        Spec.civil (tDay t) = { y := y, m := mo, d := d } ∧
        tHour t = h ∧ tMinute t = mi ∧ tSecond t = s ∧ tNano t = us * 1000) ∧
    (∀ h mi s us : Nat, h < 24 → mi < 60 → s < 60 → us < 1000000 →
      ∃ t, timeLit (packed 0 0 0 h mi s us) = .time .time t ∧ tHour t = h ∧ tMinute t = mi ∧ tSecond t = s ∧ tNano t = us * 1000) ∧
    (∀ micros : Int, timestampLit micros = .time .timestamp (micros * 1000)) := by
  refine ⟨?_, ?_, ?_, ?_⟩
  · intro days
    refine ⟨_, rfl, ?_⟩
    unfold tDay tod sec dayNs
    omega
  · intro y mo d h mi s us hy hmo hmo' hd hd' hh hmi hs hu
    have hd31 : d < 32 := by
      have : Spec.daysIn y mo ≤ 31 := by unfold Spec.daysIn; repeat' split <;> first | omega | skip
      omega
    have e : datetimeLit (packed y mo d h mi s us) = .time .datetime (daysOf y mo d * dayNs + ((h : Int) * hour + mi * minute + s * sec + us * 1000)) := by
      unfold datetimeLit
      simp only [field_eq, packed_shift y mo d h mi s us hu]
      have e1 : (((((y * 2 ^ 4 + mo) * 2 ^ 5 + d) * 2 ^ 5 + h) * 2 ^ 6 + mi) * 2 ^ 6 + s) / 2 ^ 26 % 2 ^ 14 = y := by omega
      have e2 : (((((y * 2 ^ 4 + mo) * 2 ^ 5 + d) * 2 ^ 5 + h) * 2 ^ 6 + mi) * 2 ^ 6 + s) / 2 ^ 22 % 2 ^ 4 = mo := by omega
      have e3 : (((((y * 2 ^ 4 + mo) * 2 ^ 5 + d) * 2 ^ 5 + h) * 2 ^ 6 + mi) * 2 ^ 6 + s) / 2 ^ 17 % 2 ^ 5 = d := by omega
      have e4 : (((((y * 2 ^ 4 + mo) * 2 ^ 5 + d) * 2 ^ 5 + h) * 2 ^ 6 + mi) * 2 ^ 6 + s) / 2 ^ 12 % 2 ^ 5 = h := by omega
      have e5 : (((((y * 2 ^ 4 + mo) * 2 ^ 5 + d) * 2 ^ 5 + h) * 2 ^ 6 + mi) * 2 ^ 6 + s) / 2 ^ 6 % 2 ^ 6 = mi := by omega
      have e6 : (((((y * 2 ^ 4 + mo) * 2 ^ 5 + d) * 2 ^ 5 + h) * 2 ^ 6 + mi) * 2 ^ 6 + s) / 2 ^ 0 % 2 ^ 6 = s := by omega
      have e7 : packed y mo d h mi s us / 2 ^ 0 % 2 ^ 20 = us := by unfold packed; omega
      rw [e1, e2, e3, e4, e5, e6, e7]
      unfold tDate
      congr 1
      omega
    have hb := clock_bound hh hmi hs hu
    refine ⟨_, e, ?_, clock_fields hh hmi hs hu (tod_add hb.1 hb.2)⟩
    rw [tDay_add hb.1 hb.2]
    exact Spec.civil_daysOf (by omega) (by omega) (by omega) hd'
  · intro h mi s us hh hmi hs hu
    have e : timeLit (packed 0 0 0 h mi s us) = .time .time (daysOf 0 0 0 * dayNs + ((h : Int) * hour + mi * minute + s * sec + us * 1000)) := by
      unfold timeLit
      simp only [field_eq, packed_shift 0 0 0 h mi s us hu]
      have e4 : (((((0 * 2 ^ 4 + 0) * 2 ^ 5 + 0) * 2 ^ 5 + h) * 2 ^ 6 + mi) * 2 ^ 6 + s) / 2 ^ 12 % 2 ^ 5 = h := by omega
      have e5 : (((((0 * 2 ^ 4 + 0) * 2 ^ 5 + 0) * 2 ^ 5 + h) * 2 ^ 6 + mi) * 2 ^ 6 + s) / 2 ^ 6 % 2 ^ 6 = mi := by omega
      have e6 : (((((0 * 2 ^ 4 + 0) * 2 ^ 5 + 0) * 2 ^ 5 + h) * 2 ^ 6 + mi) * 2 ^ 6 + s) / 2 ^ 0 % 2 ^ 6 = s := by omega
      have e7 : packed 0 0 0 h mi s us / 2 ^ 0 % 2 ^ 20 = us := by unfold packed; omega
      rw [e4, e5, e6, e7]
      unfold tDate
      congr 1
      omega
    have hb := clock_bound hh hmi hs hu
    exact ⟨_, e, clock_fields hh hmi hs hu (tod_add hb.1 hb.2)⟩
  · intro micros
    unfold timestampLit sec
    have : ∀ s : Int, s * 1000000000 + (micros - s * 1000000) * 1000 = micros * 1000 := by intro s; omega
    simp only [this]

/-- DATETIME "2024-02-29 23:59:59.999999" -/
example : datetimeLit (packed 2024 2 29 23 59 59 999999) = .time .datetime (tDate 2024 2 29 23 59 59 999999000) := by rfl

/-! ### C111: parameters -/

mutual
/-- The value a Go argument denotes for a parameter of a type.  Nil and nil pointers are NULL; pointers stand for what they
point to. -/
inductive Denotes : GoArg → Ty → Val → Prop where
  | nil {ty} : Denotes .nil ty .null
  | nilPtr {ty} : Denotes .nilPtr ty .null
  | int {i} : InI64 i → Denotes (.int i) .int (.int i)
  | uint {n : Nat} : InI64 n → Denotes (.uint n) .int (.int n)
  | bool {b} : Denotes (.bool b) .bool (.bool b)
  | str {s} : Denotes (.str s) .str (.str s)
  | bytes {b} : Denotes (.bytes b) .bytes (.bytes b)
  | time {t} : Denotes (.time t) (.time .timestamp) (.time .timestamp t)
  | slice {xs e vs} : DenoteAll xs e vs → Denotes (.slice xs) (.arr e) (.arr vs)
  | struct {ks xs ts vs} : ks.Nodup → (∃ k ∈ ks, k ≠ []) → ks.length = xs.length → DenoteEach xs ts vs → Denotes (.struct ks xs) (.struct ks ts) (.struct ks vs)
  | ptr {x ty v} : Denotes x ty v → Denotes (.ptr x) ty v
/-- Elements of slices. -/
inductive DenoteAll : List GoArg → Ty → List Val → Prop where
  | nil {e} : DenoteAll [] e []
  | cons {x xs e v vs} : Denotes x e v → DenoteAll xs e vs → DenoteAll (x :: xs) e (v :: vs)
/-- Fields of Go structs. -/
inductive DenoteEach : List GoArg → List Ty → List Val → Prop where
  | nil : DenoteEach [] [] []
  | cons {x xs t ts v vs} : Denotes x t v → DenoteEach xs ts vs → DenoteEach (x :: xs) (t :: ts) (v :: vs)
end

/-- C111: a parameter has the value the Go argument denotes, and an unsigned number beyond INT64 is an error. -/
def C111_full : Prop := ∀ other : List Char → Rat,
  (∀ x ty v, Denotes x ty v → param other ty x = .ok v) ∧ (∀ n : Nat, ¬ InI64 n → param other .int (.uint n) = .err)

mutual
/-- No nil pointer. -/
def NoNilPtr : GoArg → Prop
  | .slice xs => NoNilPtrs xs
  | .struct _ xs => NoNilPtrs xs
  | .ptr x => NoNilPtr x
  | .nilPtr => False
  | _ => True
@[inherit_doc NoNilPtr] def NoNilPtrs : List GoArg → Prop
  | [] => True
  | x :: xs => NoNilPtr x ∧ NoNilPtrs xs
end

theorem denoteEach_length {xs ts vs} : DenoteEach xs ts vs → xs.length = vs.length ∧ ts.length = vs.length := by
  intro h
  induction vs generalizing xs ts with
  | nil => cases h; exact ⟨rfl, rfl⟩
  | cons v vs ih => cases h with | cons _ h2 => simp [ih h2]

mutual
theorem param_ok (other : List Char → Rat) : ∀ (x : GoArg) (ty : Ty) (v : Val), NoNilPtr x → Denotes x ty v → ∃ u, fromGo x = .ok u ∧ castValue other ty u = .ok v
  | _, ty, _, _, .nil => ⟨.null, rfl, by simp only [castValue]⟩
  | _, _, _, h, .nilPtr => h.elim
  | .int i, _, _, _, .int _ => ⟨.int i, rfl, rfl⟩
  | .uint n, _, _, _, .uint h => ⟨.int n, by simp only [fromGo, wrap64_eq h], rfl⟩
  | .bool b, _, _, _, .bool => ⟨.bool b, rfl, rfl⟩
  | .str s, _, _, _, .str => ⟨.str s, rfl, rfl⟩
  | .bytes b, _, _, _, .bytes => ⟨.bytes b, rfl, rfl⟩
  | .time t, _, _, _, .time => ⟨.time .timestamp t, rfl, rfl⟩
  | .slice xs, .arr e, .arr vs, hn, .slice h => by
    obtain ⟨us, h1, h2⟩ := params_ok other xs e vs hn h
    exact ⟨.arr us, by simp only [fromGo, h1, Res.bind'_ok], by simp only [castValue, h2, Res.bind'_ok]⟩
  | .struct ks xs, .struct _ ts, .struct _ vs, hn, .struct nd h0 hl h => by
    obtain ⟨us, h1, h2⟩ := fields_ok other xs ts vs hn h
    have hlen := denoteEach_length h
    have hl2 := h2.length
    exact ⟨.struct ks us, by simp only [fromGo, h1, Res.bind'_ok],
      (castStruct_iff other ks ts us _ nd h0 (by omega) (by omega)).2 ⟨vs, rfl, h2⟩⟩
  | .ptr x, ty, v, hn, .ptr h => param_ok other x ty v hn h
theorem params_ok (other : List Char → Rat) : ∀ (xs : List GoArg) (e : Ty) (vs : List Val), NoNilPtrs xs → DenoteAll xs e vs →
    ∃ us, fromGoList xs = .ok us ∧ castAll (castValue other e) us = .ok vs
  | [], _, _, _, .nil => ⟨[], rfl, rfl⟩
  | x :: xs, e, _, hn, .cons (v := v) (vs := vs) h hs => by
    obtain ⟨u, h1, h2⟩ := param_ok other x e v hn.1 h
    obtain ⟨us, h3, h4⟩ := params_ok other xs e vs hn.2 hs
    exact ⟨u :: us, by simp only [fromGoList, h1, h3, Res.bind'_ok], by simp only [castAll, h2, h4, Res.bind'_ok]⟩
theorem fields_ok (other : List Char → Rat) : ∀ (xs : List GoArg) (ts : List Ty) (vs : List Val), NoNilPtrs xs → DenoteEach xs ts vs →
    ∃ us, fromGoList xs = .ok us ∧ Fields1 other ts us vs
  | [], _, _, _, .nil => ⟨[], rfl, .nil⟩
  | x :: xs, _, _, hn, .cons (t := t) (ts := ts) (v := v) (vs := vs) h hs => by
    obtain ⟨u, h1, h2⟩ := param_ok other x t v hn.1 h
    obtain ⟨us, h3, h4⟩ := fields_ok other xs ts vs hn.2 hs
    exact ⟨u :: us, by simp only [fromGoList, h1, h3, Res.bind'_ok], .cons h2 h4⟩
end

/-- C111, partial: right when there is no nil pointer in the argument.  Missing: nil pointers (a panic) and unsigned numbers
beyond INT64, which wrap around. -/
theorem C111_partial (other : List Char → Rat) (x : GoArg) (ty : Ty) (v : Val) (hn : NoNilPtr x) (h : Denotes x ty v) : param other ty x = .ok v := by
  obtain ⟨u, h1, h2⟩ := param_ok other x ty v hn h
  simp only [param, h1, Res.bind'_ok, h2]

/-- A nil pointer. -/
theorem C111_full_false : ¬ C111_full := by
  intro h
  have := (h (fun _ => 0)).1 .nilPtr .int .null .nilPtr
  cases this

/-- uint64(1<<63 + 5) is bound as a negative number. -/
theorem C111_uint_false : ¬ ∀ (other : List Char → Rat) (n : Nat), ¬ InI64 n → param other .int (.uint n) = .err := by
  intro h
  have := h (fun _ => 0) 9223372036854775813 (by decide)
  cases this

example : Denotes (.slice [.ptr (.uint 7), .nil]) (.arr .int) (.arr [.int 7, .null]) ∧ NoNilPtr (.slice [.ptr (.uint 7), .nil]) :=
  ⟨.slice (.cons (.ptr (.uint (by decide))) (.cons .nil .nil)), trivial, trivial, trivial⟩

end Verif.Literal
