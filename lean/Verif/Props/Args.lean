import Verif.Model.Args
import Verif.Props.Codec
import Verif.Props.Float
import Verif.Props.Printable

/-!
# C285: functions get the arguments they are called with
-/

namespace Verif.Args

open Go Verif.Val Codec ToJson

/-- Values of scalar types as queries have them: INT64 in range, times in microseconds and the years 1 to 9999, a TIME on day zero. -/
inductive Scalar : Val → Prop where
  | null : Scalar .null
  | int (i) : InI64 i → Scalar (.int i)
  | bool (b) : Scalar (.bool b)
  | str (s) : Scalar (.str s)
  | bytes (b) : Scalar (.bytes b)
  | num (r big) : Scalar (.num r big)
  | date (t) : tod t = 0 → 1 ≤ yearOf (tDay t) → yearOf (tDay t) ≤ 9999 → Scalar (.time .date t)
  | datetime (t) : t % 1000 = 0 → 1 ≤ yearOf (tDay t) → yearOf (tDay t) ≤ 9999 → Scalar (.time .datetime t)
  | time (u) : u % 1000 = 0 → 0 ≤ u → u < 86400000000000 → Scalar (.time .time (tDate 0 1 1 0 0 0 0 + u))
  | timestamp (t) : t % 1000 = 0 → -62135596800000000000 ≤ t → t < 253402300800000000000 → Scalar (.time .timestamp t)

/-- C285: a function called with a value computes what it computes for that value: TO_JSON_STRING and FORMAT with %t and %T. -/
def C285_full : Prop := ∀ (P : Print) (v : Val), Scalar v → call (fun w => toJsonString P w false) v = toJsonString P v false ∧
  ∀ c, c = 't' ∨ c = 'T' → call (fun w => Printable.formatV P ['%', c] [w]) v = Printable.formatV P ['%', c] [v]

theorem canon {v : Val} (h : Scalar v) : Canon v := by
  cases h with
  | int i h => exact h
  | date t h1 h2 h3 => exact ⟨h1, h2, h3⟩
  | datetime t h1 h2 h3 => exact ⟨h1, h2, h3⟩
  | time u h1 h2 h3 =>
    show (tDate 0 1 1 0 0 0 0 + u) % 1000 = 0
    unfold tDate dayNs; omega
  | timestamp t h1 h2 h3 => exact ⟨h1, h2, h3⟩
  | _ => trivial

/-- What a function gets for a value of a scalar type. -/
def seen : Val → Val
  | .bool b => .int (if b then 1 else 0)
  | v => v

theorem back_time {k : TimeKind} {t : Int} (h : Scalar (.time k t)) : backTime k t = t := by
  have hc := same_time k t (canon h)
  cases h with
  | date t h1 => simp [backTime, h1]
  | datetime t h1 => simp only [backTime, tod_us t h1]; omega
  | time u h1 h2 h3 =>
    have e : (tDate 0 1 1 0 0 0 0 + u) % 1000 = 0 := by unfold tDate dayNs; omega
    simp only [backTime, tod_us _ e, Int.sub_zero]
    congr 1
    have h0 := tod_day (daysOf 0 1 1) u ⟨h2, by unfold dayNs; omega⟩
    simp only [tDate]
    rw [← h0]
    congr 1
    · congr 1
  | timestamp t h1 => simp only [backTime, tUnixMicro, us]; omega

theorem plain_arg {v : Val} (h : Scalar v) : ∃ d, arg v = .ok d ∧ plain d = some (seen v) := by
  refine ⟨_, decode_encode v (canon h), ?_⟩
  cases h with
  | date t h1 h2 h3 => simp only [backTop, back, plain, seen, back_time (.date t h1 h2 h3)]
  | datetime t h1 h2 h3 => simp only [backTop, back, plain, seen, back_time (.datetime t h1 h2 h3)]
  | time t h1 h2 h3 => simp only [backTop, back, plain, seen, back_time (.time t h1 h2 h3)]
  | timestamp t h1 h2 h3 => simp only [backTop, back, plain, seen, back_time (.timestamp t h1 h2 h3)]
  | _ => rfl

theorem call_eq {α} (f : Val → Res α) {v : Val} (h : Scalar v) : call f v = f (seen v) := by
  obtain ⟨d, h1, h2⟩ := plain_arg h
  rw [call, h1, Res.bind'_ok, h2]

/-- **C285** exactly, for every function: it gets the value it is called with, but an INT64 for a BOOL. -/
theorem C285_call_iff {α} (f : Val → Res α) (v : Val) (h : Scalar v) :
    call f v = f v ↔ ∀ b, v = .bool b → f (.int (if b then 1 else 0)) = f (.bool b) := by
  rw [call_eq f h]
  cases v with
  | bool b =>
    constructor
    · intro e b' hb
      cases hb
      exact e
    · intro e
      exact e b rfl
  | _ => exact ⟨fun _ b hb => (nomatch hb), fun _ => rfl⟩

/-- **C285** TO_JSON_STRING, TO_JSON and FORMAT give a BOOL as a number. -/
theorem C285_bool (P : Print) (b : Bool) :
    call (fun w => toJsonString P w false) (.bool b) = .ok (if b then ['1'] else ['0']) ∧
    call (fun w => toJson P w false) (.bool b) = .ok (some (if b then ['1'] else ['0'])) ∧
    ∀ c, c = 't' ∨ c = 'T' → call (fun w => Printable.formatV P ['%', c] [w]) (.bool b) = .ok (.str (if b then ['1'] else ['0'])) := by
  refine ⟨?_, ?_, ?_⟩
  · rw [call_eq _ (.bool b)]; cases b <;> rfl
  · rw [call_eq _ (.bool b)]; cases b <;> rfl
  · rintro c (rfl | rfl)
    · rw [call_eq _ (.bool b)]; cases b <;> rfl
    · rw [call_eq _ (.bool b)]; cases b <;> rfl

theorem C285_full_false : ¬ C285_full := by
  intro h
  have := (h ⟨fun c => decide (32 ≤ c.toNat ∧ c.toNat < 127), fun _ _ => rfl⟩ (.bool true) (.bool true)).1
  rw [(C285_bool _ true).1] at this
  cases this

/-- **C285**, partial: right for every other scalar type. -/
theorem C285_partial (P : Print) (v : Val) (h : Scalar v) (hb : ∀ b, v ≠ .bool b) :
    call (fun w => toJsonString P w false) v = toJsonString P v false ∧
    ∀ c, c = 't' ∨ c = 'T' → call (fun w => Printable.formatV P ['%', c] [w]) v = Printable.formatV P ['%', c] [v] :=
  ⟨(C285_call_iff _ v h).2 fun b e => absurd e (hb b), fun _ _ => (C285_call_iff _ v h).2 fun b e => absurd e (hb b)⟩

/-! ### Structs made of values -/

/-- The text of a field: JSON, with null for NULL. -/
def fieldJson (P : Print) (v : Val) : Res (List Char) := if v.isNull then .ok nullText else toJSON P v

/-- The text of a field in TO_JSON_STRING(STRUCT(v AS k)). -/
def fieldSeen (P : Print) : Val → Res (List Char)
  | .bool b => .ok (if b then ['1'] else ['0'])
  | .int i => .ok (sprintIntegral (decide (i < 0)) i.natAbs)
  | v => fieldJson P v

/-- Whole numbers that FLOAT64 has. -/
def Small (v : Val) : Prop := ∀ i, v = .int i → -9007199254740992 < i ∧ i < 9007199254740992

theorem seen_scalar {v : Val} (h : Scalar v) : Scalar (seen v) := by
  cases h with
  | bool b => cases b <;> exact .int _ (by decide)
  | null => exact .null
  | int i h => exact .int i h
  | str s => exact .str s
  | bytes b => exact .bytes b
  | num r big => exact .num r big
  | date t h1 h2 h3 => exact .date t h1 h2 h3
  | datetime t h1 h2 h3 => exact .datetime t h1 h2 h3
  | time t h1 h2 h3 => exact .time t h1 h2 h3
  | timestamp t h1 h2 h3 => exact .timestamp t h1 h2 h3

theorem field_back (P : Print) {v : Val} (h : Scalar v) (hs : Small v) : fieldText P (back (seen v)) = fieldSeen P v := by
  cases h with
  | bool b => cases b <;> decide_cbv
  | int i hi =>
    obtain ⟨h1, h2⟩ := hs i rfl
    simp only [seen, back, fieldText, floatText, fieldSeen, f64_exact h1 h2]
  | date t h1 h2 h3 => simp only [seen, back, back_time (.date t h1 h2 h3)]; rfl
  | datetime t h1 h2 h3 => simp only [seen, back, back_time (.datetime t h1 h2 h3)]; rfl
  | time t h1 h2 h3 => simp only [seen, back, back_time (.time t h1 h2 h3)]; rfl
  | timestamp t h1 h2 h3 => simp only [seen, back, back_time (.timestamp t h1 h2 h3)]; rfl
  | _ => rfl

/-- The texts of the fields of a struct, `one` for the text of a field. -/
def Fields (P : Print) (one : Val → Res (List Char)) : List (List Char) → List Val → Res (List (List Char))
  | [], _ => .ok []
  | _ :: _, [] => .panic
  | k :: ks, v :: vs => (one v).bind fun t => (Fields P one ks vs).bind fun ts => .ok ((goQuote P k ++ ':' :: t) :: ts)

theorem made : ∀ {vs : List Val}, (∀ v ∈ vs, Scalar v) → mapRes (call .ok) vs = .ok (vs.map seen)
  | [], _ => rfl
  | v :: vs, h => by
    rw [mapRes, call_eq _ (h v (by simp)), Res.bind'_ok, made (fun w hw => h w (by simp [hw])), Res.bind'_ok]
    rfl

theorem canonList : ∀ {vs : List Val}, (∀ v ∈ vs, Scalar v) → CanonList (vs.map seen)
  | [], _ => trivial
  | v :: vs, h => ⟨canon (seen_scalar (h v (by simp))), canonList fun w hw => h w (by simp [hw])⟩

theorem struct_back (P : Print) : ∀ (ks : List (List Char)) {vs : List Val}, (∀ v ∈ vs, Scalar v) → (∀ v ∈ vs, Small v) →
    structText P ks (backList (vs.map seen)) = Fields P (fieldSeen P) ks vs
  | [], _, _, _ => rfl
  | _ :: _, [], _, _ => rfl
  | k :: ks, v :: vs, h, hs => by
    simp only [List.map_cons, backList, structText, Fields]
    rw [field_back P (h v (by simp)) (hs v (by simp)), struct_back P ks (fun w hw => h w (by simp [hw])) (fun w hw => hs w (by simp [hw]))]

/-- **C285** TO_JSON_STRING of a struct made of scalars writes its fields one by one, each as `fieldSeen`. -/
theorem C285_struct (P : Print) (ks : List (List Char)) (vs : List Val) (hl : ks.length = vs.length) (h : ∀ v ∈ vs, Scalar v) (hs : ∀ v ∈ vs, Small v) :
    structJson P ks vs = (Fields P (fieldSeen P) ks vs).bind fun ts => .ok ('{' :: (join [','] ts ++ ['}'])) := by
  have hc : Canon (.struct ks (vs.map seen)) := ⟨by simpa using hl, canonList h⟩
  have ha : arg (.struct ks (vs.map seen)) = .ok (.struct ks (backList (vs.map seen))) := decode_encode _ hc
  simp only [structJson, construct, made h, Res.bind'_ok, ha, struct_back P ks h hs]

/-- **C285** and such a field is written as JSON has it if and only if it is no BOOL and no INT64 of seven digits or more. -/
theorem C285_field_iff (P : Print) (v : Val) (hs : Small v) :
    fieldSeen P v = fieldJson P v ↔ (∀ b, v ≠ .bool b) ∧ ∀ i, v = .int i → -1000000 < i ∧ i < 1000000 := by
  cases v with
  | bool b =>
    constructor
    · intro e
      cases b <;> cases e
    · intro e
      exact absurd rfl (e.1 b)
  | int i =>
    have key := Float.C169_partial (decide (i < 0)) i.natAbs
    have e : decInt i = if decide (i < 0) = true ∧ i.natAbs ≠ 0 then '-' :: decNat i.natAbs else decNat i.natAbs := by
      unfold decInt
      by_cases h : i < 0
      · rw [if_pos h, if_pos ⟨decide_eq_true h, by omega⟩]
      · rw [if_neg h, if_neg (fun e => h (of_decide_eq_true e.1))]
    simp only [Float.toStringIntegral] at key
    simp only [fieldSeen, fieldJson, Val.isNull, Bool.false_eq_true, if_false, toJSON]
    rw [e, key]
    simp only [decide_eq_true_eq, Val.int.injEq, ne_eq, reduceCtorEq, not_false_eq_true, implies_true, true_and, forall_eq']
    omega
  | _ => simp [fieldSeen]

/-- TO_JSON_STRING(STRUCT(TRUE AS a, 1000000 AS b)) is {"a":1,"b":1e+06}. -/
example (P : Print) : fieldSeen P (.bool true) = .ok ['1'] ∧ fieldSeen P (.int 1000000) = .ok ['1', 'e', '+', '0', '6'] := ⟨rfl, by decide_cbv⟩

/-! ### C285 for arrays and structs -/

mutual
/-- Values of any depth without INT64. -/
def Deep : Val → Prop
  | .arr vs => DeepList vs
  | .struct ks vs => ks.length = vs.length ∧ DeepList vs
  | .int _ => False
  | v => Scalar v
@[inherit_doc Deep] def DeepList : List Val → Prop
  | [] => True
  | v :: vs => Deep v ∧ DeepList vs
end

mutual
theorem deep_canon : ∀ (v : Val), Deep v → Canon v
  | .arr vs, h => deepList_canon vs h
  | .struct _ vs, h => ⟨h.1, deepList_canon vs h.2⟩
  | .int _, h => h.elim
  | .null, _ => trivial
  | .bool _, _ => trivial
  | .str _, _ => trivial
  | .bytes _, _ => trivial
  | .num _ _, _ => trivial
  | .time k t, h => canon (v := .time k t) (by simpa only [Deep] using h)
theorem deepList_canon : ∀ (vs : List Val), DeepList vs → CanonList vs
  | [], _ => trivial
  | v :: vs, h => ⟨deep_canon v h.1, deepList_canon vs h.2⟩
end

mutual
theorem deep_plain : ∀ (v : Val), Deep v → plain (back v) = some v
  | .arr vs, h => by rw [back, plain, deepList_plain vs h]; rfl
  | .struct _ vs, h => by rw [back, plain, deepList_plain vs h.2]; rfl
  | .int _, h => h.elim
  | .null, _ => rfl
  | .bool _, _ => rfl
  | .str _, _ => rfl
  | .bytes _, _ => rfl
  | .num _ _, _ => rfl
  | .time k t, h => by rw [back, plain, back_time (k := k) (t := t) (by simpa only [Deep] using h)]
theorem deepList_plain : ∀ (vs : List Val), DeepList vs → plains (backList vs) = some vs
  | [], _ => rfl
  | v :: vs, h => by rw [backList, plains, deep_plain v h.1, Option.bind_some, deepList_plain vs h.2]; rfl
end

/-- **C285** A function gets arrays and structs as they are, if there is no INT64 inside; BOOLs inside stay BOOLs. -/
theorem C285_deep {α} (f : Val → Res α) (v : Val) (h : Deep v) (hb : ∀ b, v ≠ .bool b) : call f v = f v := by
  have ha : arg v = .ok (back v) := by
    rw [arg, decode_encode v (deep_canon v h)]
    cases v with
    | int i => exact h.elim
    | bool b => exact absurd rfl (hb b)
    | _ => rfl
  rw [call, ha, Res.bind'_ok, deep_plain v h]

example : Deep (.struct [['a'], ['b']] [.bool true, .arr [.str ['x'], .null]]) := ⟨rfl, .bool true, ⟨.str _, .null, trivial⟩, trivial⟩

/-! ### C286: elements and fields -/

/-- C286: an element of an array and a field of a struct are the values the array or struct was made with. -/
def C286_full : Prop := ∀ (ks : List (List Char)) (vs : List Val) (i : Nat) (v : Val), CanonList vs → ks.length = vs.length → vs[i]? = some v →
  (∃ d, elementAt (.arr vs) i = .ok d ∧ Same v d) ∧ ∃ d, fieldAt (.struct ks vs) i = .ok d ∧ Same v d

theorem backList_get : ∀ (vs : List Val) (i : Nat), (backList vs)[i]? = (vs[i]?).map back
  | [], i => by simp [backList]
  | v :: vs, 0 => by simp [backList]
  | v :: vs, i + 1 => by simpa [backList] using backList_get vs i

theorem canon_get : ∀ {vs : List Val} {i : Nat} {v : Val}, CanonList vs → vs[i]? = some v → Canon v
  | [], i, v, _, h => by simp at h
  | w :: vs, 0, v, hc, h => by
    simp only [List.getElem?_cons_zero, Option.some.injEq] at h
    exact h ▸ hc.1
  | w :: vs, i + 1, v, hc, h => canon_get (vs := vs) (i := i) hc.2 (by simpa using h)

/-- **C286** exactly: if and only if FLOAT64 has every INT64 in the element. -/
theorem C286_iff (ks : List (List Char)) (vs : List Val) (i : Nat) (v : Val) (hc : CanonList vs) (hl : ks.length = vs.length) (hv : vs[i]? = some v) :
    ((∃ d, elementAt (.arr vs) i = .ok d ∧ Same v d) ↔ ∀ n ∈ ints v, f64 n = n) ∧
    ((∃ d, fieldAt (.struct ks vs) i = .ok d ∧ Same v d) ↔ ∀ n ∈ ints v, f64 n = n) := by
  have hb := same_back v (canon_get hc hv)
  have e1 : elementAt (.arr vs) i = .ok (back v) := by
    have ha : arg (.arr vs) = .ok (.arr (backList vs)) := decode_encode _ hc
    simp only [elementAt, ha, Res.bind'_ok, backList_get, hv, Option.map_some, Option.getD_some]
  have e2 : fieldAt (.struct ks vs) i = .ok (back v) := by
    have ha : arg (.struct ks vs) = .ok (.struct ks (backList vs)) := decode_encode _ ⟨hl, hc⟩
    simp only [fieldAt, ha, Res.bind'_ok, backList_get, hv, Option.map_some]
  rw [e1, e2]
  constructor
  · rw [← hb]
    exact ⟨fun ⟨d, h1, h2⟩ => by cases h1; exact h2, fun h => ⟨_, rfl, h⟩⟩
  · rw [← hb]
    exact ⟨fun ⟨d, h1, h2⟩ => by cases h1; exact h2, fun h => ⟨_, rfl, h⟩⟩

/-- **C286**, partial: INT64 values of up to 2^53. -/
theorem C286_partial (ks : List (List Char)) (vs : List Val) (i : Nat) (v : Val) (hc : CanonList vs) (hl : ks.length = vs.length) (hv : vs[i]? = some v)
    (hs : ∀ n ∈ ints v, -9007199254740992 < n ∧ n < 9007199254740992) :
    (∃ d, elementAt (.arr vs) i = .ok d ∧ Same v d) ∧ ∃ d, fieldAt (.struct ks vs) i = .ok d ∧ Same v d :=
  have h := C286_iff ks vs i v hc hl hv
  ⟨h.1.2 fun n hn => f64_exact (hs n hn).1 (hs n hn).2, h.2.2 fun n hn => f64_exact (hs n hn).1 (hs n hn).2⟩

/-- [9007199254740993][OFFSET(0)] is 9007199254740992. -/
theorem C286_full_false : ¬ C286_full := by
  intro h
  have hv : [Val.int 9007199254740993][0]? = some (.int 9007199254740993) := rfl
  have hc : CanonList [Val.int 9007199254740993] := ⟨(by decide : InI64 _), trivial⟩
  have h1 := (C286_iff [['a']] _ 0 _ hc rfl hv).1.1 (h [['a']] _ 0 _ hc rfl hv).1
  have h2 := h1 9007199254740993 (by simp [ints])
  rw [f64_edge] at h2
  cases h2

/-- **C286** Outside the array NULL. -/
theorem C286_outside (vs : List Val) (i : Nat) (hc : CanonList vs) (h : vs.length ≤ i) : elementAt (.arr vs) i = .ok .null := by
  have ha : arg (.arr vs) = .ok (.arr (backList vs)) := decode_encode _ hc
  simp only [elementAt, ha, Res.bind'_ok, backList_get, List.getElem?_eq_none h, Option.map_none, Option.getD_none]

example : ∃ d, elementAt (.arr [.arr [.int 5, .str ['x']], .null]) 0 = .ok d ∧ Same (.arr [.int 5, .str ['x']]) d :=
  (C286_partial [[], []] [.arr [.int 5, .str ['x']], .null] 0 _ ⟨⟨(by decide : InI64 5), trivial, trivial⟩, trivial, trivial⟩ rfl rfl (by simp [ints, intsList])).1

end Verif.Args
