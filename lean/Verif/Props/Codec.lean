import Verif.Lemmas.Codec
import Verif.Lemmas.Value

/-!
# C19, C20, C91: values in storage

A column of SQLite holds `store (encode v)` and every function reads its arguments with `decode`.
-/

namespace Verif.Codec

open Go Verif.Val

/-! ### Specification -/

mutual
/-- The SQL values: INT64 in range, DATE, DATETIME and TIMESTAMP in the years 1 to 9999, no time finer than a microsecond,
and a struct has one name per field. -/
def Canon : Val → Prop
  | .int i => InI64 i
  | .time .date t => tod t = 0 ∧ 1 ≤ yearOf (tDay t) ∧ yearOf (tDay t) ≤ 9999
  | .time .datetime t => t % 1000 = 0 ∧ 1 ≤ yearOf (tDay t) ∧ yearOf (tDay t) ≤ 9999
  | .time .time t => t % 1000 = 0
  | .time .timestamp t => t % 1000 = 0 ∧ -62135596800000000000 ≤ t ∧ t < 253402300800000000000
  | .arr vs => CanonList vs
  | .struct ks vs => ks.length = vs.length ∧ CanonList vs
  | _ => True
/-- All of a list. -/
def CanonList : List Val → Prop
  | [] => True
  | v :: vs => Canon v ∧ CanonList vs
end

mutual
/-- The value read back is the value written.  A number may have become a FLOAT64 and a BOOL the INT64 0 or 1; a TIME is
a time of day. -/
def Same : Val → DVal → Prop
  | .null, .null => True
  | .int i, .int j => j = i
  | .int i, .flt n => n = i
  | .bool b, .bool c => c = b
  | .bool b, .int j => j = if b then 1 else 0
  | .str s, .str s' => s' = s
  | .bytes b, .bytes b' => b' = b
  | .num r big, .num r' big' => r' = r ∧ big' = big
  | .time .time t, .time .time t' => tod t' = tod t
  | .time k t, .time k' t' => k' = k ∧ t' = t
  | .arr vs, .arr ds => SameList vs ds
  | .struct ks vs, .struct ks' ds => ks' = ks ∧ SameList vs ds
  | _, _ => False
@[inherit_doc Same] def SameList : List Val → List DVal → Prop
  | [], [] => True
  | v :: vs, d :: ds => Same v d ∧ SameList vs ds
  | _, _ => False
end

mutual
/-- The value read back has the type of the value written, at every level. -/
def SameType : Val → DVal → Prop
  | .null, .null => True
  | .int _, .int _ => True
  | .bool _, .bool _ => True
  | .str _, .str _ => True
  | .bytes _, .bytes _ => True
  | .num _ big, .num _ big' => big' = big
  | .time k _, .time k' _ => k' = k
  | .arr vs, .arr ds => SameTypes vs ds
  | .struct ks vs, .struct ks' ds => ks' = ks ∧ SameTypes vs ds
  | _, _ => False
@[inherit_doc SameType] def SameTypes : List Val → List DVal → Prop
  | [], [] => True
  | v :: vs, d :: ds => SameType v d ∧ SameTypes vs ds
  | _, _ => False
end

mutual
/-- The INT64 values anywhere in a value. -/
def ints : Val → List Int
  | .int i => [i]
  | .arr vs => intsList vs
  | .struct _ vs => intsList vs
  | _ => []
@[inherit_doc ints] def intsList : List Val → List Int
  | [] => []
  | v :: vs => ints v ++ intsList vs
end

/-- The INT64 values inside an array or struct. -/
def nestedInts : Val → List Int
  | .int _ => []
  | v => ints v

mutual
/-- The same SQL value: a TIME is a time of day, everything else is compared as it is. -/
def Equal : Val → Val → Prop
  | .null, .null => True
  | .int i, .int j => i = j
  | .bool b, .bool c => b = c
  | .str s, .str s' => s = s'
  | .bytes b, .bytes b' => b = b'
  | .num r big, .num r' big' => r = r' ∧ big = big'
  | .time .time t, .time .time t' => tod t = tod t'
  | .time k t, .time k' t' => k = k' ∧ t = t'
  | .arr vs, .arr ws => EqualList vs ws
  | .struct ks vs, .struct ks' ws => ks = ks' ∧ EqualList vs ws
  | _, _ => False
@[inherit_doc Equal] def EqualList : List Val → List Val → Prop
  | [], [] => True
  | v :: vs, w :: ws => Equal v w ∧ EqualList vs ws
  | _, _ => False
end

/-! ### What is read back -/

/-- The time read back. -/
def backTime : TimeKind → Int → Int
  | .date, t => t - tod t
  | .datetime, t => t - tNano t % 10 ^ (9 - 6)
  | .time, t => tDate 0 1 1 0 0 0 0 + (tod t - tNano t % 10 ^ (9 - 6))
  | .timestamp, t => tUnixMicro t * 1000

mutual
/-- What is read back from inside a list. -/
def back : Val → DVal
  | .null => .null
  | .int i => .flt (f64 i)
  | .bool b => .bool b
  | .str s => .str s
  | .bytes b => .bytes b
  | .num r big => .num r big
  | .time k t => .time k (backTime k t)
  | .arr vs => .arr (backList vs)
  | .struct ks vs => .struct ks (backList vs)
@[inherit_doc back] def backList : List Val → List DVal
  | [] => []
  | v :: vs => back v :: backList vs
end

theorem backList_length : ∀ vs : List Val, (backList vs).length = vs.length
  | [] => rfl
  | _ :: vs => by simp [backList, backList_length vs]

theorem timeHeader_time (elem : Json.Scalar → Res DVal) (k : TimeKind) (body : List Char) {t : Int} (h : decodeTime k body = some t) :
    decodeBody elem (timeHeader k) body = .ok (.time k t) := by
  cases k <;> simp only [timeHeader, decodeBody, h]

theorem decodeTime_text (k : TimeKind) (t : Int) (h : Canon (.time k t)) : decodeTime k (timeText k t) = some (backTime k t) := by
  cases k with
  | date =>
    obtain ⟨_, h1, h2⟩ : _ ∧ _ ∧ _ := h
    exact parseDate_text t (by omega) h2
  | datetime =>
    obtain ⟨_, h1, h2⟩ : _ ∧ _ ∧ _ := h
    simp only [decodeTime, timeText, parseDatetime_text (w := 6) (by omega) 'T' t (by omega) h2, Option.or, backTime]
  | time => exact parseClock_text (w := 6) (by omega) t
  | timestamp =>
    obtain ⟨_, h1, h2⟩ : _ ∧ _ ∧ _ := h
    have hb : InI64 (tUnixMicro t) := by unfold InI64 tUnixMicro us; omega
    simp only [decodeTime, timeText, parseInt64_decInt hb, Option.map, backTime]
    congr 1
    generalize tUnixMicro t = x
    generalize x.tdiv 1000000 = q
    omega

theorem decodeBody_arr (elem : Json.Scalar → Res DVal) (xs : List Json.Scalar) {ds : List DVal} (h : mapRes elem xs = .ok ds) :
    decodeBody elem .array (Json.list xs) = .ok (.arr ds) := by
  have := Json.parseList_list xs []
  rw [List.append_nil] at this
  simp only [decodeBody, this, h, Res.bind'_ok]

theorem decodeBody_struct (elem : Json.Scalar → Res DVal) (ks : List (List Char)) (xs : List Json.Scalar) {ds : List DVal}
    (h : mapRes elem xs = .ok ds) (hl : ds.length = ks.length) :
    decodeBody elem .struct (Json.structLayout ks xs) = .ok (.struct ks ds) := by
  simp only [decodeBody, Json.parseStruct_struct, h, Res.bind'_ok]
  rw [if_pos (by omega)]

theorem decodeBody_num (elem : Json.Scalar → Res DVal) (r : Rat) (big : Bool) :
    decodeBody elem (if big then .bignumeric else .numeric) (ratText r) = .ok (.num r big) := by
  cases big <;> simp [decodeBody, ratOfText_text]

theorem size_encode_le {n : Nat} {h : Header} {body : List Char} (hn : size (.text (wrapText h body)) ≤ n) :
    ∃ m, n = m + 1 ∧ body.length ≤ m := by
  have := wrap_length h body
  have hn : (wrapText h body).length ≤ n := hn
  exact ⟨n - 1, by omega, by omega⟩

theorem structLayout_length (ks : List (List Char)) (xs : List Json.Scalar) : (Json.list xs).length ≤ (Json.structLayout ks xs).length := by
  unfold Json.structLayout
  simp only [List.length_append]
  omega

/-- The fuel that suffices for every element of a list. -/
def Fits (n : Nat) (xs : List Json.Scalar) : Prop := ∀ s, Json.Scalar.str s ∈ xs → s.length ≤ n

mutual
theorem decode_elem : ∀ (v : Val) (n : Nat), Canon v → size (encode v) ≤ n →
    decodeWith ofScalar n (ofScalar (toScalar (encode v))) = .ok (back v)
  | .null, n, _, _ => by cases n <;> rfl
  | .int i, n, _, _ => by cases n <;> rfl
  | .bool b, n, _, _ => by cases n <;> rfl
  | .str s, n, _, hn => by
    obtain ⟨m, rfl, _⟩ := size_encode_le hn
    exact decode_wrap ofScalar m .string s
  | .bytes b, n, _, hn => by
    obtain ⟨m, rfl, _⟩ := size_encode_le hn
    have := decode_wrap ofScalar m .bytes (Base64.encode b)
    simp only [decodeBody, Base64.decode_encode] at this
    exact this
  | .num r big, n, _, hn => by
    obtain ⟨m, rfl, _⟩ := size_encode_le hn
    have := decode_wrap ofScalar m (if big then .bignumeric else .numeric) (ratText r)
    rw [decodeBody_num] at this
    exact this
  | .time k t, n, hc, hn => by
    obtain ⟨m, rfl, _⟩ := size_encode_le hn
    have := decode_wrap ofScalar m (timeHeader k) (timeText k t)
    rw [timeHeader_time _ k _ (decodeTime_text k t hc)] at this
    exact this
  | .arr vs, n, hc, hn => by
    obtain ⟨m, rfl, hm⟩ := size_encode_le hn
    have h := decode_elems vs m hc (fun s hs => by have := text_item hs; omega)
    exact (decode_wrap ofScalar m .array _).trans (decodeBody_arr _ _ h)
  | .struct ks vs, n, hc, hn => by
    obtain ⟨m, rfl, hm⟩ := size_encode_le hn
    obtain ⟨hl, hc⟩ : _ ∧ _ := hc
    have hs := structLayout_length ks (encodeList vs)
    have h := decode_elems vs m hc (fun s hs => by have := text_item hs; omega)
    exact (decode_wrap ofScalar m .struct _).trans (decodeBody_struct _ ks _ h (by rw [backList_length]; omega))
theorem decode_elems : ∀ (vs : List Val) (n : Nat), CanonList vs → Fits n (encodeList vs) →
    mapRes (fun x => decodeWith ofScalar n (ofScalar x)) (encodeList vs) = .ok (backList vs)
  | [], _, _, _ => rfl
  | v :: vs, n, hc, hn => by
    obtain ⟨h1, h2⟩ : _ ∧ _ := hc
    have hv : size (encode v) ≤ n := by
      cases he : encode v with
      | text s => exact hn s (by simp [encodeList, he, toScalar])
      | _ => exact Nat.zero_le _
    have e1 := decode_elem v n h1 hv
    have e2 := decode_elems vs n h2 fun s hs => hn s (by simp [encodeList, hs])
    simp only [encodeList, mapRes, e1, e2, Res.bind'_ok, backList]
end

/-- What is read back from a column. -/
def backTop : Val → DVal
  | .int i => .int i
  | .bool b => .int (if b then 1 else 0)
  | v => back v

theorem decode_encode (v : Val) (h : Canon v) : decode (store (encode v)) = .ok (backTop v) := by
  have he := decode_elem v _ h (Nat.le_refl _)
  cases v with
  | int i => rfl
  | bool b => cases b <;> rfl
  | _ => exact he

/-! ### C19 -/

theorem tod_us (t : Int) (h : t % 1000 = 0) : tNano t % 10 ^ (9 - 6) = 0 := by
  unfold tNano tod dayNs sec
  omega

theorem tod_day (d u : Int) (h : 0 ≤ u ∧ u < dayNs) : tod (d * dayNs + u) = u := by
  unfold tod
  rw [Int.add_comm, Int.add_mul_emod_self_right, Int.emod_eq_of_lt h.1 h.2]

theorem backTime_time (t : Int) (h : t % 1000 = 0) : tod (backTime .time t) = tod t := by
  simp only [backTime, tod_us t h, Int.sub_zero, tDate]
  have h0 : 0 ≤ tod t ∧ tod t < dayNs := by unfold tod dayNs; omega
  have := tod_day (daysOf 0 1 1) (tod t) h0
  rw [← this]
  congr 1
  omega

theorem same_time (k : TimeKind) (t : Int) (h : Canon (.time k t)) : Same (.time k t) (.time k (backTime k t)) := by
  cases k with
  | date =>
    obtain ⟨h, _⟩ : _ ∧ _ := h
    simp [Same, backTime, h]
  | datetime =>
    obtain ⟨h, _⟩ : _ ∧ _ := h
    simp only [Same, backTime, tod_us t h, Int.sub_zero, and_self]
  | time =>
    simp only [Same]
    exact backTime_time t h
  | timestamp =>
    obtain ⟨h, _⟩ : _ ∧ _ := h
    simp only [Same, backTime, tUnixMicro, us, true_and]
    omega

mutual
theorem same_back : ∀ v : Val, Canon v → (Same v (back v) ↔ ∀ i ∈ ints v, f64 i = i)
  | .null, _ => by simp [Same, back, ints]
  | .int i, _ => by simp [Same, back, ints]
  | .bool b, _ => by simp [Same, back, ints]
  | .str s, _ => by simp [Same, back, ints]
  | .bytes b, _ => by simp [Same, back, ints]
  | .num r big, _ => by simp [Same, back, ints]
  | .time k t, h => by
    have := same_time k t h
    simp only [back, this, ints, List.not_mem_nil, false_imp_iff, implies_true]
  | .arr vs, h => by
    simp only [Same, back, ints]
    exact sameList_back vs h
  | .struct ks vs, h => by
    simp only [Same, back, ints, true_and]
    exact sameList_back vs h.2
theorem sameList_back : ∀ vs : List Val, CanonList vs → (SameList vs (backList vs) ↔ ∀ i ∈ intsList vs, f64 i = i)
  | [], _ => by simp [SameList, backList, intsList]
  | v :: vs, h => by
    have h1 := same_back v h.1
    have h2 := sameList_back vs h.2
    simp only [SameList, backList, intsList, List.mem_append]
    rw [h1, h2]
    constructor
    · rintro ⟨a, b⟩ i (hi | hi)
      · exact a i hi
      · exact b i hi
    · intro h
      exact ⟨fun i hi => h i (.inl hi), fun i hi => h i (.inr hi)⟩
end

/-- C19: what is read from storage is what was written. -/
def C19_full : Prop := ∀ v, Canon v → ∃ d, decode (store (encode v)) = .ok d ∧ Same v d

/-- An INT64 inside an array that a FLOAT64 cannot represent comes back as another number. -/
theorem C19_full_false : ¬ C19_full := by
  intro h
  have hc : Canon (.arr [.int 9007199254740993]) := ⟨(by decide : InI64 _), trivial⟩
  obtain ⟨d, hd, hs⟩ := h _ hc
  rw [decode_encode _ hc] at hd
  cases hd
  simp [backTop, back, backList, Same, SameList, f64_edge] at hs

/-- C19, partial: reading never fails, and what is read is what was written exactly when every INT64 inside an array or
struct is a number FLOAT64 can represent.  Missing: the other INT64 values inside arrays and structs. -/
theorem C19_partial (v : Val) (h : Canon v) :
    ∃ d, decode (store (encode v)) = .ok d ∧ (Same v d ↔ ∀ i ∈ nestedInts v, f64 i = i) := by
  refine ⟨_, decode_encode v h, ?_⟩
  cases v with
  | int i => simp [backTop, Same, nestedInts]
  | bool b => simp [backTop, Same, nestedInts, ints]
  | _ => exact same_back _ h

/-- C19, partial: values without nested INT64 values beyond 2^53 survive. -/
theorem C19_small_partial (v : Val) (h : Canon v) (hi : ∀ i ∈ nestedInts v, -9007199254740992 < i ∧ i < 9007199254740992) :
    ∃ d, decode (store (encode v)) = .ok d ∧ Same v d := by
  obtain ⟨d, hd, hs⟩ := C19_partial v h
  exact ⟨d, hd, hs.2 fun i h => f64_exact (hi i h).1 (hi i h).2⟩

/-- A struct with a NULL, a date before 1970, an array and a text that looks like an encoded value. -/
example : ∃ d, decode (store (encode (.struct [['a'], ['a'], [], ['b']]
      [.null, .time .date (-86400000000000), .arr [.int 3, .null, .bool true], .str ['e', 'y', 'J', '"', '\n']]))) = .ok d ∧
    Same (.struct [['a'], ['a'], [], ['b']]
      [.null, .time .date (-86400000000000), .arr [.int 3, .null, .bool true], .str ['e', 'y', 'J', '"', '\n']]) d := by
  apply C19_small_partial
  · simp only [Canon, CanonList]
    refine ⟨rfl, trivial, by decide, ⟨by unfold InI64; omega, trivial, trivial, trivial⟩, trivial, trivial⟩
  · simp [nestedInts, ints, intsList]

/-! ### C20 -/

mutual
theorem sameType_back : ∀ v : Val, SameType v (back v) ↔ ints v = []
  | .null => by simp [SameType, back, ints]
  | .int i => by simp [SameType, back, ints]
  | .bool b => by simp [SameType, back, ints]
  | .str s => by simp [SameType, back, ints]
  | .bytes b => by simp [SameType, back, ints]
  | .num r big => by simp [SameType, back, ints]
  | .time k t => by simp [SameType, back, ints]
  | .arr vs => by
    simp only [SameType, back, ints]
    exact sameTypes_back vs
  | .struct ks vs => by
    simp only [SameType, back, ints, true_and]
    exact sameTypes_back vs
theorem sameTypes_back : ∀ vs : List Val, SameTypes vs (backList vs) ↔ intsList vs = []
  | [] => by simp [SameTypes, backList, intsList]
  | v :: vs => by
    have h1 := sameType_back v
    have h2 := sameTypes_back vs
    simp only [SameTypes, backList, intsList, List.append_eq_nil_iff]
    rw [h1, h2]
end

/-- C20: only NULL is stored as NULL, and what is read has the type of what was written. -/
def C20_full : Prop :=
  (∀ v, store (encode v) = .null ↔ v = .null) ∧
  (∀ v, Canon v → ∃ d, decode (store (encode v)) = .ok d ∧ SameType v d)

/-- [1] comes back as an array of FLOAT64. -/
theorem C20_full_false : ¬ C20_full := by
  intro ⟨_, h⟩
  have hc : Canon (.arr [.int 1]) := ⟨(by decide : InI64 _), trivial⟩
  obtain ⟨d, hd, hs⟩ := h _ hc
  rw [decode_encode _ hc] at hd
  cases hd
  simp [backTop, back, backList, SameType, SameTypes] at hs

/-- C20: only NULL is stored as NULL. -/
theorem C20_null (v : Val) : store (encode v) = .null ↔ v = .null := by
  cases v <;> simp [encode, store]

/-- C20, partial: what is read has the type of what was written exactly when it is not a BOOL and has no INT64 inside an
array or struct. -/
theorem C20_partial (v : Val) (h : Canon v) :
    ∃ d, decode (store (encode v)) = .ok d ∧ (SameType v d ↔ (∀ b, v ≠ .bool b) ∧ nestedInts v = []) := by
  refine ⟨_, decode_encode v h, ?_⟩
  cases v with
  | int i => simp [backTop, SameType, nestedInts]
  | bool b => simp [backTop, SameType]
  | null => simp [backTop, back, SameType, nestedInts, ints]
  | str s => simp [backTop, back, SameType, nestedInts, ints]
  | bytes s => simp [backTop, back, SameType, nestedInts, ints]
  | num r big => simp [backTop, back, SameType, nestedInts, ints]
  | time k t => simp [backTop, back, SameType, nestedInts, ints]
  | arr vs => simpa [nestedInts, backTop] using sameType_back (.arr vs)
  | struct ks vs => simpa [nestedInts, backTop] using sameType_back (.struct ks vs)

/-- An array with a NULL keeps its types. -/
example : ∃ d, decode (store (encode (.arr [.bool true, .null]))) = .ok d ∧ SameType (.arr [.bool true, .null]) d := by
  obtain ⟨d, hd, hs⟩ := C20_partial (.arr [.bool true, .null]) (by simp [Canon, CanonList])
  exact ⟨d, hd, hs.2 (by simp [nestedInts, ints, intsList])⟩

/-! ### C91: the set operations compare stored forms -/

theorem wrap_inj {h h' : Header} {b b' : List Char} (e : wrapText h b = wrapText h' b') : h = h' ∧ b = b' := by
  have e1 := utf8_injective (Base64.encode_injective e)
  have e2 : Json.parseLayout (Json.layout h.name b) = Json.parseLayout (Json.layout h'.name b') := by rw [e1]
  rw [Json.parseLayout_layout, Json.parseLayout_layout] at e2
  have e3 : h.name = h'.name ∧ b = b' := by simpa using e2
  refine ⟨?_, e3.2⟩
  have := headerOf_name h
  rw [e3.1, headerOf_name] at this
  simpa using this.symm

theorem toScalar_inj {v w : Val} (h : toScalar (encode v) = toScalar (encode w)) : encode v = encode w := by
  cases v <;> cases w <;> simp_all [encode, toScalar]

theorem list_inj {xs ys : List Json.Scalar} (h : Json.list xs = Json.list ys) : xs = ys := by
  have h1 := Json.parseList_list xs []
  have h2 := Json.parseList_list ys []
  rw [h, h2] at h1
  simpa using h1.symm

theorem struct_inj {ks ks' : List (List Char)} {xs ys : List Json.Scalar} (h : Json.structLayout ks xs = Json.structLayout ks' ys) :
    ks = ks' ∧ xs = ys := by
  have h1 := Json.parseStruct_struct ks xs
  rw [h, Json.parseStruct_struct] at h1
  simp at h1
  exact ⟨h1.1.symm, h1.2.symm⟩

theorem time_inj {k k' : TimeKind} {t t' : Int} (hc : Canon (.time k t)) (hc' : Canon (.time k' t'))
    (hk : timeHeader k = timeHeader k') (h : timeText k t = timeText k' t') : Equal (.time k t) (.time k' t') := by
  have hk : k = k' := by cases k <;> cases k' <;> first | rfl | (exact absurd hk (by decide))
  subst hk
  have h1 := decodeTime_text k t hc
  rw [h, decodeTime_text k t' hc'] at h1
  have h1 : backTime k t' = backTime k t := by simpa using h1
  have s1 := same_time k t hc
  have s2 := same_time k t' hc'
  rw [h1] at s2
  cases k with
  | time =>
    simp only [Same] at s1 s2
    simp only [Equal]
    omega
  | _ =>
    simp only [Same, true_and] at s1 s2
    simp only [Equal, true_and]
    omega

theorem clockText_tod {t t' : Int} (h : tod t = tod t') : clockText 6 t = clockText 6 t' := by
  unfold clockText fracText tNano tHour tMinute tSecond
  rw [h]

mutual
theorem encode_inj : ∀ v w : Val, Canon v → Canon w → encode v = encode w → Equal v w
  | .null, w, _, _, h => by cases w <;> simp_all [encode, Equal]
  | .int i, w, _, _, h => by cases w <;> simp_all [encode, Equal]
  | .bool b, w, _, _, h => by cases w <;> simp_all [encode, Equal]
  | .str s, w, _, _, h => by
    cases w <;> simp only [encode, Stored.text.injEq, reduceCtorEq] at h
    case str => exact (wrap_inj h).2
    case num => have := (wrap_inj h).1; split at this <;> simp at this
    case time k t _ => have := (wrap_inj h).1; cases k <;> simp [timeHeader] at this
    all_goals exact absurd (wrap_inj h).1 (by decide)
  | .bytes b, w, _, _, h => by
    cases w <;> simp only [encode, Stored.text.injEq, reduceCtorEq] at h
    case bytes => exact Base64.encode_injective (wrap_inj h).2
    case num => have := (wrap_inj h).1; split at this <;> simp at this
    case time k t _ => have := (wrap_inj h).1; cases k <;> simp [timeHeader] at this
    all_goals exact absurd (wrap_inj h).1 (by decide)
  | .num r big, w, _, _, h => by
    cases w <;> simp only [encode, Stored.text.injEq, reduceCtorEq] at h
    case num r' big' _ =>
      have h2 := wrap_inj h
      have h3 := ratOfText_text r
      rw [h2.2, ratOfText_text] at h3
      simp at h3
      refine ⟨h3.symm, ?_⟩
      cases big <;> cases big' <;> simp at h2 <;> rfl
    case time k t _ => have := (wrap_inj h).1; cases k <;> cases big <;> simp [timeHeader] at this
    all_goals have := (wrap_inj h).1; cases big <;> simp at this
  | .time k t, w, hv, hw, h => by
    cases w <;> simp only [encode, Stored.text.injEq, reduceCtorEq] at h
    case time k' t' => exact time_inj hv hw (wrap_inj h).1 (wrap_inj h).2
    case num r big => have := (wrap_inj h).1; cases k <;> cases big <;> simp [timeHeader] at this
    all_goals have := (wrap_inj h).1; cases k <;> simp [timeHeader] at this
  | .arr vs, w, hv, hw, h => by
    cases w <;> simp only [encode, Stored.text.injEq, reduceCtorEq] at h
    case arr ws => exact encodeList_inj vs ws hv hw (list_inj (wrap_inj h).2)
    case num => have := (wrap_inj h).1; split at this <;> simp at this
    case time k t => have := (wrap_inj h).1; cases k <;> simp [timeHeader] at this
    all_goals exact absurd (wrap_inj h).1 (by decide)
  | .struct ks vs, w, hv, hw, h => by
    cases w <;> simp only [encode, Stored.text.injEq, reduceCtorEq] at h
    case struct ks' ws =>
      have := struct_inj (wrap_inj h).2
      exact ⟨this.1, encodeList_inj vs ws hv.2 hw.2 this.2⟩
    case num => have := (wrap_inj h).1; split at this <;> simp at this
    case time k t => have := (wrap_inj h).1; cases k <;> simp [timeHeader] at this
    all_goals exact absurd (wrap_inj h).1 (by decide)
theorem encodeList_inj : ∀ vs ws : List Val, CanonList vs → CanonList ws → encodeList vs = encodeList ws → EqualList vs ws
  | [], [], _, _, _ => trivial
  | [], _ :: _, _, _, h => by simp [encodeList] at h
  | _ :: _, [], _, _, h => by simp [encodeList] at h
  | v :: vs, w :: ws, hv, hw, h => by
    simp only [encodeList, List.cons.injEq] at h
    exact ⟨encode_inj v w hv.1 hw.1 (toScalar_inj h.1), encodeList_inj vs ws hv.2 hw.2 h.2⟩
end

mutual
theorem encode_equal : ∀ v w : Val, Equal v w → encode v = encode w
  | .null, w, h => by cases w <;> simp_all [encode, Equal]
  | .int i, w, h => by cases w <;> simp_all [encode, Equal]
  | .bool b, w, h => by cases w <;> simp_all [encode, Equal]
  | .str s, w, h => by cases w <;> simp_all [encode, Equal]
  | .bytes b, w, h => by cases w <;> simp_all [encode, Equal]
  | .num r big, w, h => by cases w <;> simp_all [encode, Equal]
  | .time k t, w, h => by
    cases w with
    | time k' t' =>
      cases k <;> cases k' <;> simp only [Equal, true_and, reduceCtorEq, false_and] at h
      · rw [h]
      · rw [h]
      · simp only [encode, timeText, clockText_tod h]
      · rw [h]
    | _ => cases k <;> simp [Equal] at h
  | .arr vs, w, h => by
    cases w with
    | arr ws => simp only [encode]; rw [encodeList_equal vs ws h]
    | _ => simp [Equal] at h
  | .struct ks vs, w, h => by
    cases w with
    | struct ks' ws =>
      obtain ⟨rfl, h⟩ : _ ∧ _ := h
      simp only [encode]
      rw [encodeList_equal vs ws h]
    | _ => simp [Equal] at h
theorem encodeList_equal : ∀ vs ws : List Val, EqualList vs ws → encodeList vs = encodeList ws
  | [], [], _ => rfl
  | [], _ :: _, h => by simp [EqualList] at h
  | _ :: _, [], h => by simp [EqualList] at h
  | v :: vs, w :: ws, h => by
    obtain ⟨h1, h2⟩ : _ ∧ _ := h
    simp only [encodeList]
    rw [encode_equal v w h1, encodeList_equal vs ws h2]
end

/-- Values of one type, as far as storage is concerned: not a BOOL against an INT64. -/
def Comparable (v w : Val) : Prop := (∃ b, v = .bool b) ↔ (∃ b, w = .bool b)

/-- C91: the stored forms of two values of one type are the same exactly when the values are, so UNION DISTINCT,
INTERSECT DISTINCT and EXCEPT DISTINCT, which SQLite decides on the stored forms, see duplicates exactly where there
are some. -/
theorem C91 (v w : Val) (hv : Canon v) (hw : Canon w) (hvw : v = .null ∨ w = .null ∨ Comparable v w) :
    store (encode v) = store (encode w) ↔ Equal v w := by
  constructor
  · intro h
    apply encode_inj v w hv hw
    rcases hvw with rfl | rfl | hvw
    · have := (C20_null w).1 h.symm
      rw [this]
    · have := (C20_null v).1 h
      rw [this]
    · cases v with
      | bool b =>
        obtain ⟨c, rfl⟩ := hvw.1 ⟨b, rfl⟩
        cases b <;> cases c <;> first | rfl | (simp [encode, store] at h)
      | _ =>
        cases w with
        | bool c => obtain ⟨b, hb⟩ := hvw.2 ⟨c, rfl⟩; cases hb
        | _ => exact h
  · intro h
    rw [encode_equal v w h]

/-- Two arrays with NULLs in different places. -/
example : ¬ store (encode (.arr [.null, .str ['a']])) = store (encode (.arr [.str ['a'], .null])) := by
  rw [C91 _ _ (by simp [Canon, CanonList]) (by simp [Canon, CanonList]) (.inr (.inr (by simp [Comparable])))]
  simp [Equal, EqualList]

end Verif.Codec
