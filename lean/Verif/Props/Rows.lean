import Verif.Model.Rows
import Verif.Props.Cast
import Verif.Props.TimestampText

/-!
# Results as the user sees them: C77, C107, C108, C109
-/

namespace Verif.Rows

open Go Verif.Val Codec Cast

/-! ### Columns of scalar types -/

/-- The values of the types that are neither arrays nor structs, as SQL documents them. -/
def Column : Ty → Val → Prop
  | .int, .int i => InI64 i
  | .bool, .bool _ => True
  | .str, .str _ => True
  | .bytes, .bytes _ => True
  | .num false, .num r false => ∃ n : Int, r = mkRat n (10 ^ 9)
  | .num true, .num r true => ∃ n : Int, r = mkRat n (10 ^ 38)
  | .time .date, .time .date t => tod t = 0 ∧ 1 ≤ yearOf (tDay t) ∧ yearOf (tDay t) ≤ 9999
  | .time .datetime, .time .datetime t => t % 1000 = 0 ∧ 1 ≤ yearOf (tDay t) ∧ yearOf (tDay t) ≤ 9999
  | .time .time, .time .time t => t % 1000 = 0
  | .time .timestamp, .time .timestamp t => t % 1000 = 0 ∧ -62135596800000000000 ≤ t ∧ t < 253402300800000000000
  | _, _ => False

/-- What a column of a scalar type shows. -/
def shown : Val → Out
  | .int i => .int i
  | .bool b => .bool b
  | .str s => .str s
  | .bytes b => .str (Base64.encode b)
  | .num r big => .str (numText r big)
  | .time .timestamp t => .str (TimestampText.render (tUnixMicro t))
  | .time k t => .str (timeText k t)
  | _ => .nil

theorem column_canon {ty : Ty} {v : Val} (h : Column ty v) : Canon v := by
  cases v with
  | null => cases ty <;> simp [Column] at h
  | int i => cases ty <;> first | exact h | (simp [Column] at h)
  | bool b => exact trivial
  | str s => exact trivial
  | bytes b => exact trivial
  | num r big => exact trivial
  | time k t =>
    cases ty <;> try (simp [Column] at h; done)
    case time k' => cases k <;> cases k' <;> first | exact h | (simp [Column] at h; done)
  | arr vs => cases ty <;> simp [Column] at h
  | struct ks vs => cases ty <;> simp [Column] at h

theorem clockText_tod (w : Nat) {a b : Int} (h : tod a = tod b) : clockText w a = clockText w b := by
  unfold clockText fracText tHour tMinute tSecond tNano
  rw [h]

theorem read_column (other : List Char → Rat) {ty : Ty} {v : Val} (h : Column ty v) : read other ty (store (encode v)) = .ok (shown v) := by
  have hc := column_canon h
  have hd := decode_encode v hc
  have hr : read other ty (store (encode v)) = (decode (store (encode v))).bind fun d => (castD other ty d).bind fun w => assign other ty w := by
    cases v <;> first | rfl | (cases ty <;> simp [Column] at h)
  rw [hr, hd, Res.bind'_ok]
  cases ty <;> cases v <;> try (exfalso; simp [Column] at h; done)
  case int.int i => rfl
  case bool.bool b => cases b <;> rfl
  case str.str s => rfl
  case bytes.bytes b => rfl
  case num.num b r b' =>
    have hb : b' = b := by cases b <;> cases b' <;> first | rfl | (simp [Column] at h)
    subst hb
    rfl
  case time.time k k' t =>
    cases k <;> cases k' <;> try (exfalso; simp [Column] at h; done)
    case date =>
      have e : backTime .date t = t := by simp only [backTime, h.1]; omega
      simp [backTop, back, e, castD, scalarOf, castValue, Cast.toTime, ofScalarVal, assign, scalarOut, toStr, shown]
    case datetime =>
      have e : backTime .datetime t = t := by simp only [backTime, tod_us t h.1]; omega
      simp [backTop, back, e, castD, scalarOf, castValue, Cast.toTime, ofScalarVal, assign, scalarOut, toStr, shown]
    case time =>
      have e := clockText_tod 6 (backTime_time t h)
      simp [backTop, back, castD, scalarOf, castValue, Cast.toTime, ofScalarVal, assign, scalarOut, toStr, shown, timeText, e]
    case timestamp =>
      have e : backTime .timestamp t = t := by have := h.1; simp only [backTime, tUnixMicro, us]; omega
      simp [backTop, back, e, castD, scalarOf, castValue, Cast.toTime, ofScalarVal, assign, scalarOut, shown]

/-! ### C77 -/

/-- C77: an INT64 column gives the stored integer as an int64, a BOOL column the truth value, a STRING column the text, and
NULL of any type gives nil. -/
theorem C77 (other : List Char → Rat) :
    (∀ i, InI64 i → read other .int (store (encode (.int i))) = .ok (.int i)) ∧
    (∀ b, read other .bool (store (encode (.bool b))) = .ok (.bool b)) ∧
    (∀ s, read other .str (store (encode (.str s))) = .ok (.str s)) ∧
    (∀ ty, read other ty (store (encode .null)) = .ok .nil) :=
  ⟨fun _ h => read_column other (ty := .int) h, fun _ => read_column other (ty := .bool) trivial,
    fun _ => read_column other (ty := .str) trivial, fun _ => rfl⟩

example : InI64 (-9223372036854775808) := by decide

/-! ### C107: results determine the values -/

theorem dateText_inj {t u : Int} (ht : 1 ≤ yearOf (tDay t) ∧ yearOf (tDay t) ≤ 9999) (hu : 1 ≤ yearOf (tDay u) ∧ yearOf (tDay u) ≤ 9999)
    (h : dateText t = dateText u) : t - tod t = u - tod u := by
  have h1 := parseDate_text t (by omega) ht.2
  have h2 := parseDate_text u (by omega) hu.2
  rw [h, h2] at h1
  exact (Option.some.inj h1).symm

/-- C107: a column of any scalar type shows a non-NULL value as something else than nil, and different values as different
things. -/
theorem C107 (other : List Char → Rat) (ty : Ty) (v w : Val) (hv : Column ty v) (hw : Column ty w) :
    ∃ a b, read other ty (store (encode v)) = .ok a ∧ read other ty (store (encode w)) = .ok b ∧ a ≠ .nil ∧ (a = b → Equal v w) := by
  refine ⟨_, _, read_column other hv, read_column other hw, ?_, ?_⟩
  · cases v <;> first | (cases ty <;> simp [Column] at hv; done) | (simp [shown]; done) | skip
    case time k t => cases k <;> simp [shown]
  · intro h
    cases ty <;> cases v <;> try (exfalso; simp [Column] at hv; done)
    all_goals cases w <;> try (exfalso; simp [Column] at hw; done)
    case int.int.int i j => simpa [shown, Equal] using h
    case bool.bool.bool b c => simpa [shown, Equal] using h
    case str.str.str s s' => simpa [shown, Equal] using h
    case bytes.bytes.bytes b c =>
      simp only [shown, Out.str.injEq] at h
      have h1 := Base64.decode_encode b
      rw [h, Base64.decode_encode] at h1
      exact (Option.some.inj h1).symm
    case num.num.num b r b1 r' b2 =>
      have e1 : b1 = b ∧ ∃ n : Int, r = mkRat n (10 ^ places b) := by
        cases b <;> cases b1 <;> first | exact ⟨rfl, hv⟩ | (simp [Column] at hv)
      have e2 : b2 = b ∧ ∃ n : Int, r' = mkRat n (10 ^ places b) := by
        cases b <;> cases b2 <;> first | exact ⟨rfl, hw⟩ | (simp [Column] at hw)
      obtain ⟨rfl, n, rfl⟩ := e1
      obtain ⟨rfl, m, rfl⟩ := e2
      simp only [shown, Out.str.injEq] at h
      have h1 := setString_numText (fun _ => 0) n b2
      rw [h, setString_numText] at h1
      exact ⟨h1.symm, rfl⟩
    case time.time.time k k1 t k2 u =>
      cases k <;> cases k1 <;> try (exfalso; simp [Column] at hv; done)
      all_goals cases k2 <;> try (exfalso; simp [Column] at hw; done)
      case date =>
        simp only [shown, timeText, Out.str.injEq] at h
        have := dateText_inj hv.2 hw.2 h
        rw [hv.1, hw.1] at this
        exact ⟨rfl, by omega⟩
      case datetime =>
        simp only [shown, timeText, Out.str.injEq] at h
        have h1 := parseDatetime_text (w := 6) (by omega) 'T' t (by have := hv.2.1; omega) hv.2.2
        have h2 := parseDatetime_text (w := 6) (by omega) 'T' u (by have := hw.2.1; omega) hw.2.2
        rw [h, h2, tod_us t hv.1, tod_us u hw.1] at h1
        have := Option.some.inj h1
        exact ⟨rfl, by omega⟩
      case time =>
        simp only [shown, timeText, Out.str.injEq] at h
        have h1 := parseClock_text (w := 6) (by omega) t
        have h2 := parseClock_text (w := 6) (by omega) u
        rw [h, h2, tod_us t hv, tod_us u hw] at h1
        have := Option.some.inj h1
        show tod t = tod u
        omega
      case timestamp =>
        simp only [shown, Out.str.injEq] at h
        obtain ⟨a0, a1, a2⟩ : _ ∧ _ ∧ _ := hv
        obtain ⟨b0, b1, b2⟩ : _ ∧ _ ∧ _ := hw
        have := TimestampText.C21_injective _ _ (by unfold InI64 tUnixMicro us; omega) (by unfold InI64 tUnixMicro us; omega) h
        unfold tUnixMicro us at this
        exact ⟨rfl, by omega⟩

/-- Two timestamps that differ by a microsecond. -/
example : Column (.time .timestamp) (.time .timestamp 1000) ∧ Column (.time .timestamp) (.time .timestamp (-1000)) := by
  unfold Column; decide

/-! ### C108: arrays -/

open Verif.Logic in
/-- C108: a column of type ARRAY shows the list of what columns of the element type would show, NULL elements as nil. -/
def C108_full : Prop := ∀ (other : List Char → Rat) (e : Ty) (vs : List Val) (outs : List Out), CanonList vs →
  All2 (fun v o => read other e (store (encode v)) = .ok o) vs outs →
    read other (.arr e) (store (encode (.arr vs))) = .ok (.list outs)

/-- INT64 elements are numbers FLOAT64 can represent; INT64 and BOOL values are in arrays of INT64 and BOOL. -/
def Exact (e : Ty) (v : Val) : Prop := (∀ i, v = .int i → e = .int ∧ f64 i = i) ∧ (∀ b, v = .bool b → e = .bool)

theorem assign_null (other : List Char → Rat) (ty : Ty) (o : Out) : assign other ty .null ≠ .ok o := by
  cases ty <;> simp [assign, scalarOf, scalarOut, toI64, toInt64, toB, Val.toBool, toStr, Cast.toTime, Res.bind]
  case time k => cases k <;> simp [scalarOut, toStr, Cast.toTime, Res.bind]

/-- The element read inside an array. -/
theorem read_elem (other : List Char → Rat) {e : Ty} {v : Val} {o : Out} (hc : Canon v) (hx : Exact e v)
    (h : read other e (store (encode v)) = .ok o) :
    ∃ w, castD other e (back v) = .ok w ∧ (match w with | .null => Res.ok Out.nil | d => assign other e d) = .ok o := by
  have hd := decode_encode v hc
  by_cases hn : v = .null
  · subst hn
    refine ⟨.null, by cases e <;> rfl, ?_⟩
    exact h
  · have hr : read other e (store (encode v)) = (decode (store (encode v))).bind fun d => (castD other e d).bind fun w => assign other e w := by
      cases v <;> first | rfl | exact absurd rfl hn
    rw [hr, hd, Res.bind'_ok] at h
    have hcast : castD other e (back v) = castD other e (backTop v) := by
      cases v with
      | int i =>
        obtain ⟨rfl, hf⟩ := hx.1 i rfl
        have hi : InI64 i := hc
        simp only [back, backTop, hf, castD, floatInt, if_pos hi, scalarOf, castValue, toI64, toInt64, Res.bind'_ok, ofScalarVal]
      | bool b =>
        obtain rfl := hx.2 b rfl
        cases b <;> rfl
      | _ => rfl
    rw [← hcast] at h
    cases hw : castD other e (back v) with
    | err => rw [hw] at h; cases h
    | panic => rw [hw] at h; cases h
    | ok w =>
      rw [hw, Res.bind'_ok] at h
      refine ⟨w, rfl, ?_⟩
      cases w with
      | null => exact absurd h (assign_null other e o)
      | _ => exact h

open Verif.Logic in
/-- C108, partial: right when the INT64 elements are numbers FLOAT64 can represent.  Missing: the others, which are
rounded. -/
theorem C108_partial (other : List Char → Rat) (e : Ty) (vs : List Val) (outs : List Out) (hc : CanonList vs)
    (hx : ∀ v ∈ vs, Exact e v) (h : All2 (fun v o => read other e (store (encode v)) = .ok o) vs outs) :
    read other (.arr e) (store (encode (.arr vs))) = .ok (.list outs) := by
  have hd := decode_encode (.arr vs) hc
  have hr : read other (.arr e) (store (encode (.arr vs))) = (decode (store (encode (.arr vs)))).bind fun d => (castD other (.arr e) d).bind fun w => assign other (.arr e) w := rfl
  rw [hr, hd, Res.bind'_ok]
  have key : ∃ ws, mapRes (castD other e) (backList vs) = .ok ws ∧
      mapRes (fun d => match d with | .null => Res.ok Out.nil | d => assign other e d) ws = .ok outs := by
    clear hd hr
    induction h with
    | nil => exact ⟨[], rfl, rfl⟩
    | @cons v o vs outs h1 _ ih =>
      obtain ⟨w, hw, ho⟩ := read_elem other hc.1 (hx v (by simp)) h1
      obtain ⟨ws, hws, hos⟩ := ih hc.2 fun v hv => hx v (by simp [hv])
      refine ⟨w :: ws, ?_, ?_⟩
      · simp only [backList, mapRes, hw, hws, Res.bind'_ok]
      · simp only [mapRes, hos]
        rw [ho, Res.bind'_ok, Res.bind'_ok]
  obtain ⟨ws, h1, h2⟩ := key
  simp only [backTop, back, castD, h1, Res.bind'_ok, assign]
  exact congrArg (fun r => r.bind fun xs => Res.ok (Out.list xs)) h2

/-- SELECT [9007199254740993] gives 9007199254740992. -/
theorem C108_full_false : ¬ C108_full := by
  intro h
  have hc : CanonList [.int 9007199254740993] := ⟨(by decide : InI64 _), trivial⟩
  have := h (fun _ => 0) .int [.int 9007199254740993] [.int 9007199254740993] hc (.cons ((C77 _).1 _ (by decide)) .nil)
  have hd := decode_encode (.arr [.int 9007199254740993]) hc
  have hr : read (fun _ => 0) (.arr .int) (store (encode (.arr [.int 9007199254740993]))) =
    (decode (store (encode (.arr [.int 9007199254740993])))).bind fun d => (castD (fun _ => 0) (.arr .int) d).bind fun w => assign (fun _ => 0) (.arr .int) w := rfl
  rw [hr, hd, Res.bind'_ok] at this
  simp only [backTop, back, backList, f64_edge, castD, mapRes, Res.bind'_ok, assign, scalarOf, scalarOut, toI64, toInt64] at this
  injection this with this
  injection this with this
  injection this with this
  injection this with this
  exact absurd this (by decide)

example : Exact .int (.int 7) ∧ Exact .int .null ∧ Exact .str (.str ['a']) := by
  refine ⟨⟨?_, by simp⟩, ⟨by simp, by simp⟩, ⟨by simp, by simp⟩⟩
  intro i hi
  cases hi
  exact ⟨rfl, f64_exact (by decide) (by decide)⟩

/-! ### C109: structs -/

/-- What columns of the field types would show. -/
inductive FieldsRead (other : List Char → Rat) : List Ty → List Val → List Out → Prop where
  | nil : FieldsRead other [] [] []
  | cons {t ts v vs o outs} : read other t (store (encode v)) = .ok o → FieldsRead other ts vs outs →
      FieldsRead other (t :: ts) (v :: vs) (o :: outs)

/-- C109: a column of type STRUCT shows, with the field names, what columns of the field types would show. -/
def C109_full : Prop := ∀ (other : List Char → Rat) (ks : List (List Char)) (ts : List Ty) (vs : List Val) (outs : List Out),
  ks.length = vs.length → CanonList vs → FieldsRead other ts vs outs →
    read other (.struct ks ts) (store (encode (.struct ks vs))) = .ok (.fields ks outs)

theorem read_struct (other : List Char → Rat) (ks : List (List Char)) (ts : List Ty) (vs : List Val) (hl : ks.length = vs.length) (hc : CanonList vs) :
    read other (.struct ks ts) (store (encode (.struct ks vs))) =
      (castD other (.struct ks ts) (.struct ks (backList vs))).bind fun w => assign other (.struct ks ts) w := by
  have hd := decode_encode (.struct ks vs) ⟨hl, hc⟩
  have hr : read other (.struct ks ts) (store (encode (.struct ks vs))) =
    (decode (store (encode (.struct ks vs)))).bind fun d => (castD other (.struct ks ts) d).bind fun w => assign other (.struct ks ts) w := rfl
  rw [hr, hd, Res.bind'_ok]
  rfl

/-- A NUMERIC column shows 1.5; in a struct it is 3/2. -/
theorem C109_full_false : ¬ C109_full := by
  intro h
  have hx : (mkRat 3 2 : Rat) = mkRat 1500000000 (10 ^ 9) := by decide_cbv
  have := h (fun _ => 0) [['a']] [.num false] [.num (mkRat 3 2) false] [.str (numText (mkRat 3 2) false)] rfl ⟨trivial, trivial⟩
    (.cons (read_column _ (ty := .num false) ⟨1500000000, hx⟩) .nil)
  rw [read_struct _ _ _ [.num (mkRat 3 2) false] rfl ⟨trivial, trivial⟩] at this
  have e : ((castD (fun _ => 0) (.struct [['a']] [.num false]) (.struct [['a']] (backList [.num (mkRat 3 2) false]))).bind
    fun w => assign (fun _ => 0) (.struct [['a']] [.num false]) w) = .ok (.fields [['a']] [.str ['3', '/', '2']]) := by
      rfl
  rw [e] at this
  simp only [Res.ok.injEq, Out.fields.injEq, true_and, List.cons.injEq, Out.str.injEq, and_true] at this
  exact absurd this (by decide_cbv)

/-- A TIMESTAMP in a struct loses its fraction of a second. -/
theorem C109_timestamp_false : ¬ ∀ (other : List Char → Rat) (t u : Int), Column (.time .timestamp) (.time .timestamp t) → Column (.time .timestamp) (.time .timestamp u) →
    read other (.struct [['a']] [.time .timestamp]) (store (encode (.struct [['a']] [.time .timestamp t]))) =
      read other (.struct [['a']] [.time .timestamp]) (store (encode (.struct [['a']] [.time .timestamp u]))) → t = u := by
  intro h
  have h1 : Column (.time .timestamp) (.time .timestamp 0) := by unfold Column; decide
  have h2 : Column (.time .timestamp) (.time .timestamp 500000000) := by unfold Column; decide
  have := h (fun _ => 0) 0 500000000 h1 h2 (by
    rw [read_struct _ _ _ [.time .timestamp 0] rfl ⟨column_canon h1, trivial⟩, read_struct _ _ _ [.time .timestamp 500000000] rfl ⟨column_canon h2, trivial⟩]
    rfl)
  cases this

/-- An INT64 in a struct without field names becomes a FLOAT64. -/
theorem C109_anonymous_false (other : List Char → Rat) (i : Int) (hi : InI64 i) :
    read other (.struct [[]] [.int]) (store (encode (.struct [[]] [.int i]))) = .ok (.fields [[]] [.flt (f64 i)]) := by
  rw [read_struct _ _ _ [.int i] rfl ⟨hi, trivial⟩]
  rfl

/-- The values shown alike in columns and structs: no NUMERIC, no BYTES, no TIMESTAMP, and INT64 within FLOAT64. -/
def Plain (t : Ty) (v : Val) : Prop :=
  v = .null ∨ (Column t v ∧ match v with
    | .int i => f64 i = i
    | .num _ _ => False
    | .bytes _ => False
    | .time .timestamp _ => False
    | _ => True)

theorem castFieldsD_ok (other : List Char → Rat) (m : List Char → Option DVal) : ∀ (ks : List (List Char)) (ts : List Ty) (ds ws : List DVal),
    ks.length = ds.length → ts.length = ds.length → (∀ p ∈ ks.zip ds, m p.1 = some p.2) →
    (∀ p ∈ ts.zip (ds.zip ws), castD other p.1 p.2.1 = .ok p.2.2) → ws.length = ds.length → castFieldsD other ks ts m = .ok ws
  | [], [], [], [], _, _, _, _, _ => by simp only [castFieldsD]
  | k :: ks, t :: ts, d :: ds, w :: ws, h1, h2, hm, hw, h3 => by
    have hk := hm (k, d) (by simp)
    have hc := hw (t, d, w) (by simp)
    have ih := castFieldsD_ok other m ks ts ds ws (by simpa using h1) (by simpa using h2) (fun p hp => hm p (by simp [hp]))
      (fun p hp => hw p (by simp [hp])) (by simpa using h3)
    simp only [castFieldsD, hk, hc, ih, Res.bind'_ok]
  | [], _ :: _, [], _, _, h, _, _, _ => by simp at h
  | [], _, _ :: _, _, h, _, _, _, _ => by simp at h
  | _ :: _, _, [], _, h, _, _, _, _ => by simp at h
  | _ :: _, [], _ :: _, _, _, h, _, _, _ => by simp at h
  | _, _, [], _ :: _, _, _, _, _, h => by simp at h
  | _, _, _ :: _, [], _, _, _, _, h => by simp at h

theorem plain_field (other : List Char → Rat) {t : Ty} {v : Val} {o : Out} (hp : Plain t v) (h : read other t (store (encode v)) = .ok o) :
    Canon v ∧ ∃ w, castD other t (back v) = .ok w ∧ iface w = o := by
  rcases hp with rfl | ⟨hcol, hx⟩
  · refine ⟨trivial, .null, by cases t <;> rfl, ?_⟩
    cases h
    rfl
  · have hc := column_canon hcol
    refine ⟨hc, ?_⟩
    rw [read_column other hcol] at h
    cases h
    cases t <;> cases v <;> try (exfalso; first | (simp [Column] at hcol; done) | exact hx)
    case int.int i =>
      refine ⟨.int i, ?_, rfl⟩
      have hi : InI64 i := hcol
      have hx : f64 i = i := hx
      simp only [back, hx, castD, floatInt, if_pos hi]
    case bool.bool b => exact ⟨.bool b, rfl, rfl⟩
    case str.str s => exact ⟨.str s, rfl, rfl⟩
    case time.time k k' u =>
      have hk : k' = k := by cases k <;> cases k' <;> first | rfl | (simp [Column] at hcol)
      subst hk
      refine ⟨.time k' (backTime k' u), by rfl, ?_⟩
      cases k' with
      | date =>
        have e : backTime .date u = u := by simp only [backTime, hcol.1]; omega
        simp only [iface, shown, e]
      | datetime =>
        have e : backTime .datetime u = u := by simp only [backTime, tod_us u hcol.1]; omega
        simp only [iface, shown, e]
      | time =>
        have e := clockText_tod 6 (backTime_time u hcol)
        simp only [iface, shown, timeText, e]
      | timestamp => exact hx.elim

/-- C109, partial: right for structs with distinct names, not all empty, whose fields are NULL or plain.  Missing: NUMERIC,
BYTES and TIMESTAMP fields, large INT64 fields, structs without names, and nested arrays and structs. -/
theorem C109_partial (other : List Char → Rat) (ks : List (List Char)) (ts : List Ty) (vs : List Val) (outs : List Out)
    (hl : ks.length = vs.length) (hn : ks.Nodup) (h0 : ∃ k ∈ ks, k ≠ []) (hp : ∀ p ∈ ts.zip vs, Plain p.1 p.2)
    (h : FieldsRead other ts vs outs) :
    read other (.struct ks ts) (store (encode (.struct ks vs))) = .ok (.fields ks outs) := by
  have key : CanonList vs ∧ ts.length = vs.length ∧ ∃ ws, ws.length = vs.length ∧ ifaceList ws = outs ∧
      ∀ p ∈ ts.zip ((backList vs).zip ws), castD other p.1 p.2.1 = .ok p.2.2 := by
    clear hl hn h0
    induction h with
    | nil => exact ⟨trivial, rfl, [], rfl, rfl, by simp⟩
    | @cons t ts v vs o outs h1 _ ih =>
      obtain ⟨hc, w, hw, ho⟩ := plain_field other (hp (t, v) (by simp)) h1
      obtain ⟨hcs, hlen, ws, hws, hos, hall⟩ := ih fun p hp' => hp p (by simp [hp'])
      refine ⟨⟨hc, hcs⟩, by simp [hlen], w :: ws, by simp [hws], by simp [ifaceList, ho, hos], ?_⟩
      intro p hp'
      simp only [backList, List.zip_cons_cons, List.mem_cons] at hp'
      rcases hp' with rfl | hp'
      · exact hw
      · exact hall p hp'
  obtain ⟨hc, hlen, ws, hws, hos, hall⟩ := key
  rw [read_struct other ks ts vs hl hc]
  have hbl := backList_length vs
  have ha : (ks.all fun k => decide (k = [])) = false := by
    obtain ⟨k, hk, hne⟩ := h0
    rw [List.all_eq_false]
    exact ⟨k, hk, by simp [hne]⟩
  have hm : ∀ p ∈ ks.zip (backList vs), (List.zip ks (backList vs)).reverse.lookup p.1 = some p.2 := by
    rintro ⟨k, v⟩ hp
    apply lookup_unique
    · simpa using hp
    · intro v' h'
      exact zip_unique ks _ hn k v v' hp (by simpa using h')
  have hf := castFieldsD_ok other (fun k => (List.zip ks (backList vs)).reverse.lookup k) ks ts (backList vs) ws (by omega) (by omega) hm hall (by omega)
  simp only [castD, ha, Bool.false_eq_true, if_false, hf, Res.bind'_ok, assign, iface, hos]

example : Plain .int (.int 7) ∧ Plain .str .null ∧ Plain (.time .date) (.time .date 0) :=
  ⟨.inr ⟨(by decide : InI64 7), f64_exact (by decide) (by decide)⟩, .inl rfl, .inr ⟨by unfold Column; decide, trivial⟩⟩

end Verif.Rows
