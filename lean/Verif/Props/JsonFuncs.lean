import Verif.Model.JsonFuncs
import Verif.Props.ToJson
import Verif.Props.Float

/-!
# C193-C201: JSON_VALUE, JSON_QUERY, their array and legacy forms, JSON_TYPE, PARSE_JSON and STRING
-/

namespace Verif.JsonFuncs

open Go JsonSpec ToJson Verif.Val

/-- The library does its work: the path is one, it selects the values `xs` of the document and their texts `ts`, texts are
compacted and split into elements as they should be, and a number is written as fmt.Sprint writes a float64. -/
structure Works (L : Lib) (path doc : List Char) (p : L.Path) (xs : List Json) (ts : List (List Char)) : Prop where
  create : L.create path = .ok p
  values : L.unmarshal p doc = .ok xs
  texts : L.extract p doc = .ok ts
  denote : ts.map parse = xs.map some
  compact : ∀ t j, parse t = some j → ∃ c, L.compact t = .ok c ∧ parse c = some j ∧ (j = .null → c = nullText)
  split : ∀ t ∈ ts, ∀ ys, parse t = some (.arr ys) → ∃ es, L.raws (t.dropWhile (· = ' ')) = .ok es ∧ es.map parse = ys.map some ∧
    ∀ e ∈ es, parse e = some .null → e = nullText
  integral : ∀ n : Int, n.natAbs < 2 ^ 53 → L.sprint n = sprintIntegral (decide (n < 0)) n.natAbs
  number : ∀ r, L.sprint r ≠ nullText

/-- A library for the path $ that splits the arrays [7,null] and [] only; the texts of other numbers than integers below
2⁵³ are "x". -/
def rootLib : Lib where
  Path := Unit
  create _ := .ok ()
  dq _ := false
  sq _ := false
  unmarshal _ s := match parse s with | some j => .ok [j] | none => .err
  extract _ s := .ok [s]
  compact s := match parse s with | some .null => .ok nullText | some _ => .ok s | none => .err
  raws s := if s = ['[', '7', ',', 'n', 'u', 'l', 'l', ']'] then .ok [['7'], nullText] else if s = ['[', ']'] then .ok [] else .err
  decode s := match parse s with | some j => .ok j | none => .err
  sprint r := if r.den = 1 ∧ r.num.natAbs < 2 ^ 53 then sprintIntegral (decide (r.num < 0)) r.num.natAbs else ['x']
  sprintAny _ := []

theorem parse_null : parse nullText = some .null := by rfl

theorem compact_root (t : List Char) (j : Json) (h : parse t = some j) :
    ∃ c, rootLib.compact t = .ok c ∧ parse c = some j ∧ (j = .null → c = nullText) := by
  unfold rootLib
  simp only [h]
  cases j with
  | null => exact ⟨_, rfl, parse_null, fun _ => rfl⟩
  | _ => exact ⟨_, rfl, h, fun e => by cases e⟩

theorem no_n (n : Nat) : 'n' ∉ decNat n := by
  intro h
  have := decNat_digits n _ h
  revert this
  decide

theorem sprintIntegral_head (s : Bool) (n : Nat) : (sprintIntegral s n).head? ≠ some 'n' := by
  have key : (decNat n).head? ≠ some 'n' := fun h => no_n n (List.mem_of_mem_head? h)
  unfold sprintIntegral
  cases s with
  | true => simp
  | false =>
    simp only [Bool.false_eq_true, if_false]
    by_cases hn : n < 1000000
    · rw [if_pos hn]; exact key
    · rw [if_neg hn]
      have hm : ∀ c ∈ stripZeros (decNat n), c ≠ 'n' := by
        intro c hc e
        subst e
        unfold stripZeros at hc
        have := List.mem_reverse.1 hc
        exact no_n n (List.mem_reverse.1 ((List.dropWhile_sublist _).mem this))
      split
      · simp
      · rename_i d hd
        simp only [List.head?_cons]
        intro e
        exact hm d (by rw [hd]; simp) (Option.some.inj e)
      · rename_i d r _ hd
        intro e
        exact hm d (by rw [hd]; simp) (Option.some.inj e)

theorem root_integral (n : Int) (h : n.natAbs < 2 ^ 53) : rootLib.sprint n = sprintIntegral (decide (n < 0)) n.natAbs := by
  unfold rootLib
  exact if_pos ⟨rfl, h⟩

theorem root_number (r : Rat) : rootLib.sprint r ≠ nullText := by
  show (if r.den = 1 ∧ r.num.natAbs < 2 ^ 53 then sprintIntegral (decide (r.num < 0)) r.num.natAbs else ['x']) ≠ nullText
  split
  · intro h
    apply sprintIntegral_head (decide (r.num < 0)) r.num.natAbs
    rw [h]
    rfl
  · decide

theorem rootWorks {doc : List Char} {j : Json} (h : parse doc = some j)
    (hs : ∀ ys, j = .arr ys → ∃ es, rootLib.raws (doc.dropWhile (· = ' ')) = .ok es ∧ es.map parse = ys.map some ∧
      ∀ e ∈ es, parse e = some .null → e = nullText) :
    Works rootLib ['$'] doc () [j] [doc] where
  create := rfl
  values := by unfold rootLib; simp only [h]
  texts := rfl
  denote := by simp [h]
  compact := compact_root
  split t ht ys hy := by
    rw [List.mem_singleton] at ht
    subst ht
    exact hs ys (Option.some.inj (h.symm.trans hy))
  integral := root_integral
  number := root_number

/-! ## C193: JSON_VALUE -/

/-- What JSON_VALUE is documented to return for the selected value: nothing, JSON null, arrays and objects give NULL, a
string its characters, a boolean its name, an integer its decimal digits; other numbers some text. -/
def ScalarText : Option Json → Option (List Char) → Prop
  | some (.str s), r => r = some s
  | some (.bool b), r => r = some (if b then ['t', 'r', 'u', 'e'] else ['f', 'a', 'l', 's', 'e'])
  | some (.num x), r => ∃ t, r = some t ∧ ∀ n : Int, x = n → n.natAbs < 2 ^ 53 → t = decInt n
  | some .null, r => r = none
  | some (.arr _), r => r = none
  | some (.obj _), r => r = none
  | none, r => r = none

/-- The text of the scalar at the path, for every document. -/
def C193_full : Prop :=
  ∀ (L : Lib) (path doc : List Char) (p : L.Path) (xs : List Json) (ts : List (List Char)), Works L path doc p xs ts → L.sq p = false →
    ∃ r, bound (jsonValue L) (some doc) (some path) = .ok r ∧ ScalarText xs.head? r

theorem sprint_dec (n : Int) : sprintIntegral (decide (n < 0)) n.natAbs = decInt n ↔ n.natAbs < 10 ^ 6 := by
  have h := Float.C169_partial (decide (n < 0)) n.natAbs
  have e : (if decide (n < 0) = true ∧ n.natAbs ≠ 0 then '-' :: decNat n.natAbs else decNat n.natAbs) = decInt n := by
    unfold decInt
    by_cases hn : n < 0
    · rw [if_pos hn, if_pos ⟨by simpa using hn, by omega⟩]
    · rw [if_neg hn, if_neg (by simp [hn])]
  rw [e] at h
  unfold Float.toStringIntegral at h
  constructor
  · intro h1
    exact (h.1 (by rw [h1])).1
  · intro h1
    have := h.2 ⟨h1, by rintro ⟨h2, h3⟩; simp at h2; omega⟩
    exact Res.ok.inj this

/-- C193: right exactly if the path does not select an integer of seven digits or more (below 2⁵³).  With a quoted selector
of the wrong kind the function fails, with a NULL argument it returns NULL. -/
theorem C193_partial (L : Lib) (path doc : List Char) (p : L.Path) (xs : List Json) (ts : List (List Char)) (hw : Works L path doc p xs ts) :
    (L.sq p = false → ∃ r, bound (jsonValue L) (some doc) (some path) = .ok r ∧
      (ScalarText xs.head? r ↔ ∀ n : Int, xs.head? = some (.num n) → n.natAbs < 2 ^ 53 → n.natAbs < 10 ^ 6)) ∧
    (L.sq p = true → bound (jsonValue L) (some doc) (some path) = .err) ∧
    (∀ a, bound (jsonValue L) none a = .ok none) ∧ (∀ a, bound (jsonValue L) a none = .ok none) := by
  refine ⟨fun hq => ?_, fun hq => ?_, fun a => rfl, fun a => by cases a <;> rfl⟩
  · simp only [bound, jsonValue, hw.create, Res.bind, hq, hw.values]
    cases xs with
    | nil => exact ⟨none, rfl, by simp [ScalarText]⟩
    | cons x xs =>
      cases x with
      | null => exact ⟨none, rfl, by simp [ScalarText]⟩
      | arr ys => exact ⟨none, rfl, by simp [ScalarText]⟩
      | obj ys => exact ⟨none, rfl, by simp [ScalarText]⟩
      | bool b => exact ⟨_, rfl, by simp [ScalarText, sprintJson]⟩
      | str s => exact ⟨_, rfl, by simp [ScalarText, sprintJson]⟩
      | num x =>
        refine ⟨some (L.sprint x), rfl, ?_⟩
        constructor
        · rintro ⟨t, h1, h2⟩ n h3 h4
          cases h1
          cases h3
          rw [← sprint_dec, ← hw.integral n h4]
          exact h2 n rfl h4
        · intro h
          refine ⟨_, rfl, fun n h3 h4 => ?_⟩
          subst h3
          rw [hw.integral n h4, sprint_dec]
          exact h n rfl h4
  · simp only [bound, jsonValue, hw.create, Res.bind, hq, if_true]

/-- JSON_VALUE('1000000', '$') is 1e+06. -/
theorem C193_full_false : ¬ C193_full := by
  intro h
  have hp : parse ['1', '0', '0', '0', '0', '0', '0'] = some (.num 1000000) := by cbv
  have hw := rootWorks hp (fun ys e => by cases e)
  have h1 := h rootLib _ _ _ _ _ hw rfl
  obtain ⟨r, h2, h3⟩ := h1
  obtain ⟨r', h2', h3'⟩ := (C193_partial rootLib _ _ _ _ _ hw).1 rfl
  rw [h2] at h2'
  cases h2'
  have := h3'.1 h3 1000000 rfl (by decide)
  omega

example : jsonValue rootLib ['1', '0', '0', '0', '0', '0', '0'] ['$'] = .ok (some ['1', 'e', '+', '0', '6']) ∧
    jsonValue rootLib ['"', 'a', '\\', 'n', '"'] ['$'] = .ok (some ['a', '\n']) ∧ jsonValue rootLib ['[', ']'] ['$'] = .ok none := by
  decide_cbv

/-! ## C194: JSON_EXTRACT_SCALAR -/

/-- The legacy function selects the same way: it returns what JSON_VALUE returns, for paths without quoted selectors. -/
def C194_full : Prop :=
  ∀ (L : Lib) (path doc : List Char) (p : L.Path) (xs : List Json) (ts : List (List Char)), Works L path doc p xs ts → L.sq p = false → L.dq p = false →
    bound (jsonExtractScalar L) (some doc) (some path) = bound (jsonValue L) (some doc) (some path)

/-- C194: it does exactly if the path does not select JSON null; there the legacy function panics. -/
theorem C194_partial (L : Lib) (path doc : List Char) (p : L.Path) (xs : List Json) (ts : List (List Char)) (hw : Works L path doc p xs ts) :
    (L.sq p = false → L.dq p = false →
      (bound (jsonExtractScalar L) (some doc) (some path) = bound (jsonValue L) (some doc) (some path) ↔ xs.head? ≠ some .null) ∧
      (xs.head? = some .null → bound (jsonExtractScalar L) (some doc) (some path) = .panic)) ∧
    (L.dq p = true → bound (jsonExtractScalar L) (some doc) (some path) = .err) ∧
    (∀ a, bound (jsonExtractScalar L) none a = .ok none) ∧ (∀ a, bound (jsonExtractScalar L) a none = .ok none) := by
  refine ⟨fun hs hd => ?_, fun hd => ?_, fun a => rfl, fun a => by cases a <;> rfl⟩
  · simp only [bound, jsonValue, jsonExtractScalar, hw.create, Res.bind, hs, hd, hw.values]
    cases xs with
    | nil => simp
    | cons x xs => cases x <;> simp [typed, isValid, isMapOrSlice]
  · simp only [bound, jsonExtractScalar, hw.create, Res.bind, hd, if_true]

theorem C194_full_false : ¬ C194_full := by
  intro h
  have hw := rootWorks (doc := nullText) parse_null (fun ys e => by cases e)
  exact ((C194_partial rootLib _ _ _ _ _ hw).1 rfl rfl).1.1 (h rootLib _ _ _ _ _ hw rfl rfl) rfl

/-! ## C195: JSON_VALUE_ARRAY and JSON_EXTRACT_STRING_ARRAY -/

/-- JSON null. -/
def isNull : Json → Bool
  | .null => true
  | _ => false

/-- Not an array and not an object. -/
def isScalar : Json → Bool
  | .arr _ => false
  | .obj _ => false
  | _ => true

/-- The text of a scalar, `num` for the numbers; JSON null is NULL. -/
def scalarOf (num : Rat → List Char) : Json → Option (List Char)
  | .bool b => some (if b then ['t', 'r', 'u', 'e'] else ['f', 'a', 'l', 's', 'e'])
  | .num r => some (num r)
  | .str s => some s
  | _ => none

/-- An array of scalars gives the array of what JSON_VALUE gives for its elements; an array with another element, anything
else and nothing give NULL. -/
def arrayOf (num : Rat → List Char) : Option Json → Option (List (Option (List Char)))
  | some (.arr ys) => if ys.all isScalar then some (ys.map (scalarOf num)) else none
  | _ => none

@[inherit_doc arrayOf] def C195_full : Prop :=
  ∀ (L : Lib) (path doc : List Char) (p : L.Path) (xs : List Json) (ts : List (List Char)), Works L path doc p xs ts → L.sq p = false →
    bound (jsonValueArray L) (some doc) (some path) = .ok (arrayOf L.sprint xs.head?)

theorem loop_panic (L : Lib) : ∀ ys : List Json, (∃ y ∈ ys.takeWhile isScalar, isNull y = true) → scalarLoop L ys = .panic
  | [], h => by obtain ⟨y, h, _⟩ := h; cases h
  | x :: ys, h => by
    cases x with
    | null => rfl
    | arr a => obtain ⟨y, h, _⟩ := h; cases h
    | obj a => obtain ⟨y, h, _⟩ := h; cases h
    | bool b =>
      obtain ⟨y, h1, h2⟩ := h
      have := loop_panic L ys ⟨y, by rcases List.mem_cons.1 h1 with rfl | h1; exact absurd h2 (by simp [isNull]); exact h1, h2⟩
      simp [scalarLoop, typed, isValid, isMapOrSlice, this, Res.bind]
    | num b =>
      obtain ⟨y, h1, h2⟩ := h
      have := loop_panic L ys ⟨y, by rcases List.mem_cons.1 h1 with rfl | h1; exact absurd h2 (by simp [isNull]); exact h1, h2⟩
      simp [scalarLoop, typed, isValid, isMapOrSlice, this, Res.bind]
    | str b =>
      obtain ⟨y, h1, h2⟩ := h
      have := loop_panic L ys ⟨y, by rcases List.mem_cons.1 h1 with rfl | h1; exact absurd h2 (by simp [isNull]); exact h1, h2⟩
      simp [scalarLoop, typed, isValid, isMapOrSlice, this, Res.bind]

theorem loop_ok (L : Lib) : ∀ ys : List Json, (∀ y ∈ ys.takeWhile isScalar, isNull y = false) →
    scalarLoop L ys = .ok (if ys.all isScalar then some (ys.map fun y => if sprintJson L y = nullText then none else some (sprintJson L y)) else none)
  | [], _ => rfl
  | x :: ys, h => by
    have go : isScalar x = true → isNull x = false → scalarLoop L (x :: ys) =
        .ok (if (x :: ys).all isScalar then some ((x :: ys).map fun y => if sprintJson L y = nullText then none else some (sprintJson L y)) else none) := by
      intro h1 h2
      have ih := loop_ok L ys fun y hy => h y (by rw [List.takeWhile_cons, h1]; exact List.mem_cons_of_mem _ hy)
      have h3 : isValid x = true := by cases x <;> first | rfl | cases h2
      have h4 : isMapOrSlice x = false := by cases x <;> first | rfl | cases h1
      simp only [scalarLoop, typed, h3, h4, ih, Res.bind, List.all_cons, h1, Bool.true_and, List.map_cons]
      by_cases ha : ys.all isScalar = true
      · simp [ha]
      · simp [ha]
    cases x with
    | null => have := h .null (show Json.null ∈ Json.null :: ys.takeWhile isScalar from List.mem_cons_self); cases this
    | arr a => rfl
    | obj a => rfl
    | bool b => exact go rfl rfl
    | num b => exact go rfl rfl
    | str b => exact go rfl rfl

theorem takeWhile_all : ∀ ys : List Json, ys.all isScalar = true → ys.takeWhile isScalar = ys
  | [], _ => rfl
  | y :: ys, h => by
    rw [List.all_cons, Bool.and_eq_true] at h
    rw [List.takeWhile_cons, h.1, takeWhile_all ys h.2]
    rfl

/-- The elements JSON_VALUE_ARRAY gets wrong. -/
def Bad (ys : List Json) : Prop :=
  (∃ y ∈ ys.takeWhile isScalar, isNull y = true) ∨ (ys.all isScalar = true ∧ Json.str nullText ∈ ys)

theorem loop_iff (L : Lib) (hn : ∀ r, L.sprint r ≠ nullText) (ys : List Json) :
    scalarLoop L ys = .ok (if ys.all isScalar then some (ys.map (scalarOf L.sprint)) else none) ↔ ¬ Bad ys := by
  by_cases hb : ∃ y ∈ ys.takeWhile isScalar, isNull y = true
  · rw [loop_panic L ys hb]
    exact iff_of_false (by simp) (fun h => h (.inl hb))
  · have hv : ∀ y ∈ ys.takeWhile isScalar, isNull y = false := by
      intro y hy
      cases e : isNull y with
      | false => rfl
      | true => exact absurd ⟨y, hy, e⟩ hb
    rw [loop_ok L ys hv]
    by_cases ha : ys.all isScalar = true
    · rw [if_pos ha, if_pos ha]
      have htw : ys.takeWhile isScalar = ys := by
        exact takeWhile_all ys ha
      rw [htw] at hv
      have key : ∀ y ∈ ys, ((if sprintJson L y = nullText then none else some (sprintJson L y)) = scalarOf L.sprint y ↔ y ≠ .str nullText) := by
        intro y hy
        have h1 := hv y hy
        have h2 := List.all_eq_true.1 ha y hy
        cases y with
        | null => cases h1
        | arr a => cases h2
        | obj a => cases h2
        | num r => simp [sprintJson, hn, scalarOf]
        | bool b => cases b <;> simp [sprintJson, scalarOf, nullText]
        | str s =>
          by_cases hs : s = nullText
          · subst hs; simp [sprintJson, scalarOf]
          · simp [sprintJson, scalarOf, hs]
      constructor
      · intro h hbad
        rcases hbad with hbad | ⟨_, hbad⟩
        · exact hb hbad
        · have h1 := List.map_inj_left.1 (Option.some.inj (Res.ok.inj h)) _ hbad
          exact (key _ hbad).1 h1 rfl
      · intro h
        congr 2
        apply List.map_inj_left.2
        intro y hy
        exact (key y hy).2 (by rintro rfl; exact h (.inr ⟨ha, hy⟩))
    · rw [if_neg ha, if_neg ha]
      refine iff_of_true rfl ?_
      rintro (h | ⟨h, _⟩)
      · exact hb h
      · exact ha h

/-- C195: right exactly if the selected value is not an array with JSON null among the elements before the first array or
object (the functions panic), nor an array of scalars with the string "null" in it (it becomes NULL).  Both functions. -/
theorem C195_partial (L : Lib) (path doc : List Char) (p : L.Path) (xs : List Json) (ts : List (List Char)) (hw : Works L path doc p xs ts) :
    (L.sq p = false →
      (bound (jsonValueArray L) (some doc) (some path) = .ok (arrayOf L.sprint xs.head?) ↔ ∀ ys, xs.head? = some (.arr ys) → ¬ Bad ys)) ∧
    (L.dq p = false →
      (bound (jsonExtractStringArray L) (some doc) (some path) = .ok (arrayOf L.sprint xs.head?) ↔ ∀ ys, xs.head? = some (.arr ys) → ¬ Bad ys)) ∧
    (L.sq p = true → bound (jsonValueArray L) (some doc) (some path) = .err) ∧
    (L.dq p = true → bound (jsonExtractStringArray L) (some doc) (some path) = .err) ∧
    (∀ ys, (∃ y ∈ ys.takeWhile isScalar, isNull y = true) → xs.head? = some (.arr ys) → L.sq p = false →
      bound (jsonValueArray L) (some doc) (some path) = .panic) := by
  have key : scalarArray L p doc = .ok (arrayOf L.sprint xs.head?) ↔ ∀ ys, xs.head? = some (.arr ys) → ¬ Bad ys := by
    unfold scalarArray
    rw [hw.values]
    cases xs with
    | nil => exact iff_of_true rfl (by simp)
    | cons x xs =>
      cases x with
      | arr ys =>
        simp only [List.head?_cons, arrayOf]
        rw [loop_iff L hw.number]
        simp
      | _ => exact iff_of_true rfl (by simp)
  refine ⟨fun h => ?_, fun h => ?_, fun h => ?_, fun h => ?_, fun ys h1 h2 h => ?_⟩
  · simp only [bound, jsonValueArray, hw.create, Res.bind, h, Bool.false_eq_true, if_false]; exact key
  · simp only [bound, jsonExtractStringArray, hw.create, Res.bind, h, Bool.false_eq_true, if_false]; exact key
  · simp only [bound, jsonValueArray, hw.create, Res.bind, h, if_true]
  · simp only [bound, jsonExtractStringArray, hw.create, Res.bind, h, if_true]
  · simp only [bound, jsonValueArray, hw.create, Res.bind, h, Bool.false_eq_true, if_false]
    unfold scalarArray
    rw [hw.values]
    cases xs with
    | nil => cases h2
    | cons x xs =>
      cases h2
      exact loop_panic L ys h1

/-- Where the library refuses the document the array functions return NULL, the others fail. -/
theorem C195_refused (L : Lib) (path doc : List Char) (p : L.Path) (hc : L.create path = .ok p) (hu : L.unmarshal p doc = .err) :
    (L.sq p = false → bound (jsonValueArray L) (some doc) (some path) = .ok none ∧ bound (jsonValue L) (some doc) (some path) = .err) ∧
    (L.dq p = false → bound (jsonExtractStringArray L) (some doc) (some path) = .ok none ∧
      bound (jsonExtractScalar L) (some doc) (some path) = .err) := by
  refine ⟨fun h => ⟨?_, ?_⟩, fun h => ⟨?_, ?_⟩⟩
  · simp only [bound, jsonValueArray, hc, Res.bind, h, scalarArray, hu]; rfl
  · simp only [bound, jsonValue, hc, Res.bind, h, hu]; rfl
  · simp only [bound, jsonExtractStringArray, hc, Res.bind, h, scalarArray, hu]; rfl
  · simp only [bound, jsonExtractScalar, hc, Res.bind, h, hu]; rfl

example : jsonValueArray rootLib ['[', '1'] ['$'] = .ok none ∧ jsonValue rootLib ['[', '1'] ['$'] = .err := by decide_cbv

/-- JSON_VALUE_ARRAY('[7,null]', '$') panics. -/
theorem C195_full_false : ¬ C195_full := by
  intro h
  have hp : parse ['[', '7', ',', 'n', 'u', 'l', 'l', ']'] = some (.arr [.num 7, .null]) := by cbv
  have hw := rootWorks hp (fun ys e => by cases e; exact ⟨[['7'], nullText], rfl, by cbv, by
    intro e he
    simp only [List.mem_cons, List.not_mem_nil, or_false] at he
    rcases he with rfl | rfl
    · intro h; have : parse ['7'] = some (.num 7) := by cbv
      rw [this] at h; cases h
    · exact fun _ => rfl⟩)
  have h1 := h rootLib _ _ _ _ _ hw rfl
  exact ((C195_partial rootLib _ _ _ _ _ hw).1 rfl).1 h1 _ rfl (.inl ⟨.null, show Json.null ∈ [Json.num 7, Json.null] from List.mem_cons_of_mem _ List.mem_cons_self, rfl⟩)

/-! ## C196: JSON_QUERY and JSON_EXTRACT -/

/-- Nothing and JSON null give NULL; another value gives a JSON text of it. -/
def QueryText : Option Json → Option (List Char) → Prop
  | none, r => r = none
  | some .null, r => r = none
  | some j, r => ∃ t, r = some t ∧ parse t = some j

theorem query_text {L : Lib} {path doc : List Char} {p : L.Path} {xs : List Json} {ts : List (List Char)} (hw : Works L path doc p xs ts) :
    ∃ r, queryText L p doc = .ok r ∧ QueryText xs.head? r := by
  have hd := hw.denote
  simp only [queryText, hw.texts, Res.bind]
  cases ts with
  | nil =>
    cases xs with
    | nil => exact ⟨_, rfl, rfl⟩
    | cons x xs => simp at hd
  | cons t ts =>
    cases xs with
    | nil => simp at hd
    | cons x xs =>
      simp only [List.map_cons, List.cons.injEq] at hd
      obtain ⟨c, h1, h2, h3⟩ := hw.compact t x hd.1
      simp only [h1]
      by_cases hc : c = nullText
      · rw [if_pos hc]
        subst hc
        rw [parse_null] at h2
        cases h2
        exact ⟨_, rfl, rfl⟩
      · rw [if_neg hc]
        refine ⟨_, rfl, ?_⟩
        cases x with
        | null => exact absurd (h3 rfl) hc
        | _ => exact ⟨c, rfl, h2⟩

/-- C196, proved. -/
theorem C196 (L : Lib) (path doc : List Char) (p : L.Path) (xs : List Json) (ts : List (List Char)) (hw : Works L path doc p xs ts) :
    (L.sq p = false → ∃ r, bound (jsonQuery L) (some doc) (some path) = .ok r ∧ QueryText xs.head? r) ∧
    (L.dq p = false → ∃ r, bound (jsonExtract L) (some doc) (some path) = .ok r ∧ QueryText xs.head? r) ∧
    (L.sq p = true → bound (jsonQuery L) (some doc) (some path) = .err) ∧
    (L.dq p = true → bound (jsonExtract L) (some doc) (some path) = .err) ∧
    (∀ a, bound (jsonQuery L) none a = .ok none ∧ bound (jsonQuery L) a none = .ok none ∧
      bound (jsonExtract L) none a = .ok none ∧ bound (jsonExtract L) a none = .ok none) := by
  refine ⟨fun h => ?_, fun h => ?_, fun h => ?_, fun h => ?_, fun a => ⟨rfl, by cases a <;> rfl, rfl, by cases a <;> rfl⟩⟩
  · simp only [bound, jsonQuery, hw.create, Res.bind, h, Bool.false_eq_true, if_false]; exact query_text hw
  · simp only [bound, jsonExtract, hw.create, Res.bind, h, Bool.false_eq_true, if_false]; exact query_text hw
  · simp only [bound, jsonQuery, hw.create, Res.bind, h, if_true]
  · simp only [bound, jsonExtract, hw.create, Res.bind, h, if_true]

example : jsonQuery rootLib [' ', 'n', 'u', 'l', 'l'] ['$'] = .ok none ∧ jsonQuery rootLib ['[', '1', ']'] ['$'] = .ok (some ['[', '1', ']']) := by
  decide_cbv

/-! ## C197: JSON_QUERY_ARRAY and JSON_EXTRACT_ARRAY -/

/-- An array gives JSON texts of its elements, NULL for JSON null; anything else and nothing give NULL. -/
def QueryTexts : Option Json → Option (List (Option (List Char))) → Prop
  | some (.arr ys), r => ∃ rs, r = some rs ∧ rs.length = ys.length ∧
    ∀ (i : Nat) y e, ys[i]? = some y → rs[i]? = some e → QueryText (some y) e
  | _, r => r = none

@[inherit_doc QueryTexts] def C197_full : Prop :=
  ∀ (L : Lib) (path doc : List Char) (p : L.Path) (xs : List Json) (ts : List (List Char)), Works L path doc p xs ts → L.sq p = false →
    ∃ r, bound (jsonQueryArray L) (some doc) (some path) = .ok r ∧ QueryTexts xs.head? r

/-- The first character that is not white space tells arrays from the rest. -/
theorem parse_head {t : List Char} {j : Json} (h : parse t = some j) :
    ∃ c r, skipWs t = c :: r ∧ (c = '[' ↔ ∃ ys, j = .arr ys) := by
  unfold parse at h
  split at h
  · cases h
  · rename_i j' r hv
    split at h
    · cases h
      simp only [value] at hv
      split at hv
      · cases hv
      · rename_i c u hc
        refine ⟨c, u, hc, ?_⟩
        by_cases h1 : c = '"'
        · subst h1
          rw [if_pos rfl] at hv
          obtain ⟨x, _, hx⟩ := Option.map_eq_some_iff.1 hv
          cases hx
          simp
        · rw [if_neg h1] at hv
          by_cases h2 : c = '['
          · subst h2
            rw [if_pos rfl] at hv
            refine iff_of_true rfl ?_
            split at hv
            · cases hv
            · split at hv
              · cases hv; exact ⟨_, rfl⟩
              · obtain ⟨x, _, hx⟩ := Option.map_eq_some_iff.1 hv
                cases hx
                exact ⟨_, rfl⟩
          · rw [if_neg h2] at hv
            refine iff_of_false h2 ?_
            rintro ⟨ys, rfl⟩
            split at hv
            · split at hv
              · cases hv
              · split at hv
                · cases hv
                · obtain ⟨x, _, hx⟩ := Option.map_eq_some_iff.1 hv; cases hx
            · split at hv
              · obtain ⟨x, _, hx⟩ := Option.map_eq_some_iff.1 hv; cases hx
              · split at hv
                · obtain ⟨x, _, hx⟩ := Option.map_eq_some_iff.1 hv; cases hx
                · split at hv
                  · obtain ⟨x, _, hx⟩ := Option.map_eq_some_iff.1 hv; cases hx
                  · obtain ⟨x, _, hx⟩ := Option.map_eq_some_iff.1 hv; cases hx
    · cases h

/-- Leading spaces dropped: what is left starts with the first character that is not white space exactly if the white space
is spaces only. -/
theorem trim_head (t : List Char) (c : Char) (r : List Char) (h : skipWs t = c :: r) :
    ((∀ x ∈ t.takeWhile isWs, x = ' ') → (t.dropWhile (· = ' ')).head? = some c) ∧
    ((¬ ∀ x ∈ t.takeWhile isWs, x = ' ') → ∃ d, isWs d = true ∧ (t.dropWhile (· = ' ')).head? = some d) := by
  induction t with
  | nil => cases h
  | cons x t ih =>
    by_cases hx : x = ' '
    · subst hx
      have e1 : skipWs (' ' :: t) = skipWs t := rfl
      rw [e1] at h
      obtain ⟨i1, i2⟩ := ih h
      have e2 : (' ' :: t).takeWhile isWs = ' ' :: t.takeWhile isWs := rfl
      have e3 : (' ' :: t).dropWhile (· = ' ') = t.dropWhile (· = ' ') := rfl
      rw [e2, e3]
      exact ⟨fun h => i1 fun x hx => h x (List.mem_cons_of_mem _ hx), fun h => i2 fun h' => h fun x hx => by
        rcases List.mem_cons.1 hx with rfl | hx
        · rfl
        · exact h' x hx⟩
    · have e3 : (x :: t).dropWhile (· = ' ') = x :: t := by rw [List.dropWhile_cons, if_neg (by simpa using hx)]
      rw [e3]
      cases hw : isWs x with
      | true =>
        refine ⟨fun h => absurd (h x (by rw [List.takeWhile_cons, hw]; simp)) hx, fun _ => ⟨x, hw, rfl⟩⟩
      | false =>
        rw [skipWs_cons hw] at h
        cases h
        exact ⟨fun _ => rfl, fun h => absurd (by rw [List.takeWhile_cons, hw]; simp) h⟩

theorem query_texts {L : Lib} {path doc : List Char} {p : L.Path} {xs : List Json} {ts : List (List Char)} (hw : Works L path doc p xs ts) :
    ∃ r, queryTexts L p doc = .ok r ∧
      (QueryTexts xs.head? r ↔ ∀ t ys, ts.head? = some t → xs.head? = some (.arr ys) → ∀ c ∈ t.takeWhile isWs, c = ' ') := by
  have hd := hw.denote
  have hs := hw.split
  simp only [queryTexts, hw.texts, Res.bind]
  cases ts with
  | nil =>
    cases xs with
    | nil => exact ⟨_, rfl, by simp [QueryTexts]⟩
    | cons x xs => simp at hd
  | cons t ts =>
    cases xs with
    | nil => simp at hd
    | cons x xs =>
      simp only [List.map_cons, List.cons.injEq] at hd
      obtain ⟨c, r, h1, h2⟩ := parse_head hd.1
      obtain ⟨t1, t2⟩ := trim_head t c r h1
      by_cases ha : ∃ ys, x = .arr ys
      · obtain ⟨ys, rfl⟩ := ha
        have hc := h2.2 ⟨ys, rfl⟩
        subst hc
        by_cases hsp : ∀ y ∈ t.takeWhile isWs, y = ' '
        · obtain ⟨es, e1, e2, e3⟩ := hs t (by simp) ys hd.1
          have hne : ¬ (t.dropWhile (· = ' ') ≠ [] ∧ (t.dropWhile (· = ' ')).head? ≠ some '[') := fun h => h.2 (t1 hsp)
          simp only [hne, if_false, e1]
          refine ⟨_, rfl, iff_of_true ⟨_, rfl, ?_, ?_⟩ ?_⟩
          · have := congrArg List.length e2
            simpa using this
          · intro i y e hy he
            rw [List.getElem?_map] at he
            obtain ⟨s, s1, s2⟩ := Option.map_eq_some_iff.1 he
            have e4 : (es.map parse)[i]? = (ys.map some)[i]? := by rw [e2]
            rw [List.getElem?_map, List.getElem?_map, s1, hy] at e4
            have e5 : parse s = some y := Option.some.inj e4
            by_cases hn : s = nullText
            · rw [if_pos hn] at s2
              subst hn; subst s2
              rw [parse_null] at e5
              cases e5
              rfl
            · rw [if_neg hn] at s2
              subst s2
              cases y with
              | null => exact absurd (e3 s (List.mem_of_getElem? s1) e5) hn
              | _ => exact ⟨s, rfl, e5⟩
          · intro t' ys' h _
            cases h
            exact hsp
        · obtain ⟨d, d1, d2⟩ := t2 hsp
          have hne : t.dropWhile (· = ' ') ≠ [] ∧ (t.dropWhile (· = ' ')).head? ≠ some '[' := by
            refine ⟨fun h => (by rw [h] at d2; cases d2), fun h => ?_⟩
            rw [h] at d2
            cases d2
            exact absurd d1 (by decide)
          dsimp only
          rw [if_pos hne]
          refine ⟨_, rfl, iff_of_false ?_ ?_⟩
          · rintro ⟨rs, h, _⟩; cases h
          · intro h; exact hsp (h t ys rfl rfl)
      · have hc : c ≠ '[' := fun h => ha (h2.1 h)
        have hne : t.dropWhile (· = ' ') ≠ [] ∧ (t.dropWhile (· = ' ')).head? ≠ some '[' := by
          by_cases hsp : ∀ y ∈ t.takeWhile isWs, y = ' '
          · have := t1 hsp
            refine ⟨fun h => (by rw [h] at this; cases this), fun h => ?_⟩
            rw [h] at this
            exact hc (Option.some.inj this).symm
          · obtain ⟨d, d1, d2⟩ := t2 hsp
            refine ⟨fun h => (by rw [h] at d2; cases d2), fun h => ?_⟩
            rw [h] at d2
            cases d2
            exact absurd d1 (by decide)
        dsimp only
        rw [if_pos hne]
        refine ⟨_, rfl, iff_of_true ?_ ?_⟩
        · cases x with
          | arr ys => exact absurd ⟨ys, rfl⟩ ha
          | _ => rfl
        · intro t' ys _ h
          exact absurd ⟨ys, Option.some.inj h⟩ ha

/-- C197: right exactly if the text of a selected array is not preceded by a tab or a line break; there the result is NULL. -/
theorem C197_partial (L : Lib) (path doc : List Char) (p : L.Path) (xs : List Json) (ts : List (List Char)) (hw : Works L path doc p xs ts) :
    (L.sq p = false → ∃ r, bound (jsonQueryArray L) (some doc) (some path) = .ok r ∧
      (QueryTexts xs.head? r ↔ ∀ t ys, ts.head? = some t → xs.head? = some (.arr ys) → ∀ c ∈ t.takeWhile isWs, c = ' ')) ∧
    (L.dq p = false → ∃ r, bound (jsonExtractArray L) (some doc) (some path) = .ok r ∧
      (QueryTexts xs.head? r ↔ ∀ t ys, ts.head? = some t → xs.head? = some (.arr ys) → ∀ c ∈ t.takeWhile isWs, c = ' ')) ∧
    (L.sq p = true → bound (jsonQueryArray L) (some doc) (some path) = .err) ∧
    (L.dq p = true → bound (jsonExtractArray L) (some doc) (some path) = .err) := by
  refine ⟨fun h => ?_, fun h => ?_, fun h => ?_, fun h => ?_⟩
  · simp only [bound, jsonQueryArray, hw.create, Res.bind, h, Bool.false_eq_true, if_false]; exact query_texts hw
  · simp only [bound, jsonExtractArray, hw.create, Res.bind, h, Bool.false_eq_true, if_false]; exact query_texts hw
  · simp only [bound, jsonQueryArray, hw.create, Res.bind, h, if_true]
  · simp only [bound, jsonExtractArray, hw.create, Res.bind, h, if_true]

/-- A library that splits every text into nothing: right for the empty array. -/
def emptyLib : Lib := { rootLib with raws := fun _ => .ok [] }

/-- JSON_QUERY_ARRAY of a line break and [] is NULL. -/
theorem C197_full_false : ¬ C197_full := by
  intro h
  have hp : parse ['\n', '[', ']'] = some (.arr []) := by rfl
  have hw : Works emptyLib ['$'] ['\n', '[', ']'] () [.arr []] [['\n', '[', ']']] := {
    create := rfl
    values := by unfold emptyLib rootLib; simp only [hp]
    texts := rfl
    denote := by simp [hp]
    compact := compact_root
    split := by
      intro t ht ys hy
      rw [List.mem_singleton] at ht
      subst ht
      rw [hp] at hy
      cases hy
      exact ⟨[], rfl, rfl, by simp⟩
    integral := root_integral
    number := root_number }
  obtain ⟨r, h1, h2⟩ := h emptyLib _ _ _ _ _ hw rfl
  obtain ⟨r', h1', h2'⟩ := (C197_partial emptyLib _ _ _ _ _ hw).1 rfl
  rw [h1] at h1'
  cases h1'
  exact absurd (h2'.1 h2 _ _ rfl rfl '\n' (by decide)) (by decide)

example : jsonQueryArray rootLib [' ', '[', '7', ',', 'n', 'u', 'l', 'l', ']'] ['$'] = .ok (some [some ['7'], none]) := by decide_cbv

/-! ## C198: JSON_TYPE -/

/-- The names of the kinds. -/
def typeName : Json → List Char
  | .null => ['n', 'u', 'l', 'l']
  | .bool _ => ['b', 'o', 'o', 'l', 'e', 'a', 'n']
  | .num _ => ['n', 'u', 'm', 'b', 'e', 'r']
  | .str _ => ['s', 't', 'r', 'i', 'n', 'g']
  | .arr _ => ['a', 'r', 'r', 'a', 'y']
  | .obj _ => ['o', 'b', 'j', 'e', 'c', 't']

/-- The library reads JSON texts. -/
def Decodes (L : Lib) : Prop := ∀ s j, parse s = some j → L.decode s = .ok j

/-- JSON_TYPE(PARSE_JSON(s)) is the kind of what the text denotes. -/
def C198_full : Prop :=
  ∀ (L : Lib), Decodes L → ∀ (s mode : List Char) (j : Json), parse s = some j →
    (parseJson L s mode).bind (jsonType L) = .ok (typeName j)

/-- C198: it is exactly if the text is not JSON null with white space around it; there the function panics. -/
theorem C198_partial (L : Lib) (hd : Decodes L) (s mode : List Char) (j : Json) (h : parse s = some j) :
    ((parseJson L s mode).bind (jsonType L) = .ok (typeName j) ↔ (j = .null → s = nullText)) ∧
    (j = .null → s ≠ nullText → (parseJson L s mode).bind (jsonType L) = .panic) := by
  simp only [parseJson, hd s j h, Res.bind, jsonType, interface]
  by_cases hn : s = nullText
  · subst hn
    rw [parse_null] at h
    cases h
    simp [typeName, nullText]
  · rw [if_neg hn]
    cases j <;> simp [typed, isValid, kindText, typeName, hn]

theorem root_decodes : Decodes rootLib := by
  intro s j h
  unfold rootLib
  simp only [h]

theorem C198_full_false : ¬ C198_full := by
  intro h
  have hp : parse [' ', 'n', 'u', 'l', 'l'] = some .null := by rfl
  exact absurd ((C198_partial rootLib root_decodes _ [] _ hp).1.1 (h rootLib root_decodes _ [] _ hp) rfl) (by decide)

example : (parseJson rootLib ['[', ']'] []).bind (jsonType rootLib) = .ok ['a', 'r', 'r', 'a', 'y'] := by decide_cbv

/-! ## C199: JSON_VALUE of TO_JSON -/

/-- The text CAST(v AS STRING) has for INT64, BOOL and STRING. -/
def plain : Val → Option (List Char)
  | .int i => some (decInt i)
  | .bool b => some (if b then ['t', 'r', 'u', 'e'] else ['f', 'a', 'l', 's', 'e'])
  | .str s => some s
  | _ => none

/-- The path selects the whole document. -/
structure Root (L : Lib) (path : List Char) (p : L.Path) : Prop where
  create : L.create path = .ok p
  values : ∀ doc j, parse doc = some j → L.unmarshal p doc = .ok [j]
  selector : L.sq p = false
  integral : ∀ n : Int, n.natAbs < 2 ^ 53 → L.sprint n = sprintIntegral (decide (n < 0)) n.natAbs

/-- JSON_VALUE(TO_JSON(v), '$') is the text of an INT64 below 2⁵³, of a BOOL, of a STRING. -/
def C199_full : Prop :=
  ∀ (P : Print) (L : Lib) (path : List Char) (p : L.Path), Root L path p → ∀ (v : Val) (s : List Char), plain v = some s →
    (∀ i, v = .int i → i.natAbs < 2 ^ 53) →
    (toJson P v false).bind (fun d => bound (jsonValue L) d (some path)) = .ok (some s)

theorem value_of_tojson {P : Print} {L : Lib} {path : List Char} {p : L.Path} (hr : Root L path p) {v : Val} (h0 : v.isNull = false) (hs : Sound v)
    (hc : Clean P v) {x : Json} (hx : jsonOf v = x) (h1 : isValid x = true) (h2 : isMapOrSlice x = false) :
    (toJson P v false).bind (fun d => bound (jsonValue L) d (some path)) = .ok (some (sprintJson L x)) := by
  obtain ⟨t, h3, h4, _⟩ := C189_partial P v hs h0
  have h5 := h4 hc
  rw [hx] at h5
  unfold toJsonString at h3
  have h6 : toJson P v false = .ok (some t) := by
    unfold toJson
    rw [h0, h3]
    rfl
  rw [h6]
  simp only [Res.bind, bound, jsonValue, hr.create, hr.selector, hr.values t x h5, h1, typed, h2]
  rfl

/-- C199: a BOOL always, an INT64 exactly if it has six digits at most, a STRING if TO_JSON writes its characters as JSON
does. -/
theorem C199_partial (P : Print) (L : Lib) (path : List Char) (p : L.Path) (hr : Root L path p) :
    (∀ b : Bool, (toJson P (.bool b) false).bind (fun d => bound (jsonValue L) d (some path)) =
      .ok (some (if b then ['t', 'r', 'u', 'e'] else ['f', 'a', 'l', 's', 'e']))) ∧
    (∀ i : Int, i.natAbs < 2 ^ 53 → ((toJson P (.int i) false).bind (fun d => bound (jsonValue L) d (some path)) = .ok (some (decInt i)) ↔
      i.natAbs < 10 ^ 6)) ∧
    (∀ s : List Char, (∀ c ∈ s, okChar P c = true) → (toJson P (.str s) false).bind (fun d => bound (jsonValue L) d (some path)) = .ok (some s)) := by
  refine ⟨fun b => ?_, fun i hi => ?_, fun s hs => ?_⟩
  · exact value_of_tojson hr (v := .bool b) rfl trivial trivial rfl rfl rfl
  · rw [value_of_tojson hr (v := .int i) rfl trivial trivial rfl rfl rfl]
    have h1 : sprintJson L (jsonOf (.int i)) = sprintIntegral (decide (i < 0)) i.natAbs := hr.integral i hi
    rw [h1, ← sprint_dec]
    simp
  · exact value_of_tojson hr (v := .str s) rfl trivial (List.all_eq_true.2 hs) rfl rfl rfl

theorem root_root : Root rootLib ['$'] () where
  create := rfl
  values doc j h := by unfold rootLib; simp only [h]
  selector := rfl
  integral := root_integral

theorem C199_full_false : ¬ C199_full := by
  intro h
  have h1 := h asciiPrint rootLib _ _ root_root (.int 1000000) _ rfl (by rintro i e; cases e; decide)
  have := ((C199_partial asciiPrint rootLib _ _ root_root).2.1 1000000 (by decide)).1 h1
  omega

/-! ## C200: PARSE_JSON -/

/-- An integer kept without loss: an INT64, a UINT64 or a float64. -/
def Kept (n : Int) : Prop := (-2 ^ 63 ≤ n ∧ n < 2 ^ 64) ∨ ∃ (m : Int) (e : Nat), n = m * 2 ^ e ∧ m.natAbs < 2 ^ 53 ∧ n.natAbs < 2 ^ 1024

/-- In the mode "exact", the default, an integer that would lose digits is an error. -/
def C200_full : Prop :=
  ∀ (L : Lib), Decodes L → ∀ (s : List Char) (n : Int), parse s = some (.num n) → (parseJson L s ['e', 'x', 'a', 'c', 't'] = .err ↔ ¬ Kept n)

/-- C200: every JSON text is accepted in every mode and kept as it is. -/
theorem C200_partial (L : Lib) (hd : Decodes L) (s mode : List Char) (j : Json) (h : parse s = some j) : parseJson L s mode = .ok s := by
  simp only [parseJson, hd s j h, Res.bind]

/-- A text the library refuses is an error. -/
theorem C200_refused (L : Lib) (s mode : List Char) (h : L.decode s = .err) : parseJson L s mode = .err := by
  simp only [parseJson, h, Res.bind]

example : rootLib.decode ['[', '1'] = .err := by rfl

theorem not_kept : ¬ Kept (2 ^ 64 + 1) := by
  rintro (⟨_, h⟩ | ⟨m, e, h1, h2, _⟩)
  · omega
  · cases e with
    | zero => rw [Int.pow_zero, Int.mul_one] at h1; subst h1; exact absurd h2 (by decide)
    | succ e =>
      have h3 : m * 2 ^ (e + 1) = (m * 2 ^ e) * 2 := by rw [Int.pow_succ, Int.mul_assoc]
      rw [h3] at h1
      omega

/-- PARSE_JSON('18446744073709551617') is accepted. -/
theorem C200_full_false : ¬ C200_full := by
  intro h
  have hp : parse ['1', '8', '4', '4', '6', '7', '4', '4', '0', '7', '3', '7', '0', '9', '5', '5', '1', '6', '1', '7'] = some (.num ((2 ^ 64 + 1 : Int) : Rat)) := by
    cbv
  have h1 := (h rootLib root_decodes _ _ hp).2 not_kept
  rw [C200_partial rootLib root_decodes _ _ _ hp] at h1
  cases h1

/-! ## C201: STRING of JSON -/

/-- STRING(j) is the text of a JSON string; any other JSON is an error. -/
def C201_full : Prop :=
  ∀ (L : Lib), Decodes L → ∀ (s : List Char) (j : Json), parse s = some j →
    stringOfJson L s = match j with | .str x => .ok x | _ => .err

/-- C201: right exactly for JSON strings; JSON null is the text <nil>, a boolean its name. -/
theorem C201_partial (L : Lib) (hd : Decodes L) (s : List Char) (j : Json) (h : parse s = some j) :
    (stringOfJson L s = (match j with | .str x => .ok x | _ => .err) ↔ ∃ x, j = .str x) ∧
    (j = .null → stringOfJson L s = .ok ['<', 'n', 'i', 'l', '>']) ∧
    (∀ b, j = .bool b → stringOfJson L s = .ok (if b then ['t', 'r', 'u', 'e'] else ['f', 'a', 'l', 's', 'e'])) := by
  simp only [stringOfJson, interface, hd s j h]
  cases j <;> simp [sprintJson]

theorem C201_full_false : ¬ C201_full := by
  intro h
  obtain ⟨x, hx⟩ := (C201_partial rootLib root_decodes _ _ parse_null).1.1 (h rootLib root_decodes _ _ parse_null)
  cases hx

example : stringOfJson rootLib ['"', 'a', '"'] = .ok ['a'] := by decide_cbv

end Verif.JsonFuncs
