import Verif.Lemmas.ToJson

/-!
# C189-C191: what TO_JSON_STRING and TO_JSON write
-/

namespace Verif.ToJson

open Go Verif.Val JsonSpec

/-! ## C189: the result is the JSON text of the value -/

mutual

/-- The JSON value BigQuery documents for a value: numbers for numbers (C191 is about wide ones), strings for texts, dates
and times, base64 for BYTES, an object with the fields in order for a struct. -/
def jsonOf : Val → Json
  | .null => .null
  | .int i => .num i
  | .bool b => .bool b
  | .str s => .str s
  | .bytes b => .str (Base64.encode b)
  | .num r _ => .num r
  | .time k t => .str (match Cast.toStr (.time k t) with | .ok s => s | _ => [])
  | .arr vs => .arr (jsonOfL vs)
  | .struct ks vs => .obj (jsonOfF ks vs)

@[inherit_doc jsonOf] def jsonOfL : List Val → List Json
  | [] => []
  | v :: vs => jsonOf v :: jsonOfL vs

@[inherit_doc jsonOf] def jsonOfF : List (List Char) → List Val → List (List Char × Json)
  | k :: ks, v :: vs => (k, jsonOf v) :: jsonOfF ks vs
  | _, _ => []

end

mutual

/-- The values a query can hold: structs have as many names as values, NUMERIC values have at most 9 digits after the point
and BIGNUMERIC values at most 38. -/
def Sound : Val → Prop
  | .num r big => ∃ n : Int, r = mkRat n (10 ^ (if big then 38 else 9))
  | .arr vs => SoundL vs
  | .struct ks vs => ks.length = vs.length ∧ SoundL vs
  | _ => True

@[inherit_doc Sound] def SoundL : List Val → Prop
  | [] => True
  | v :: vs => Sound v ∧ SoundL vs

end

mutual

/-- No date or time anywhere in the value, and only characters JSON and strconv.Quote escape alike in its texts and field
names: the printable ones, backspace, tab, newline, form feed, carriage return, and the others from U+0080 to U+FFFF. -/
def Clean (P : Print) : Val → Prop
  | .str s => s.all (okChar P) = true
  | .time _ _ => False
  | .arr vs => CleanL P vs
  | .struct ks vs => (∀ k ∈ ks, k.all (okChar P) = true) ∧ CleanL P vs
  | _ => True

@[inherit_doc Clean] def CleanL (P : Print) : List Val → Prop
  | [] => True
  | v :: vs => Clean P v ∧ CleanL P vs

end

/-- For every value but NULL the function returns the JSON text of the value. -/
def C189_full : Prop :=
  ∀ (P : Print) (v : Val), Sound v → v.isNull = false → ∃ t, toJsonString P v false = .ok t ∧ parse t = some (jsonOf v)

/-- What `value` returns on the text of a value. -/
def Reads (ok : Prop) (o : Option (Json × List Char)) (j : Json) (r : List Char) : Prop :=
  (ok → o = some (j, r)) ∧ (¬ ok → o = none ∨ ∃ j' c r', o = some (j', c :: r') ∧ (c = '-' ∨ c = ':'))

/-- What `items` and `members` return. -/
def ReadsAll {α} (ok : Prop) (o : Option (α × List Char)) (x : α) (r : List Char) : Prop :=
  (ok → o = some (x, r)) ∧ (¬ ok → o = none)

/-- The text of an element: "null" for NULL. -/
def textOf (P : Print) (v : Val) : Res (List Char) := if v.isNull then .ok nullText else toJSON P v

theorem skipWs_cons {c : Char} (h : isWs c = false) (s : List Char) : skipWs (c :: s) = c :: s := by
  unfold skipWs
  rw [List.dropWhile_cons, h]
  rfl

theorem Stop.skip {r : List Char} (h : Stop r) : skipWs r = r := by
  cases r with
  | nil => rfl
  | cons c r => exact skipWs_cons (by rcases h c rfl with rfl | rfl | rfl <;> decide) r

theorem value_number {n : Nat} {c : Char} {s : List Char} (h : c = '-' ∨ isDig c = true) :
    value (n + 1) (c :: s) = (number (c :: s)).map fun x => (.num x.1, x.2) := by
  have key : ∀ d : Char, d ≠ '-' → isDig d = false → c ≠ d := by
    rintro d h1 h2 rfl
    rcases h with h | h
    · exact h1 h
    · rw [h] at h2; cases h2
  have hw : isWs c = false := by
    unfold isWs
    apply decide_eq_false
    rintro (e | e | e | e)
    · exact key _ (by decide) (by decide) e
    · exact key _ (by decide) (by decide) e
    · exact key _ (by decide) (by decide) e
    · exact key _ (by decide) (by decide) e
  simp only [value, skipWs_cons hw]
  rw [if_neg (key _ (by decide) (by decide)), if_neg (key _ (by decide) (by decide)), if_neg (key _ (by decide) (by decide)),
    if_neg (key _ (by decide) (by decide)), if_neg (key _ (by decide) (by decide)), if_neg (key _ (by decide) (by decide))]

theorem decInt_head (i : Int) : ∃ c s, decInt i = c :: s ∧ (c = '-' ∨ isDig c = true) := by
  obtain ⟨d, ds, h1, _, _⟩ := decNat_noZero i.natAbs
  unfold decInt
  split
  · exact ⟨_, _, rfl, .inl rfl⟩
  · exact ⟨d, ds, h1, .inr (isDig_decNat i.natAbs d (by rw [h1]; simp))⟩

theorem numText_head (r : Rat) (big : Bool) : ∃ c s, Cast.numText r big = c :: s ∧ (c = '-' ∨ isDig c = true) := by
  obtain ⟨d, ds, h1, _, _⟩ := decNat_noZero (Cast.units (Cast.places big) r / 10 ^ Cast.places big)
  have hd := isDig_decNat _ d (show d ∈ decNat (Cast.units (Cast.places big) r / 10 ^ Cast.places big) by rw [h1]; simp)
  rw [Cast.numText_eq, h1]
  split
  · exact ⟨_, _, rfl, .inl rfl⟩
  · exact ⟨_, _, rfl, .inr hd⟩

theorem time_head {k : TimeKind} {t : Int} {s : List Char} (h : Cast.toStr (.time k t) = .ok s) : ∃ c r, s = c :: r ∧ (c = '-' ∨ isDig c = true) := by
  obtain ⟨neg, ds, c, r', h1, h2, h3, _⟩ := time_text h []
  rw [List.append_nil] at h1
  obtain ⟨d, ds, rfl⟩ := List.exists_cons_of_ne_nil h2
  cases neg with
  | true => exact ⟨_, _, h1, .inl rfl⟩
  | false => exact ⟨_, _, h1, .inr (h3 d (by simp))⟩

/-- No text starts with white space or a closing bracket. -/
theorem text_head {P : Print} {v : Val} {t : List Char} (h : textOf P v = .ok t) :
    ∃ c s, t = c :: s ∧ isWs c = false ∧ c ≠ ']' ∧ c ≠ '}' := by
  have num : ∀ {t : List Char}, (∃ c s, t = c :: s ∧ (c = '-' ∨ isDig c = true)) → ∃ c s, t = c :: s ∧ isWs c = false ∧ c ≠ ']' ∧ c ≠ '}' := by
    rintro t ⟨c, s, e, h⟩
    have key : ∀ d : Char, d ≠ '-' → isDig d = false → c ≠ d := by
      rintro d h1 h2 rfl
      rcases h with h | h
      · exact h1 h
      · rw [h] at h2; cases h2
    refine ⟨c, s, e, ?_, key _ (by decide) (by decide), key _ (by decide) (by decide)⟩
    unfold isWs
    apply decide_eq_false
    rintro (e | e | e | e)
    · exact key _ (by decide) (by decide) e
    · exact key _ (by decide) (by decide) e
    · exact key _ (by decide) (by decide) e
    · exact key _ (by decide) (by decide) e
  unfold textOf at h
  cases v with
  | null => cases h; exact ⟨_, _, rfl, by decide, by decide, by decide⟩
  | int i => simp only [Val.isNull, Bool.false_eq_true, if_false, toJSON] at h; cases h; exact num (decInt_head i)
  | bool b =>
    simp only [Val.isNull, Bool.false_eq_true, if_false, toJSON] at h
    cases h
    cases b
    · exact ⟨_, _, rfl, by decide, by decide, by decide⟩
    · exact ⟨_, _, rfl, by decide, by decide, by decide⟩
  | str s => simp only [Val.isNull, Bool.false_eq_true, if_false, toJSON] at h; cases h; exact ⟨_, _, rfl, by decide, by decide, by decide⟩
  | bytes s => simp only [Val.isNull, Bool.false_eq_true, if_false, toJSON] at h; cases h; exact ⟨_, _, rfl, by decide, by decide, by decide⟩
  | num r big => simp only [Val.isNull, Bool.false_eq_true, if_false, toJSON] at h; cases h; exact num (numText_head r big)
  | time k t => simp only [Val.isNull, Bool.false_eq_true, if_false, toJSON] at h; exact num (time_head h)
  | arr vs =>
    simp only [Val.isNull, Bool.false_eq_true, if_false, toJSON] at h
    cases he : elemTexts P vs <;> rw [he] at h <;> cases h
    exact ⟨_, _, rfl, by decide, by decide, by decide⟩
  | struct ks vs =>
    simp only [Val.isNull, Bool.false_eq_true, if_false, toJSON] at h
    cases he : fieldTexts P ks vs <;> rw [he] at h <;> cases h
    exact ⟨_, _, rfl, by decide, by decide, by decide⟩

theorem rounded_exact {r : Rat} {big : Bool} (h : ∃ n : Int, r = mkRat n (10 ^ (if big then 38 else 9))) : rounded r big = r := by
  obtain ⟨n, rfl⟩ := h
  have e : (if big then 38 else 9) = Cast.places big := rfl
  rw [e]
  unfold rounded
  rw [Cast.units_exact]
  simp only [Cast.sign_mkRat]
  congr 1
  split <;> omega

theorem value_string (P : Print) (s r : List Char) (n : Nat) :
    value (n + 1) (goQuote P s ++ r) = if s.all (okChar P) then some (.str s, r) else none := by
  have e : goQuote P s ++ r = '"' :: (s.flatMap (quoteChar P) ++ '"' :: r) := by unfold goQuote; simp
  rw [e]
  simp only [value, skipWs_cons (show isWs '"' = false by decide), if_true]
  rw [chars_quote P r s _ (by simp; omega)]
  split <;> rfl

mutual

theorem value_text (P : Print) : ∀ (v : Val) (t : List Char), Sound v → textOf P v = .ok t → ∀ (n : Nat) (r : List Char),
    t.length ≤ n → Stop r → Reads (Clean P v) (value n (t ++ r)) (jsonOf v) r
  | .null, t, _, h, n, r, hn, hr => by
    cases h
    obtain ⟨n, rfl⟩ : ∃ m, n = m + 1 := ⟨n - 1, by simp [nullText] at hn; omega⟩
    refine ⟨fun _ => rfl, fun h => absurd trivial h⟩
  | .int i, t, _, h, n, r, hn, hr => by
    simp only [textOf, Val.isNull, Bool.false_eq_true, if_false, toJSON] at h
    cases h
    have hv := number_decInt i hr
    obtain ⟨c, s, e, hc⟩ := decInt_head i
    rw [e] at hn hv ⊢
    obtain ⟨n, rfl⟩ : ∃ m, n = m + 1 := ⟨n - 1, by simp at hn; omega⟩
    rw [List.cons_append] at hv ⊢
    rw [value_number hc, hv]
    exact ⟨fun _ => rfl, fun h => absurd trivial h⟩
  | .bool b, t, _, h, n, r, hn, hr => by
    simp only [textOf, Val.isNull, Bool.false_eq_true, if_false, toJSON] at h
    cases h
    obtain ⟨n, rfl⟩ : ∃ m, n = m + 1 := ⟨n - 1, by cases b <;> simp at hn <;> omega⟩
    cases b
    · exact ⟨fun _ => rfl, fun h => absurd trivial h⟩
    · exact ⟨fun _ => rfl, fun h => absurd trivial h⟩
  | .str s, t, _, h, n, r, hn, hr => by
    simp only [textOf, Val.isNull, Bool.false_eq_true, if_false, toJSON] at h
    cases h
    obtain ⟨n, rfl⟩ : ∃ m, n = m + 1 := ⟨n - 1, by simp [goQuote] at hn; omega⟩
    rw [value_string]
    refine ⟨fun h => ?_, fun h => ?_⟩
    · simp only [Clean] at h
      rw [if_pos h]
      rfl
    · simp only [Clean] at h
      rw [if_neg h]
      exact .inl rfl
  | .bytes b, t, _, h, n, r, hn, hr => by
    simp only [textOf, Val.isNull, Bool.false_eq_true, if_false, toJSON] at h
    cases h
    obtain ⟨n, rfl⟩ : ∃ m, n = m + 1 := ⟨n - 1, by simp [goQuote] at hn; omega⟩
    rw [value_string, if_pos (base64_ok P b)]
    exact ⟨fun _ => rfl, fun h => absurd trivial h⟩
  | .num x big, t, hs, h, n, r, hn, hr => by
    simp only [textOf, Val.isNull, Bool.false_eq_true, if_false, toJSON] at h
    cases h
    have hv := number_numText x big hr
    rw [rounded_exact hs] at hv
    obtain ⟨c, s, e, hc⟩ := numText_head x big
    rw [e] at hn hv ⊢
    obtain ⟨n, rfl⟩ : ∃ m, n = m + 1 := ⟨n - 1, by simp at hn; omega⟩
    rw [List.cons_append] at hv ⊢
    rw [value_number hc, hv]
    exact ⟨fun _ => rfl, fun h => absurd trivial h⟩
  | .time k x, t, _, h, n, r, hn, hr => by
    simp only [textOf, Val.isNull, Bool.false_eq_true, if_false, toJSON] at h
    refine ⟨fun h => h.elim, fun _ => ?_⟩
    obtain ⟨c, s, e, hc⟩ := time_head h
    obtain ⟨neg, ds, d, r', h1, h2, h3, h4⟩ := time_text h r
    have hnum := number_then h2 h3 neg h4 r'
    rw [← h1] at hnum
    rw [e] at hn hnum ⊢
    obtain ⟨n, rfl⟩ : ∃ m, n = m + 1 := ⟨n - 1, by simp at hn; omega⟩
    rw [List.cons_append] at hnum ⊢
    rw [value_number hc]
    rcases hnum with hnum | ⟨x, hnum⟩
    · left; rw [hnum]; rfl
    · right; exact ⟨_, d, r', by rw [hnum]; rfl, h4⟩
  | .arr vs, t, hs, h, n, r, hn, hr => by
    simp only [textOf, Val.isNull, Bool.false_eq_true, if_false, toJSON] at h
    cases he : elemTexts P vs <;> rw [he] at h <;> cases h
    rename_i ts
    simp only [List.length_cons, List.length_append, List.length_nil] at hn
    obtain ⟨n, rfl⟩ : ∃ m, n = m + 1 := ⟨n - 1, by omega⟩
    have e : '[' :: (join [','] ts ++ [']']) ++ r = '[' :: (join [','] ts ++ ']' :: r) := by simp
    rw [e]
    simp only [value, skipWs_cons (show isWs '[' = false by decide)]
    rw [if_neg (by decide)]
    simp only [if_true]
    cases vs with
    | nil =>
      simp only [elemTexts] at he
      cases he
      exact ⟨fun _ => rfl, fun h => absurd trivial h⟩
    | cons v vs =>
      have hi := items_text P (v :: vs) ts (by simp) hs he n r (by omega)
      simp only [elemTexts] at he
      cases ht : (if v.isNull then Res.ok nullText else toJSON P v) with
      | err => rw [ht] at he; cases he
      | panic => rw [ht] at he; cases he
      | ok t =>
        rw [ht] at he
        cases hts : elemTexts P vs with
        | err => rw [hts] at he; cases he
        | panic => rw [hts] at he; cases he
        | ok ts' =>
          rw [hts] at he
          cases he
          obtain ⟨c, s, rfl, hw, hb, _⟩ := text_head (show textOf P v = .ok t from ht)
          obtain ⟨u, hu⟩ : ∃ u, join [','] ((c :: s) :: ts') ++ ']' :: r = c :: u := by
            cases ts' with
            | nil => exact ⟨_, rfl⟩
            | cons a b => exact ⟨_, rfl⟩
          rw [hu] at hi ⊢
          simp only [skipWs_cons hw, if_neg hb]
          refine ⟨fun h => ?_, fun h => .inl ?_⟩
          · rw [hi.1 h]; rfl
          · rw [hi.2 h]; rfl
  | .struct ks vs, t, hs, h, n, r, hn, hr => by
    simp only [textOf, Val.isNull, Bool.false_eq_true, if_false, toJSON] at h
    cases he : fieldTexts P ks vs <;> rw [he] at h <;> cases h
    rename_i ts
    simp only [List.length_cons, List.length_append, List.length_nil] at hn
    obtain ⟨n, rfl⟩ : ∃ m, n = m + 1 := ⟨n - 1, by omega⟩
    have e : '{' :: (join [','] ts ++ ['}']) ++ r = '{' :: (join [','] ts ++ '}' :: r) := by simp
    rw [e]
    simp only [value, skipWs_cons (show isWs '{' = false by decide)]
    rw [if_neg (by decide), if_neg (by decide)]
    simp only [if_true]
    simp only [Sound] at hs
    match ks, vs, he, hs with
    | [], [], he, hs =>
      simp only [fieldTexts] at he
      cases he
      exact ⟨fun _ => rfl, fun h => absurd ⟨by simp, trivial⟩ h⟩
    | [], v :: vs, he, hs => simp at hs
    | k :: ks, [], he, hs => simp at hs
    | k :: ks, v :: vs, he, hs =>
      have hi := members_text P (v :: vs) (k :: ks) ts (by simp) hs.1 hs.2 he n r (by omega)
      simp only [fieldTexts] at he
      cases ht : (if v.isNull then Res.ok nullText else toJSON P v) with
      | err => rw [ht] at he; cases he
      | panic => rw [ht] at he; cases he
      | ok t =>
        rw [ht] at he
        cases hts : fieldTexts P ks vs with
        | err => rw [hts] at he; cases he
        | panic => rw [hts] at he; cases he
        | ok ts' =>
          rw [hts] at he
          cases he
          obtain ⟨u, hu⟩ : ∃ u, join [','] ((goQuote P k ++ ':' :: t) :: ts') ++ '}' :: r = '"' :: u := by
            cases ts' with
            | nil => exact ⟨_, rfl⟩
            | cons a b => exact ⟨_, rfl⟩
          rw [hu] at hi ⊢
          simp only [skipWs_cons (show isWs '"' = false by decide)]
          rw [if_neg (by decide)]
          refine ⟨fun h => ?_, fun h => .inl ?_⟩
          · rw [hi.1 h]; rfl
          · rw [hi.2 h]; rfl

theorem items_text (P : Print) : ∀ (vs : List Val) (ts : List (List Char)), vs ≠ [] → SoundL vs → elemTexts P vs = .ok ts →
    ∀ (n : Nat) (r : List Char), (join [','] ts).length < n → ReadsAll (CleanL P vs) (items n (join [','] ts ++ ']' :: r)) (jsonOfL vs) r
  | [], _, h0, _, _, _, _, _ => absurd rfl h0
  | v :: vs, ts, _, hs, he, n, r, hn => by
    obtain ⟨n, rfl⟩ : ∃ m, n = m + 1 := ⟨n - 1, by omega⟩
    simp only [elemTexts] at he
    cases ht : (if v.isNull then Res.ok nullText else toJSON P v) with
    | err => rw [ht] at he; cases he
    | panic => rw [ht] at he; cases he
    | ok t =>
      rw [ht] at he
      cases hts : elemTexts P vs with
      | err => rw [hts] at he; cases he
      | panic => rw [hts] at he; cases he
      | ok ts' =>
        rw [hts] at he
        cases he
        cases vs with
        | nil =>
          simp only [elemTexts] at hts
          cases hts
          simp only [join] at hn ⊢
          have hv := value_text P v t hs.1 ht n (']' :: r) (by omega) (.cons (.inr (.inl rfl)) _)
          simp only [items]
          refine ⟨fun h => ?_, fun h => ?_⟩
          · rw [hv.1 h.1]
            rfl
          · rcases hv.2 (fun hc => h ⟨hc, trivial⟩) with hv | ⟨j, c, r', hv, hc⟩
            · rw [hv]
            · rw [hv]
              rcases hc with rfl | rfl <;> rfl
        | cons w vs =>
          obtain ⟨t2, ts2, rfl⟩ : ∃ a b, ts' = a :: b := by
            simp only [elemTexts] at hts
            cases h1 : (if w.isNull then Res.ok nullText else toJSON P w) <;> rw [h1] at hts
            · cases h2 : elemTexts P vs <;> rw [h2] at hts <;> cases hts
              exact ⟨_, _, rfl⟩
            · cases hts
            · cases hts
          have e : join [','] (t :: t2 :: ts2) ++ ']' :: r = t ++ ',' :: (join [','] (t2 :: ts2) ++ ']' :: r) := by simp [join]
          have hl : (join [','] (t :: t2 :: ts2)).length = t.length + 1 + (join [','] (t2 :: ts2)).length := by simp [join]; omega
          rw [hl] at hn
          rw [e]
          have hv := value_text P v t hs.1 ht n (',' :: (join [','] (t2 :: ts2) ++ ']' :: r)) (by omega) (.cons (.inl rfl) _)
          have hi := items_text P (w :: vs) (t2 :: ts2) (by simp) hs.2 hts n r (by omega)
          simp only [items]
          refine ⟨fun h => ?_, fun h => ?_⟩
          · rw [hv.1 h.1]
            simp only [skipWs_cons (show isWs ',' = false by decide), if_true]
            rw [hi.1 h.2]
            rfl
          · by_cases hc : Clean P v
            · rw [hv.1 hc]
              simp only [skipWs_cons (show isWs ',' = false by decide), if_true]
              rw [hi.2 fun h' => h ⟨hc, h'⟩]
              rfl
            · rcases hv.2 hc with hv | ⟨j, c, r', hv, hc⟩
              · rw [hv]
              · rw [hv]
                rcases hc with rfl | rfl <;> rfl

theorem members_text (P : Print) : ∀ (vs : List Val) (ks : List (List Char)) (ts : List (List Char)), vs ≠ [] → ks.length = vs.length → SoundL vs →
    fieldTexts P ks vs = .ok ts → ∀ (n : Nat) (r : List Char), (join [','] ts).length < n →
    ReadsAll ((∀ k ∈ ks, k.all (okChar P) = true) ∧ CleanL P vs) (members n (join [','] ts ++ '}' :: r)) (jsonOfF ks vs) r
  | [], _, _, h0, _, _, _, _, _, _ => absurd rfl h0
  | v :: vs, [], ts, _, hl, _, _, _, _, _ => by simp at hl
  | v :: vs, k :: ks, ts, _, hlen, hs, he, n, r, hn => by
    obtain ⟨n, rfl⟩ : ∃ m, n = m + 1 := ⟨n - 1, by omega⟩
    simp only [fieldTexts] at he
    cases ht : (if v.isNull then Res.ok nullText else toJSON P v) with
    | err => rw [ht] at he; cases he
    | panic => rw [ht] at he; cases he
    | ok t =>
      rw [ht] at he
      cases hts : fieldTexts P ks vs with
      | err => rw [hts] at he; cases he
      | panic => rw [hts] at he; cases he
      | ok ts' =>
        rw [hts] at he
        cases he
        have hq : ∀ u : List Char, goQuote P k ++ ':' :: t ++ u = '"' :: (k.flatMap (quoteChar P) ++ '"' :: ':' :: (t ++ u)) := by
          intro u; unfold goQuote; simp
        have hchars : ∀ u : List Char, chars ((k.flatMap (quoteChar P) ++ '"' :: ':' :: u).length + 1) (k.flatMap (quoteChar P) ++ '"' :: ':' :: u) =
            if k.all (okChar P) then some (k, ':' :: u) else none := fun u => chars_quote P _ k _ (by simp; omega)
        have hwq : isWs '"' = false := by decide
        have hwc : isWs ':' = false := by decide
        match ks, vs, hts, hlen, hs with
        | [], _ :: _, _, hlen, _ => simp at hlen
        | _ :: _, [], _, hlen, _ => simp at hlen
        | [], [], hts, _, hs =>
          simp only [fieldTexts] at hts
          cases hts
          simp only [join, List.length_append, List.length_cons] at hn ⊢
          have hv := value_text P v t hs.1 ht n ('}' :: r) (by omega) (.cons (.inr (.inr rfl)) _)
          rw [hq]
          simp only [members, skipWs_cons hwq, if_true, hchars]
          refine ⟨fun h => ?_, fun h => ?_⟩
          · rw [if_pos (h.1 k (by simp))]
            simp only [skipWs_cons hwc, if_true]
            rw [hv.1 h.2.1]
            rfl
          · by_cases hk : k.all (okChar P) = true
            · rw [if_pos hk]
              simp only [skipWs_cons hwc, if_true]
              rcases hv.2 (fun hc => h ⟨by simpa using hk, hc, trivial⟩) with hv | ⟨j, c, r', hv, hc⟩
              · rw [hv]
              · rw [hv]
                rcases hc with rfl | rfl <;> rfl
            · rw [if_neg hk]
        | k2 :: ks, w :: vs, hts, hlen, hs =>
          obtain ⟨t2, ts2, rfl⟩ : ∃ a b, ts' = a :: b := by
            simp only [fieldTexts] at hts
            cases h1 : (if w.isNull then Res.ok nullText else toJSON P w) <;> rw [h1] at hts
            · cases h2 : fieldTexts P ks vs <;> rw [h2] at hts <;> cases hts
              exact ⟨_, _, rfl⟩
            · cases hts
            · cases hts
          have e : join [','] ((goQuote P k ++ ':' :: t) :: t2 :: ts2) ++ '}' :: r =
              goQuote P k ++ ':' :: t ++ ',' :: (join [','] (t2 :: ts2) ++ '}' :: r) := by simp [join]
          have hl : (join [','] ((goQuote P k ++ ':' :: t) :: t2 :: ts2)).length =
              (goQuote P k).length + t.length + 2 + (join [','] (t2 :: ts2)).length := by simp [join]; omega
          rw [hl] at hn
          rw [e, hq]
          have hv := value_text P v t hs.1 ht n (',' :: (join [','] (t2 :: ts2) ++ '}' :: r)) (by omega) (.cons (.inl rfl) _)
          have hi := members_text P (w :: vs) (k2 :: ks) (t2 :: ts2) (by simp) (by simpa using hlen) hs.2 hts n r (by omega)
          simp only [members, skipWs_cons hwq, if_true, hchars]
          refine ⟨fun h => ?_, fun h => ?_⟩
          · rw [if_pos (h.1 k (by simp))]
            simp only [skipWs_cons hwc, if_true]
            rw [hv.1 h.2.1]
            simp only [skipWs_cons (show isWs ',' = false by decide), if_true]
            rw [hi.1 ⟨fun k' hk' => h.1 k' (by simp at hk' ⊢; exact .inr hk'), h.2.2⟩]
            rfl
          · by_cases hk : k.all (okChar P) = true
            · rw [if_pos hk]
              simp only [skipWs_cons hwc, if_true]
              by_cases hc : Clean P v
              · rw [hv.1 hc]
                simp only [skipWs_cons (show isWs ',' = false by decide), if_true]
                rw [hi.2 fun h' => h ⟨by
                  intro k' hk'
                  rcases List.mem_cons.1 hk' with rfl | hk'
                  · exact hk
                  · exact h'.1 k' hk', hc, h'.2⟩]
                rfl
              · rcases hv.2 hc with hv | ⟨j, c, r', hv, hc⟩
                · rw [hv]
                · rw [hv]
                  rcases hc with rfl | rfl <;> rfl
            · rw [if_neg hk]

end

mutual

/-- Every value has a text. -/
theorem text_total (P : Print) : ∀ v : Val, Sound v → ∃ t, textOf P v = .ok t
  | .null, _ => ⟨_, rfl⟩
  | .int i, _ => ⟨_, by simp only [textOf, Val.isNull, Bool.false_eq_true, if_false, toJSON]; rfl⟩
  | .bool i, _ => ⟨_, by simp only [textOf, Val.isNull, Bool.false_eq_true, if_false, toJSON]; rfl⟩
  | .str i, _ => ⟨_, by simp only [textOf, Val.isNull, Bool.false_eq_true, if_false, toJSON]; rfl⟩
  | .bytes i, _ => ⟨_, by simp only [textOf, Val.isNull, Bool.false_eq_true, if_false, toJSON]; rfl⟩
  | .num _ _, _ => ⟨_, by simp only [textOf, Val.isNull, Bool.false_eq_true, if_false, toJSON]; rfl⟩
  | .time k t, _ => by
    simp only [textOf, Val.isNull, Bool.false_eq_true, if_false, toJSON]
    cases k <;> exact ⟨_, rfl⟩
  | .arr vs, h => by
    obtain ⟨ts, e⟩ := elems_total P vs h
    exact ⟨_, by simp only [textOf, Val.isNull, Bool.false_eq_true, if_false, toJSON, e]; rfl⟩
  | .struct ks vs, h => by
    simp only [Sound] at h
    obtain ⟨ts, e⟩ := fields_total P vs ks h.1 h.2
    exact ⟨_, by simp only [textOf, Val.isNull, Bool.false_eq_true, if_false, toJSON, e]; rfl⟩

@[inherit_doc text_total] theorem elems_total (P : Print) : ∀ vs : List Val, SoundL vs → ∃ ts, elemTexts P vs = .ok ts
  | [], _ => ⟨[], rfl⟩
  | v :: vs, h => by
    obtain ⟨t, e1⟩ := text_total P v h.1
    obtain ⟨ts, e2⟩ := elems_total P vs h.2
    unfold textOf at e1
    exact ⟨t :: ts, by simp only [elemTexts, e1, e2, Res.bind]⟩

@[inherit_doc text_total] theorem fields_total (P : Print) : ∀ (vs : List Val) (ks : List (List Char)), ks.length = vs.length → SoundL vs →
    ∃ ts, fieldTexts P ks vs = .ok ts
  | _, [], _, _ => ⟨[], by simp only [fieldTexts]⟩
  | [], k :: ks, h, _ => by simp at h
  | v :: vs, k :: ks, hl, h => by
    obtain ⟨t, e1⟩ := text_total P v h.1
    obtain ⟨ts, e2⟩ := fields_total P vs ks (by simpa using hl) h.2
    unfold textOf at e1
    exact ⟨_, by simp only [fieldTexts, e1, e2, Res.bind]; rfl⟩

end

/-- **C189** in part: the function returns a text for every value but NULL.  The text is the JSON text of the value if the
value is clean, and no JSON text at all otherwise: if a date or time occurs in it, or a text or field name with a control
character JSON has no escape for or an unprintable character above U+FFFF. -/
theorem C189_partial (P : Print) (v : Val) (hs : Sound v) (hv : v.isNull = false) :
    ∃ t, toJsonString P v false = .ok t ∧ (Clean P v → parse t = some (jsonOf v)) ∧ (¬ Clean P v → parse t = none) := by
  obtain ⟨t, ht⟩ := text_total P v hs
  have hj : toJsonString P v false = .ok t := by
    unfold textOf at ht
    rw [hv] at ht
    exact ht
  have h := value_text P v t hs ht (t.length + 1) [] (by omega) Stop.nil
  rw [List.append_nil] at h
  refine ⟨t, hj, fun hc => ?_, fun hc => ?_⟩
  · unfold parse
    rw [h.1 hc]
    rfl
  · unfold parse
    rcases h.2 hc with e | ⟨j, c, r, e, hc⟩
    · rw [e]
    · rw [e]
      rcases hc with rfl | rfl <;> rfl

/-- Only the printable ASCII characters are printed. -/
def asciiPrint : Print where
  is c := decide (32 ≤ c.toNat ∧ c.toNat < 127)
  ascii _ _ := rfl

example : Clean asciiPrint (.struct [['a']] [.arr [.int 1, .null, .str ['"', '\n', 'é']]]) := by
  refine ⟨by decide, ⟨⟨trivial, trivial, ?_, trivial⟩, trivial⟩⟩
  show (['"', '\n', 'é'] : List Char).all (okChar asciiPrint) = true
  decide

theorem C189_full_false : ¬ C189_full := by
  intro h
  obtain ⟨t, h1, h2⟩ := h asciiPrint (.time .date 0) trivial rfl
  obtain ⟨t', h1', _, h3⟩ := C189_partial asciiPrint (.time .date 0) trivial rfl
  rw [h1] at h1'
  cases h1'
  rw [h3 (fun h => h)] at h2
  cases h2

/-- A text is written as JSON exactly if its characters are: not BEL, VT, DEL and the other control characters without a
letter. -/
theorem C189_string (P : Print) (s : List Char) :
    ∃ t, toJsonString P (.str s) false = .ok t ∧ (parse t = some (.str s) ↔ ∀ c ∈ s, okChar P c = true) := by
  obtain ⟨t, h1, h2, h3⟩ := C189_partial P (.str s) trivial rfl
  refine ⟨t, h1, fun h => ?_, fun h => h2 (List.all_eq_true.2 h)⟩
  by_cases hc : Clean P (.str s)
  · exact List.all_eq_true.1 hc
  · rw [h3 hc] at h; cases h

/-- No date or time is ever written as JSON, alone or inside an array. -/
theorem C189_times (P : Print) (k : TimeKind) (x : Int) (a b : List Val) (ha : SoundL a) (hb : SoundL b) :
    (∃ t, toJsonString P (.time k x) false = .ok t ∧ parse t = none) ∧
    (∃ t, toJsonString P (.arr (a ++ .time k x :: b)) false = .ok t ∧ parse t = none) := by
  have hs : SoundL (a ++ .time k x :: b) := by
    induction a with
    | nil => exact ⟨trivial, hb⟩
    | cons v a ih => exact ⟨ha.1, ih ha.2⟩
  have hc : ¬ CleanL P (a ++ .time k x :: b) := by
    clear ha hs
    induction a with
    | nil => exact fun h => h.1
    | cons v a ih => exact fun h => ih h.2
  obtain ⟨t, h1, _, h3⟩ := C189_partial P (.time k x) trivial rfl
  obtain ⟨t', h1', _, h3'⟩ := C189_partial P (.arr (a ++ .time k x :: b)) hs rfl
  exact ⟨⟨t, h1, h3 (fun h => h)⟩, ⟨t', h1', h3' hc⟩⟩

/-! ## C190: NULL -/

/-- NULL gives the JSON text null. -/
def C190_full : Prop :=
  ∀ P : Print, ∃ t, toJsonString P .null false = .ok t ∧ parse t = some .null

theorem jsonOfL_append : ∀ a b : List Val, jsonOfL (a ++ b) = jsonOfL a ++ jsonOfL b
  | [], _ => by simp [jsonOfL]
  | v :: a, b => by simp [jsonOfL, jsonOfL_append a b]

/-- **C190** in part: inside an array NULL is written null.  TO_JSON of NULL is NULL, of other values the text of
TO_JSON_STRING. -/
theorem C190_partial (P : Print) :
    (∀ a b, SoundL a → SoundL b → CleanL P a → CleanL P b →
      ∃ t, toJsonString P (.arr (a ++ .null :: b)) false = .ok t ∧ parse t = some (.arr (jsonOfL a ++ .null :: jsonOfL b))) ∧
    (∀ w, toJson P .null w = .ok none) ∧
    (∀ v w, v.isNull = false → toJson P v w = (toJsonString P v false).bind fun t => .ok (some t)) := by
  refine ⟨fun a b ha hb hca hcb => ?_, fun w => rfl, fun v w h => ?_⟩
  · have hs : SoundL (a ++ .null :: b) := by
      clear hca
      induction a with
      | nil => exact ⟨trivial, hb⟩
      | cons v a ih => exact ⟨ha.1, ih ha.2⟩
    have hc : CleanL P (a ++ .null :: b) := by
      clear ha hs
      induction a with
      | nil => exact ⟨trivial, hcb⟩
      | cons v a ih => exact ⟨hca.1, ih hca.2⟩
    obtain ⟨t, h1, h2, _⟩ := C189_partial P (.arr (a ++ .null :: b)) hs rfl
    refine ⟨t, h1, ?_⟩
    rw [h2 hc]
    simp only [jsonOf, jsonOfL_append, jsonOfL]
  · unfold toJson toJsonString
    rw [h]
    rfl

/-- **C190** is false: TO_JSON_STRING(NULL) calls a method of a nil interface and panics. -/
theorem C190_full_false : ¬ C190_full := by
  intro h
  obtain ⟨t, h, _⟩ := h asciiPrint
  simp only [toJsonString, toJSON] at h
  cases h

/-! ## C191: numbers JSON readers cannot hold -/

/-- Outside the range where FLOAT64 holds every integer. -/
def Wide (i : Int) : Prop := i < -2 ^ 53 ∨ 2 ^ 53 < i

/-- TO_JSON_STRING, and TO_JSON with stringify_wide_numbers, write INT64 values beyond 2^53 as strings. -/
def C191_full : Prop :=
  ∀ (P : Print) (i : Int), InI64 i → Wide i →
    (∃ t, toJsonString P (.int i) false = .ok t ∧ parse t = some (.str (decInt i))) ∧
    (∃ t, toJson P (.int i) true = .ok (some t) ∧ parse t = some (.str (decInt i)))

/-- **C191** in part: every INT64 is written as the number it is, whatever the options. -/
theorem C191_partial (P : Print) (i : Int) (pretty wide : Bool) :
    ∃ t, toJsonString P (.int i) pretty = .ok t ∧ toJson P (.int i) wide = .ok (some t) ∧ parse t = some (.num i) := by
  obtain ⟨t, h1, h2, _⟩ := C189_partial P (.int i) trivial rfl
  refine ⟨t, h1, ?_, h2 trivial⟩
  rw [(C190_partial P).2.2 _ _ rfl, h1]
  rfl

/-- **C191** is false for every wide number. -/
theorem C191_never (P : Print) (i : Int) (t : List Char) (h : toJsonString P (.int i) false = .ok t) :
    ∀ s, parse t ≠ some (.str s) := by
  obtain ⟨t', h1, _, h3⟩ := C191_partial P i false false
  rw [h] at h1
  cases h1
  intro s e
  rw [h3] at e
  cases e

theorem C191_full_false : ¬ C191_full := by
  intro h
  obtain ⟨⟨t, h1, h2⟩, _⟩ := h asciiPrint (2 ^ 53 + 1) (by decide) (.inr (by decide))
  exact C191_never asciiPrint _ t h1 _ h2

end Verif.ToJson
