import Verif.Model.JsonField
import Verif.Props.JsonFuncs

/-! # C261: fields and elements of JSON values -/

namespace Verif.JsonFuncs

open Go JsonSpec ToJson

/-- Character that is written as itself between the quotes of a path. -/
def PlainName (P : Print) (s : List Char) : Prop := ∀ c ∈ s, P.is c = true ∧ c ≠ '"' ∧ c ≠ '\\'

/-- The result is the JSON that was selected first, JSON null included; NULL if nothing was. -/
def Picked : Option Json → Option (List Char) → Prop
  | none, r => r = none
  | some j, r => ∃ t, r = some t ∧ parse t = some j

theorem firstText_picked {L : Lib} {path doc : List Char} {p : L.Path} {xs : List Json} {ts : List (List Char)} (hw : Works L path doc p xs ts) :
    ∃ r, firstText L p doc = .ok r ∧ Picked xs.head? r := by
  have hd := hw.denote
  simp only [firstText, hw.texts, Res.bind]
  cases ts with
  | nil =>
    cases xs with
    | nil => exact ⟨none, rfl, rfl⟩
    | cons => simp at hd
  | cons t ts =>
    cases xs with
    | nil => simp at hd
    | cons x xs =>
      simp only [List.map_cons, List.cons.injEq] at hd
      exact ⟨_, rfl, t, rfl, hd.1⟩

/-- **C261** `json.name` is `json['name']` for every JSON and every name; for names without quotes, backslashes and unprintable characters it is the
first value that the path `$."name"` selects, and `json[i]` the first that `$[i]` selects; NULL operands give NULL.  JSON null stays JSON null, unlike
in JSON_QUERY. -/
theorem C261 (L : Lib) (P : Print) :
    (∀ v name, jsonField L P v name = jsonSubscript L P v (name.map .str)) ∧
    (∀ name, PlainName P name → fieldPath P name = ['$', '.', '"'] ++ name ++ ['"']) ∧
    (∀ name doc p xs ts, Works L (fieldPath P name) doc p xs ts → ∃ r, jsonField L P (some doc) (some name) = .ok r ∧ Picked xs.head? r) ∧
    (∀ (i : Nat) doc p xs ts, Works L (['$', '['] ++ decInt i ++ [']']) doc p xs ts →
      ∃ r, jsonSubscript L P (some doc) (some (.int i)) = .ok r ∧ Picked xs.head? r) ∧
    (∀ v name k, jsonField L P none name = .ok none ∧ jsonField L P v none = .ok none ∧ jsonSubscript L P none k = .ok none ∧
      jsonSubscript L P v none = .ok none) := by
  refine ⟨?_, ?_, ?_, ?_, ?_⟩
  · intro v name
    cases v <;> cases name <;> rfl
  · intro name hn
    have : name.flatMap (quoteChar P) = name := by
      induction name with
      | nil => rfl
      | cons c cs ih =>
        obtain ⟨h1, h2, h3⟩ := hn c (by simp)
        rw [List.flatMap_cons, ih fun d hd => hn d (by simp [hd])]
        simp [quoteChar, h1, h2, h3]
    simp [fieldPath, goQuote, this]
  · intro name doc p xs ts hw
    obtain ⟨r, h1, h2⟩ := firstText_picked hw
    exact ⟨r, by simp only [jsonField, bound, hw.create, Res.bind'_ok, h1], h2⟩
  · intro i doc p xs ts hw
    obtain ⟨r, h1, h2⟩ := firstText_picked hw
    have hp : indexPath (i : Int) = ['$', '['] ++ decInt i ++ [']'] := by simp [indexPath]
    exact ⟨r, by simp only [jsonSubscript, hp, hw.create, Res.bind'_ok, h1], h2⟩
  · intro v name k
    refine ⟨rfl, ?_, rfl, ?_⟩ <;> cases v <;> rfl

/-- A subscript that is neither an INT64 nor a STRING value when it arrives (an INT64 that has come out of an ARRAY is a FLOAT64 one,
decoder.go:90-103) is a panic. -/
theorem C261_other (L : Lib) (P : Print) (doc : List Char) : jsonSubscript L P (some doc) (some .other) = .panic := rfl

/-- The value of a field agrees with JSON_QUERY of the same path, but that JSON null is NULL there. -/
theorem C261_query {L : Lib} {P : Print} {name doc : List Char} {p : L.Path} {xs : List Json} {ts : List (List Char)}
    (hw : Works L (fieldPath P name) doc p xs ts) (hs : L.sq p = false) (hn : xs.head? ≠ some .null) :
    ∃ r q, jsonField L P (some doc) (some name) = .ok r ∧ bound (jsonQuery L) (some doc) (some (fieldPath P name)) = .ok q ∧
      r.bind parse = q.bind parse ∧ (r = none ↔ q = none) := by
  obtain ⟨r, hr, h1⟩ := (C261 L P).2.2.1 name doc p xs ts hw
  obtain ⟨q, hq, h2⟩ := (C196 L _ doc p xs ts hw).1 hs
  refine ⟨r, q, hr, hq, ?_⟩
  cases hx : xs.head? with
  | none =>
    rw [hx] at h1 h2
    simp only [Picked, QueryText] at h1 h2
    subst h1; subst h2
    exact ⟨rfl, by simp⟩
  | some j =>
    rw [hx] at h1 h2 hn
    obtain ⟨t, rfl, ht⟩ := h1
    have h2' : ∃ t, q = some t ∧ parse t = some j := by
      cases j with
      | null => simp at hn
      | _ => exact h2
    obtain ⟨u, rfl, hu⟩ := h2'
    exact ⟨by simp [ht, hu], by simp⟩

/-- All characters from the blank on, but DEL, as printable. -/
def anyPrint : Print := ⟨fun c => decide (32 ≤ c.toNat ∧ c.toNat ≠ 127), by intro c hc; rw [decide_eq_decide]; omega⟩

/-- The hypotheses are met, by a library that selects the whole document whatever the path; a name that is not plain. -/
example : PlainName anyPrint ['a', 'é'] ∧ jsonField rootLib anyPrint (some ['7']) (some ['a']) = .ok (some ['7']) ∧
    jsonField rootLib anyPrint (some nullText) (some ['a']) = .ok (some nullText) ∧ fieldPath anyPrint ['"'] = ['$', '.', '"', '\\', '"', '"'] := by
  refine ⟨?_, rfl, rfl, by decide⟩
  intro c hc
  simp at hc
  rcases hc with rfl | rfl <;> decide

end Verif.JsonFuncs
