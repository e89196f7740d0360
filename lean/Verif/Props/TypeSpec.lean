import Verif.Model.TypeSpec

/-!
# Types in the catalog: C75
-/

namespace Verif.TypeSpec

open Go Json

mutual
/-- A type as SQL has it: scalar kinds are not those of arrays and structs, and fields have a name and a type. -/
def Valid : SqlType → Prop
  | .scalar k => k ≠ 16 ∧ k ≠ 17
  | .arr e => Valid e
  | .struct ns ts => ns.length = ts.length ∧ ValidAll ts
@[inherit_doc Valid] def ValidAll : List SqlType → Prop
  | [] => True
  | t :: ts => Valid t ∧ ValidAll ts
end

theorem nameAt_text (name rest : List Char) : nameAt (kName ++ (name.flatMap esc ++ '"' :: rest)) = some (name, rest) := by
  unfold nameAt
  rw [skip_append]
  exact unquote_quote name rest _ (by have := flatMap_esc_length name; simp only [List.length_append, List.length_cons]; omega)

theorem decNat_digit (n : Nat) : ∀ c ∈ decNat n, decide (48 ≤ c.toNat ∧ c.toNat ≤ 57) = true := by
  intro c hc
  rw [decide_eq_true_iff]
  exact decNat_digits n c hc

theorem numAt_text (n : Nat) (c : Char) (rest : List Char) (hc : c = ',') : numAt (decNat n ++ c :: rest) = some (n, c :: rest) := by
  obtain ⟨h1, h2⟩ := takeWhile_append (b := c :: rest) (decNat_digit n) (by intro x hx; cases hx; subst hc; decide)
  unfold numAt
  rw [h1, h2, parseNat_decNat]
  rfl

theorem marshal_head (t : GoType) : ∃ r, marshal t = '{' :: r := by
  cases t with
  | mk name kind elem ns ts => simp only [marshal, kName, List.cons_append]; exact ⟨_, rfl⟩

theorem skip_ne {p : List Char} {a b : Char} (r : List Char) (h : a ≠ b) : skip (a :: p) (b :: r) = none := by
  unfold skip
  simp [List.isPrefixOf, h]

theorem marshal_length (name : List Char) (kind : Nat) (elem : List GoType) (ns : List (List Char)) (ts : List GoType) :
    (marshalElem elem).length + (marshalFields ns ts).length + 10 < (marshal (.mk name kind elem ns ts)).length := by
  simp only [marshal, List.length_append, List.length_cons, kName, kKind, kElem, kFields, List.length_nil]
  omega

theorem unmarshal_step {n : Nat} {name : List Char} {kind : Nat} {elem : List GoType} {ns : List (List Char)} {ts : List GoType} (rest : List Char)
    (he : ∀ rest, unmarshalElem n (marshalElem elem ++ rest) = some (elem, rest))
    (hf : ∀ rest, unmarshalFields n (marshalFields ns ts ++ rest) = some (ns, ts, rest)) :
    unmarshal (n + 1) (marshal (.mk name kind elem ns ts) ++ rest) = some (.mk name kind elem ns ts, rest) := by
  have e : marshal (.mk name kind elem ns ts) ++ rest =
      kName ++ (name.flatMap esc ++ '"' :: (kKind ++ (decNat kind ++ (kElem ++ (marshalElem elem ++ (kFields ++ (marshalFields ns ts ++ (['}'] ++ rest)))))))) := by
    simp only [marshal, List.append_assoc, List.cons_append]
  have en : ∀ r, numAt (decNat kind ++ (kElem ++ r)) = some (kind, kElem ++ r) := fun r => numAt_text kind ',' _ rfl
  rw [e]
  simp only [unmarshal, nameAt_text, skip_append, en, he, hf]

mutual
theorem unmarshal_type (typeName : SqlType → List Char) : ∀ (t : SqlType) (n : Nat) (rest : List Char), Valid t → (marshal (newType typeName t)).length < n →
    unmarshal n (marshal (newType typeName t) ++ rest) = some (newType typeName t, rest)
  | .scalar k, n, rest, _, hn => by
    obtain ⟨m, rfl⟩ : ∃ m, n = m + 1 := ⟨n - 1, by omega⟩
    have hl := marshal_length (typeName (.scalar k)) k [] [] []
    simp only [newType] at hn ⊢
    obtain ⟨j, rfl⟩ : ∃ j, m = j + 1 := ⟨m - 1, by omega⟩
    refine unmarshal_step rest (fun r => ?_) (fun r => ?_)
    · simp only [unmarshalElem, marshalElem, skip_append]
    · simp only [unmarshalFields, marshalFields, skip_append]
  | .arr e, n, rest, hv, hn => by
    obtain ⟨m, rfl⟩ : ∃ m, n = m + 1 := ⟨n - 1, by omega⟩
    have hl := marshal_length (typeName (.arr e)) kindArray [newType typeName e] [] []
    simp only [newType] at hn ⊢
    obtain ⟨j, rfl⟩ : ∃ j, m = j + 1 := ⟨m - 1, by omega⟩
    simp only [marshalElem] at hl
    refine unmarshal_step rest (fun r => ?_) (fun r => ?_)
    · have ih := unmarshal_type typeName e j r hv (by omega)
      simp only [unmarshalElem, marshalElem]
      rw [ih]
      obtain ⟨u, hu⟩ := marshal_head (newType typeName e)
      rw [hu, List.cons_append, kNull, skip_ne _ (by decide)]
      rfl
    · simp only [unmarshalFields, marshalFields, skip_append]
  | .struct ns ts, n, rest, hv, hn => by
    obtain ⟨m, rfl⟩ : ∃ m, n = m + 1 := ⟨n - 1, by omega⟩
    have hl := marshal_length (typeName (.struct ns ts)) kindStruct [] ns (newTypes typeName ts)
    simp only [newType] at hn ⊢
    obtain ⟨j, rfl⟩ : ∃ j, m = j + 1 := ⟨m - 1, by omega⟩
    refine unmarshal_step rest (fun r => ?_) (fun r => ?_)
    · simp only [unmarshalElem, marshalElem, skip_append]
    · cases ts with
      | nil =>
        have : ns = [] := List.eq_nil_of_length_eq_zero (by simpa using hv.1)
        subst this
        simp only [newTypes, unmarshalFields, marshalFields, skip_append]
      | cons t ts =>
        cases ns with
        | nil => simp [Valid] at hv
        | cons name ns =>
          have ih := unmarshal_items typeName t ts name ns j r hv.2.1 hv.2.2 (by simpa using hv.1)
            (by simp only [newTypes] at hn; simp only [newTypes, marshalFields, List.length_cons] at hl; omega)
          simp only [newTypes, unmarshalFields, marshalFields, List.cons_append]
          rw [kNull, skip_ne _ (by decide)]
          have hb : ∀ s, skip ['['] ('[' :: s) = some s := fun s => skip_append ['['] s
          simp only [hb]
          exact ih
theorem unmarshal_items (typeName : SqlType → List Char) : ∀ (t : SqlType) (ts : List SqlType) (name : List Char) (ns : List (List Char)) (n : Nat) (rest : List Char),
    Valid t → ValidAll ts → ns.length = ts.length → (marshalItems (name :: ns) (newType typeName t :: newTypes typeName ts)).length < n →
    unmarshalItems n (marshalItems (name :: ns) (newType typeName t :: newTypes typeName ts) ++ rest) = some (name :: ns, newType typeName t :: newTypes typeName ts, rest)
  | t, [], name, ns, n, rest, hv, _, hl, hn => by
    have : ns = [] := List.eq_nil_of_length_eq_zero (by simpa using hl)
    subst this
    obtain ⟨m, rfl⟩ : ∃ m, n = m + 1 := ⟨n - 1, by omega⟩
    have ih := fun r => unmarshal_type typeName t m r hv
      (by simp only [newTypes, marshalItems, List.length_append, List.length_cons] at hn; omega)
    have e : marshalItems [name] (newType typeName t :: newTypes typeName []) ++ rest =
        kName ++ (name.flatMap esc ++ '"' :: (kType ++ (marshal (newType typeName t) ++ (['}', ']'] ++ rest)))) := by
      simp only [newTypes, marshalItems, List.isEmpty_nil, if_true, List.append_assoc, List.cons_append, List.nil_append]
    rw [e]
    simp only [unmarshalItems, nameAt_text, skip_append, ih, newTypes]
  | t, t' :: ts, name, ns, n, rest, hv, hvs, hl, hn => by
    cases ns with
    | nil => simp at hl
    | cons name' ns =>
      obtain ⟨m, rfl⟩ : ∃ m, n = m + 1 := ⟨n - 1, by omega⟩
      have e : marshalItems (name :: name' :: ns) (newType typeName t :: newTypes typeName (t' :: ts)) =
          kName ++ (name.flatMap esc ++ '"' :: (kType ++ (marshal (newType typeName t) ++ '}' :: ',' :: marshalItems (name' :: ns) (newType typeName t' :: newTypes typeName ts)))) := by
        conv => lhs; unfold marshalItems
        simp only [newTypes, List.isEmpty_cons, Bool.false_eq_true, if_false]
      rw [e] at hn
      simp only [List.length_append, List.length_cons] at hn
      have ih := fun r => unmarshal_type typeName t m r hv (by omega)
      have ihs := unmarshal_items typeName t' ts name' ns m rest hvs.1 hvs.2 (by simpa using hl) (by omega)
      have e2 : marshalItems (name :: name' :: ns) (newType typeName t :: newTypes typeName (t' :: ts)) ++ rest =
          kName ++ (name.flatMap esc ++ '"' :: (kType ++ (marshal (newType typeName t) ++ ('}' :: ',' :: (marshalItems (name' :: ns) (newType typeName t' :: newTypes typeName ts) ++ rest))))) := by
        rw [e]
        simp only [List.append_assoc, List.cons_append]
      have h1 : ∀ s, skip ['}', ']'] ('}' :: ',' :: s) = none := by
        intro s; unfold skip; simp [List.isPrefixOf]
      have h2 : ∀ s, skip ['}', ','] ('}' :: ',' :: s) = some s := fun s => skip_append ['}', ','] s
      rw [e2]
      simp only [unmarshalItems, nameAt_text, skip_append, ih, h1, h2, ihs]
      rfl
end

mutual
theorem toZeta_newType (typeName : SqlType → List Char) : ∀ t, Valid t → toZeta (newType typeName t) = .ok t
  | .scalar k, h => by
    have h1 : ¬ k = kindArray := h.1
    have h2 : ¬ k = kindStruct := h.2
    simp only [newType, toZeta]
    rw [if_neg h1, if_neg h2]
  | .arr e, h => by
    simp only [newType, toZeta, if_true, toZeta_newType typeName e h, Res.bind'_ok]
  | .struct ns ts, h => by
    simp only [newType, toZeta, kindArray, kindStruct]
    rw [if_neg (by decide), if_pos trivial, toZetas_newTypes typeName ts h.2, Res.bind'_ok]
theorem toZetas_newTypes (typeName : SqlType → List Char) : ∀ ts, ValidAll ts → toZetas (newTypes typeName ts) = .ok ts
  | [], _ => rfl
  | t :: ts, h => by
    simp only [newTypes, toZetas, toZeta_newType typeName t h.1, toZetas_newTypes typeName ts h.2, Res.bind'_ok]
end

/-- C75: the text kept for a type stands for that type, whatever names its fields have and however it is nested. -/
theorem C75 (typeName : SqlType → List Char) (t : SqlType) (h : Valid t) : read (write typeName t) = .ok t := by
  have e := unmarshal_type typeName t ((marshal (newType typeName t)).length + 1) [] h (by omega)
  rw [List.append_nil] at e
  unfold read write
  rw [e]
  exact toZeta_newType typeName t h

/-- So different types have different texts. -/
theorem C75_distinct (typeName : SqlType → List Char) (t u : SqlType) (ht : Valid t) (hu : Valid u) (h : write typeName t = write typeName u) : t = u := by
  have h1 := C75 typeName t ht
  rw [h, C75 typeName u hu] at h1
  exact (Res.ok.inj h1).symm

/-- ARRAY<STRUCT<`a"` INT64, `` ARRAY<STRING>>> -/
example : Valid (.arr (.struct [['a', '"'], []] [.scalar 2, .arr (.scalar 8)])) := ⟨rfl, ⟨by decide, by decide⟩, ⟨by decide, by decide⟩, trivial⟩

end Verif.TypeSpec
