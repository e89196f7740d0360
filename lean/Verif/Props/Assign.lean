import Verif.Model.Assign

/-!
# C270 and C271: DEFAULT and the items of SET
-/

namespace Verif.Assign

section
variable {V : Type} [DecidableEq V]

/-! ## Texts -/

theorem parseExprs_fmt (null : V) : ∀ (vs : List (Option V)) (rest : List (Tok V)),
    parseExprs (join (vs.map fmtValue) ++ .close_ :: rest) =
      if vs ≠ [] ∧ none ∉ vs then some (vs.map (·.getD null), rest) else none
  | [], rest => by simp [join, parseExprs]
  | [some v], rest => by simp [join, fmtValue, parseExprs]
  | [none], rest => by simp [join, fmtValue, parseExprs]
  | none :: w :: vs, rest => by simp [join, fmtValue, parseExprs]
  | some v :: w :: vs, rest => by
    have ih := parseExprs_fmt null (w :: vs) rest
    simp only [List.map_cons] at ih
    have e : join ((some v :: w :: vs).map fmtValue) = .expr v :: .comma :: join (fmtValue w :: vs.map fmtValue) := rfl
    rw [e]
    simp only [List.cons_append, parseExprs, ih]
    by_cases h : none ∉ w :: vs
    · simp_all
    · rw [if_neg (fun hh => h hh.2), if_neg (fun hh => h fun hm => hh.2 (List.mem_cons_of_mem _ hm))]

theorem parseRows_fmt (null : V) : ∀ (rows : List (List (Option V))), rows ≠ [] →
    parseRows rows.length (join (rows.map fmtRow)) =
      if ∀ r ∈ rows, r ≠ [] ∧ none ∉ r then some (rows.map (·.map (·.getD null))) else none
  | [], h => absurd rfl h
  | [r], _ => by
    have := parseExprs_fmt null r []
    simp only [List.map_cons, List.map_nil, join, fmtRow, List.cons_append, List.length_cons, List.length_nil, parseRows, this]
    by_cases h : r ≠ [] ∧ none ∉ r <;> simp [h]
  | r :: r' :: rows, _ => by
    have ih := parseRows_fmt null (r' :: rows) (by simp)
    have := parseExprs_fmt null r (.comma :: join (fmtRow r' :: rows.map fmtRow))
    simp only [List.map_cons] at ih
    simp only [List.map_cons, join, List.length_cons, parseRows, fmtRow, List.cons_append, List.append_assoc, List.nil_append] at this ih ⊢
    rw [this]
    by_cases h : r ≠ [] ∧ none ∉ r
    · rw [if_pos h]
      simp only [ih]
      by_cases h' : ∀ x ∈ r' :: rows, x ≠ [] ∧ none ∉ x
      · rw [if_pos h', if_pos (by intro x hx; rcases List.mem_cons.1 hx with rfl | hx; exact h; exact h' x hx)]
        rfl
      · rw [if_neg h', if_neg (fun hh => h' fun x hx => hh x (List.mem_cons_of_mem _ hx))]
        rfl
    · rw [if_neg h, if_neg (fun hh => h (hh r List.mem_cons_self))]

end

/-! ## C270: DEFAULT in VALUES -/

/-- Full C270: INSERT … VALUES inserts the values, and NULL for DEFAULT: columns have no other default
(FeatureV13ColumnDefaultValue is not enabled, analyzer.go:39-79). -/
def C270_full : Prop :=
  ∀ (V : Type) (_ : DecidableEq V) (null : V) (rows : List (List (Option V))), rows ≠ [] → (∀ r ∈ rows, r ≠ []) →
    inserts rows = some (rows.map (·.map (·.getD null)))

section
variable {V : Type} [DecidableEq V]

/-- **C270** exact: without DEFAULT the values are inserted, with DEFAULT anywhere the statement is an error. -/
theorem C270_exact (null : V) (rows : List (List (Option V))) (h0 : rows ≠ []) (h1 : ∀ r ∈ rows, r ≠ []) :
    ((∀ r ∈ rows, none ∉ r) → inserts rows = some (rows.map (·.map (·.getD null)))) ∧
    ((∃ r ∈ rows, none ∈ r) → inserts rows = none) := by
  unfold inserts fmtInsert
  rw [parseRows_fmt null rows h0]
  constructor
  · intro h
    rw [if_pos fun r hr => ⟨h1 r hr, h r hr⟩]
  · rintro ⟨r, hr, hn⟩
    rw [if_neg fun hh => (hh r hr).2 hn]

end

/-- INSERT INTO t (a, b) VALUES (1, 2), (3, 4) and VALUES (1, 2), (3, DEFAULT). -/
example : inserts [[some 1, some 2], [some 3, some 4]] = some [[1, 2], [3, 4]] ∧ inserts [[some 1, some 2], [some 3, none]] = none := by decide

theorem C270_full_false : ¬ C270_full := fun h => by
  have := h Nat inferInstance 0 [[some 2, none]] (by decide) (by decide)
  revert this; decide

/-! ## C271: SET -/

/-- The columns that SET should set, of a row with the values `get` in its columns; `put` gives a struct a new field. -/
def wanted {V : Type} (null : V) (get : Nat → V) (put : V → Nat → V → V) : Target × Option V → Nat × V
  | (.col c, v) => (c, v.getD null)
  | (.field c i, v) => (c, put (get c) i (v.getD null))

/-- Full C271: UPDATE sets what SET says, whether columns or fields of columns, to values or to DEFAULT. -/
def C271_full : Prop :=
  ∀ (V : Type) (_ : DecidableEq V) (null : V) (get : Nat → V) (put : V → Nat → V → V) (sets : List (Target × Option V)), sets ≠ [] →
    updates sets = some (sets.map (wanted null get put))

section
variable {V : Type} [DecidableEq V]

/-- A column and a value. -/
def plainSet : Target × Option V → Prop
  | (.col _, some _) => True
  | _ => False

omit [DecidableEq V] in
/-- **C271** every UPDATE of columns to values sets them, and every other is an error. -/
theorem C271_exact (null : V) (get : Nat → V) (put : V → Nat → V → V) : ∀ (sets : List (Target × Option V)), sets ≠ [] →
    ((∀ x ∈ sets, plainSet x) → updates sets = some (sets.map (wanted null get put))) ∧
    ((∃ x ∈ sets, ¬ plainSet x) → updates sets = none)
  | [], h => absurd rfl h
  | [(.col c, some v)], _ => by simp [updates, fmtUpdate, join, fmtSet, fmtTarget, fmtValue, parseSets, wanted, plainSet]
  | [(.col c, none)], _ => by simp [updates, fmtUpdate, join, fmtSet, fmtTarget, fmtValue, parseSets, plainSet]
  | [(.field c i, v)], _ => by simp [updates, fmtUpdate, join, fmtSet, fmtTarget, parseSets, plainSet]
  | (.col c, none) :: y :: sets, _ => by simp [updates, fmtUpdate, join, fmtSet, fmtTarget, fmtValue, parseSets, plainSet]
  | (.field c i, v) :: y :: sets, _ => by simp [updates, fmtUpdate, join, fmtSet, fmtTarget, parseSets, plainSet]
  | (.col c, some v) :: y :: sets, _ => by
    have ih := C271_exact null get put (y :: sets) (by simp)
    have e : updates ((.col c, some v) :: y :: sets) = (updates (y :: sets)).map ((c, v) :: ·) := by
      simp [updates, fmtUpdate, join, fmtSet, fmtTarget, fmtValue, parseSets]
    rw [e]
    constructor
    · intro h
      rw [ih.1 fun x hx => h x (List.mem_cons_of_mem _ hx)]
      rfl
    · rintro ⟨x, hx, hn⟩
      rcases List.mem_cons.1 hx with rfl | hx
      · exact absurd trivial hn
      · rw [ih.2 ⟨x, hx, hn⟩]
        rfl

end

/-- UPDATE t SET name = 5, id = 6 is right. -/
example : updates [(.col 1, some 5), (.col 0, some 6)] = some [(1, 5), (0, 6)] := by decide

theorem C271_full_false : ¬ C271_full := fun h => by
  have := h Nat inferInstance 0 (fun _ => 0) (fun _ _ v => v) [(.field 0 0, some 1)] (by simp)
  rw [(C271_exact 0 (fun _ => 0) (fun _ _ v => v) [(.field 0 0, some 1)] (by simp)).2 ⟨_, List.mem_cons_self, fun h => h⟩] at this
  simp at this

end Verif.Assign
