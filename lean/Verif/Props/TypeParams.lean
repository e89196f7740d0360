import Verif.Model.TypeParams
import Verif.Props.Constraints

/-!
# C283: type parameters
-/

namespace Verif.TypeParams

open Go Verif.Val

/-- The numbers of NUMERIC(P, S). -/
def FitsNum (p s : Nat) (r : Rat) : Prop := ∃ n : Int, r = (n : Rat) / (10 : Rat) ^ s ∧ n.natAbs < 10 ^ p

/-- The values a type with parameters has. -/
def Fits : Params → Stored → Prop
  | .len l, .text s => s.length ≤ l
  | .len l, .bytes b => b.length ≤ l
  | .prec p s, .num r => FitsNum p s r
  | _, _ => True

/-- All values of the rows are values of the types of their columns. -/
def Within (def_ : List ColDef) (rows : List (Constraints.Row Stored)) : Prop :=
  ∀ r ∈ rows, ∀ (i : Nat) (c : ColDef) (v : Stored), def_[i]? = some c → r[i]? = some (some v) → Fits c.params v

/-- A row that can be inserted: no NULL in a column that is NOT NULL. -/
def NoNull (def_ : List ColDef) (r : Constraints.Row Stored) : Prop :=
  ∀ (i : Nat) (c : ColDef), def_[i]? = some c → c.notNull = true → ∃ v, r[i]? = some (some v)

/-- C283: a table has no other values than those of the types of its columns, and CAST gives values of the type it names. -/
def C283_full : Prop :=
  (∀ (def_ : List ColDef) (stmts : List (List (Constraints.Row Stored) → Option (List (Constraints.Row Stored)))),
    Within def_ (Constraints.history (table def_) stmts)) ∧
  (∀ (other : List Char → Rat) (l : Nat) (safe : Bool) (s t : List Char), cast other .str .str (.len l) safe (.str s) = .ok (.str t) → t.length ≤ l) ∧
  (∀ (other : List Char → Rat) (p s : Nat) (safe : Bool) (r q : Rat), cast other (.num false) (.num false) (.prec p s) safe (.num r false) = .ok (.num q false) → FitsNum p s q)

theorem mem_notNulls : ∀ (cs : List ColSpec) (k i : Nat), i ∈ notNulls k cs ↔ ∃ j c, i = k + j ∧ cs[j]? = some c ∧ c.notNull = true
  | [], k, i => by simp [notNulls]
  | c :: cs, k, i => by
    have ih := mem_notNulls cs (k + 1) i
    have h : (∃ j d, i = k + j ∧ (c :: cs)[j]? = some d ∧ d.notNull = true) ↔ (i = k ∧ c.notNull = true) ∨ ∃ j d, i = k + 1 + j ∧ cs[j]? = some d ∧ d.notNull = true := by
      constructor
      · rintro ⟨j, d, hj, hd, hn⟩
        cases j with
        | zero =>
          simp only [List.getElem?_cons_zero, Option.some.injEq] at hd
          subst hd
          exact Or.inl ⟨by omega, hn⟩
        | succ j => exact Or.inr ⟨j, d, by omega, by simpa using hd, hn⟩
      · rintro (⟨rfl, hn⟩ | ⟨j, d, hj, hd, hn⟩)
        · exact ⟨0, c, rfl, rfl, hn⟩
        · exact ⟨j + 1, d, by omega, by simpa using hd, hn⟩
    rw [h, ← ih]
    rw [notNulls]
    split
    · rename_i hc
      simp [hc]
    · rename_i hc
      simp [hc]

theorem uniqueKeys_nil : ∀ rows : List (Constraints.Row Stored), Constraints.uniqueKeys [] rows = true
  | [] => rfl
  | r :: rs => by simp [Constraints.uniqueKeys, uniqueKeys_nil rs]

theorem accepts_iff (def_ : List ColDef) (rows : List (Constraints.Row Stored)) :
    Constraints.accepts (Constraints.written (table def_)) rows = true ↔ ∀ r ∈ rows, NoNull def_ r := by
  have hw : Constraints.written (table def_) = ⟨notNulls 0 (newColumns def_), []⟩ := rfl
  rw [hw]
  simp only [Constraints.accepts, uniqueKeys_nil, Bool.and_true, List.all_eq_true (p := fun r => (Constraints.pick _ r).all Option.isSome)]
  have h : ∀ r : Constraints.Row Stored, (Constraints.pick (notNulls 0 (newColumns def_)) r).all Option.isSome = true ↔ NoNull def_ r := by
    intro r
    rw [Constraints.pick_all]
    constructor
    · intro h i c hc hn
      refine h i ((mem_notNulls _ _ _).2 ⟨i, ⟨c.notNull⟩, by omega, ?_, hn⟩)
      simp [newColumns, hc]
    · intro h i hi
      obtain ⟨j, c, hj, hc, hn⟩ := (mem_notNulls _ _ _).1 hi
      have e : i = j := by omega
      subst e
      simp only [newColumns, List.getElem?_map, Option.map_eq_some_iff] at hc
      obtain ⟨d, hd, rfl⟩ := hc
      exact h i d hd hn
  constructor
  · intro hr r hm
    exact (h r).1 (hr r hm)
  · intro hr r hm
    exact (h r).2 (hr r hm)

/-- **C283** for INSERT, exactly: a row is stored if it has no NULL in columns that are NOT NULL, whatever its values are; so the table keeps to the
types if and only if it did before and the row does. -/
theorem C283_insert_iff (def_ : List ColDef) (rows : List (Constraints.Row Stored)) (r : Constraints.Row Stored) (h : ∀ x ∈ rows, NoNull def_ x) (hr : NoNull def_ r) :
    insert def_ rows r = rows ++ [r] ∧ (Within def_ (insert def_ rows r) ↔ Within def_ rows ∧ Within def_ [r]) := by
  have e : insert def_ rows r = rows ++ [r] := by
    have ha : Constraints.accepts (Constraints.written (table def_)) (rows ++ [r]) = true := by
      rw [accepts_iff]
      intro x hx
      rcases List.mem_append.1 hx with hx | hx
      · exact h x hx
      · simp only [List.mem_singleton] at hx
        subst hx
        exact hr
    simp only [insert, Constraints.exec, ha, if_true]
  refine ⟨e, ?_⟩
  rw [e]
  unfold Within
  simp only [List.mem_append, or_imp, forall_and]

/-- A row with a NULL in a column that is NOT NULL is not stored. -/
theorem C283_null (def_ : List ColDef) (rows : List (Constraints.Row Stored)) (r : Constraints.Row Stored) (hr : ¬ NoNull def_ r) : insert def_ rows r = rows := by
  have ha : Constraints.accepts (Constraints.written (table def_)) (rows ++ [r]) = false := by
    cases h : Constraints.accepts (Constraints.written (table def_)) (rows ++ [r]) with
    | false => rfl
    | true => exact absurd ((accepts_iff _ _).1 h r (by simp)) hr
  simp [insert, Constraints.exec, ha]

/-- CAST to STRING(L), exactly. -/
theorem C283_string_iff (other : List Char → Rat) (l : Nat) (safe : Bool) (s : List Char) :
    (∀ t, cast other .str .str (.len l) safe (.str s) = .ok (.str t) → t.length ≤ l) ↔ s.length ≤ l := by
  have e : cast other .str .str (.len l) safe (.str s) = .ok (.str s) := rfl
  rw [e]
  constructor
  · intro h
    exact h s rfl
  · intro h t ht
    cases ht
    exact h

/-- CAST to NUMERIC(P, S), exactly. -/
theorem C283_numeric_iff (other : List Char → Rat) (p s : Nat) (safe : Bool) (r : Rat) :
    (∀ q, cast other (.num false) (.num false) (.prec p s) safe (.num r false) = .ok (.num q false) → FitsNum p s q) ↔ FitsNum p s r := by
  have e : cast other (.num false) (.num false) (.prec p s) safe (.num r false) = .ok (.num r false) := rfl
  rw [e]
  constructor
  · intro h
    exact h r rfl
  · intro h t ht
    cases ht
    exact h

theorem C283_full_false : ¬ C283_full := by
  intro h
  have := (C283_string_iff (fun _ => 0) 1 false ['a', 'b']).1 (h.2.1 (fun _ => 0) 1 false ['a', 'b'])
  exact absurd this (by decide)

/-- `CREATE TABLE t (a STRING(2), b INT64 NOT NULL)` and a row with a text of three characters. -/
example : NoNull [⟨false, .len 2⟩, ⟨true, .none⟩] [some (.text ['a', 'b', 'c']), some (.num 1)] ∧
    ¬ Within [⟨false, .len 2⟩, ⟨true, .none⟩] [[some (.text ['a', 'b', 'c']), some (.num 1)]] := by
  constructor
  · intro i c hc hn
    match i with
    | 0 => exact ⟨_, rfl⟩
    | 1 => exact ⟨_, rfl⟩
    | i + 2 => simp at hc
  · intro h
    have h1 : Fits (.len 2) (.text ['a', 'b', 'c']) := h _ (List.mem_singleton.2 rfl) 0 _ _ rfl rfl
    exact absurd h1 (by simp [Fits])

end Verif.TypeParams
