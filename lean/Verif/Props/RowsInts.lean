import Verif.Props.Rows

/-! # C108: what is read of an array of INT64 -/

namespace Verif.Rows

open Go Verif.Val Codec Cast

/-- The elements of an array of INT64. -/
def intVal : Option Int → Val
  | none => .null
  | some i => .int i

/-- What a column of INT64 would show. -/
def intOut : Option Int → Out
  | none => .nil
  | some i => .int i

theorem canon_ints : ∀ xs : List (Option Int), (∀ i, some i ∈ xs → InI64 i) → CanonList (xs.map intVal)
  | [], _ => trivial
  | none :: xs, h => ⟨trivial, canon_ints xs fun i hi => h i (by simp [hi])⟩
  | some i :: xs, h => ⟨(h i (by simp) : InI64 i), canon_ints xs fun i hi => h i (by simp [hi])⟩

/-- An array of INT64 is read with every element rounded to FLOAT64 and back (2^63 becomes the least INT64). -/
theorem C108_ints (other : List Char → Rat) (xs : List (Option Int)) (h : ∀ i, some i ∈ xs → InI64 i) :
    read other (.arr .int) (store (encode (.arr (xs.map intVal)))) =
      .ok (.list (xs.map fun x => intOut (x.map fun i => floatInt (f64 i)))) := by
  have hd := decode_encode (.arr (xs.map intVal)) (canon_ints xs h)
  have hr : read other (.arr .int) (store (encode (.arr (xs.map intVal)))) =
    (decode (store (encode (.arr (xs.map intVal))))).bind fun d => (castD other (.arr .int) d).bind fun w => assign other (.arr .int) w := rfl
  rw [hr, hd, Res.bind'_ok]
  have key : ∃ ws, mapRes (castD other .int) (backList (xs.map intVal)) = .ok ws ∧
      mapRes (fun d => match d with | .null => Res.ok Out.nil | d => assign other .int d) ws =
        .ok (xs.map fun x => intOut (x.map fun i => floatInt (f64 i))) := by
    clear hd hr h
    induction xs with
    | nil => exact ⟨[], rfl, rfl⟩
    | cons x xs ih =>
      obtain ⟨ws, h1, h2⟩ := ih
      cases x with
      | none =>
        refine ⟨.null :: ws, ?_, ?_⟩
        · simp only [List.map_cons, intVal, backList, back, mapRes, castD, h1, Res.bind'_ok]
        · simp only [mapRes, h2]; rfl
      | some i =>
        refine ⟨.int (floatInt (f64 i)) :: ws, ?_, ?_⟩
        · simp only [List.map_cons, intVal, backList, back, mapRes, castD, h1, Res.bind'_ok]
        · simp only [mapRes, h2]; rfl
  obtain ⟨ws, h1, h2⟩ := key
  simp only [backTop, back, castD, h1, Res.bind'_ok, assign]
  exact congrArg (fun r => r.bind fun xs => Res.ok (Out.list xs)) h2

theorem floatInt_iff (i : Int) : floatInt (f64 i) = i ↔ f64 i = i ∧ InI64 i := by
  unfold floatInt
  by_cases hi : InI64 (f64 i)
  · rw [if_pos hi]
    exact ⟨fun h => ⟨h, h ▸ hi⟩, fun h => h.1⟩
  · rw [if_neg hi]
    constructor
    · intro h
      subst h
      exact absurd (by decide +kernel) hi
    · rintro ⟨h1, h2⟩
      rw [h1] at hi; exact absurd h2 hi

/-- **C108** for arrays of INT64: right exactly if FLOAT64 can represent every element. -/
theorem C108_ints_iff (other : List Char → Rat) (xs : List (Option Int)) (h : ∀ i, some i ∈ xs → InI64 i) :
    read other (.arr .int) (store (encode (.arr (xs.map intVal)))) = .ok (.list (xs.map intOut)) ↔ ∀ i, some i ∈ xs → f64 i = i := by
  rw [C108_ints other xs h]
  simp only [Res.ok.injEq, Out.list.injEq, List.map_inj_left]
  constructor
  · intro e i hi
    have := e (some i) hi
    simp only [Option.map_some, intOut, Out.int.injEq] at this
    exact ((floatInt_iff i).1 this).1
  · intro e x hx
    cases x with
    | none => rfl
    | some i =>
      simp only [Option.map_some, intOut, Out.int.injEq]
      exact (floatInt_iff i).2 ⟨e i hx, h i hx⟩

example : (∀ i, some i ∈ [some 7, none, some (2 ^ 60)] → InI64 i) ∧ ∀ i, some i ∈ [some 7, none, some (2 ^ 60 : Int)] → f64 i = i := by
  constructor
  · intro i hi
    simp only [List.mem_cons, Option.some.injEq, reduceCtorEq, List.not_mem_nil, or_false, false_or] at hi
    rcases hi with rfl | rfl <;> decide
  · intro i hi
    simp only [List.mem_cons, Option.some.injEq, reduceCtorEq, List.not_mem_nil, or_false, false_or] at hi
    rcases hi with rfl | rfl <;> decide +kernel

end Verif.Rows
