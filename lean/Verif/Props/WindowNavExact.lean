import Verif.Props.WindowNav
import Verif.Props.WindowRowsExact

/-! # C44: exactly when the navigation functions are right -/

namespace Verif.Window

open Go Verif.Val Verif.Sql Verif.Aggregate

theorem isNull_eq {v : Val} (h : v.isNull = true) : v = .null := by cases v <;> simp [Val.isNull] at h ⊢

theorem head_filter (vs : List Val) :
    ((vs.filter fun v => !v.isNull).head?).getD .null = (vs.head?).getD .null ↔
      (vs.head? = some .null → ∀ v ∈ vs, v = .null) := by
  cases vs with
  | nil => simp
  | cons v vs =>
    cases hv : v.isNull with
    | false =>
      have : v ≠ .null := by rintro rfl; simp at hv
      simp [hv, this]
    | true =>
      have := isNull_eq hv
      subst this
      simp only [List.filter_cons, hv, Bool.not_true, Bool.false_eq_true, if_false, List.head?_cons, Option.getD_some, forall_const,
        List.mem_cons, forall_eq_or_imp, true_and]
      constructor
      · intro h w hw
        refine Classical.byContradiction fun hne => ?_
        have hwn : w.isNull = false := by
          cases hb : w.isNull with
          | false => rfl
          | true => exact absurd (isNull_eq hb) hne
        cases hf : vs.filter fun v => !v.isNull with
        | nil =>
          rw [List.filter_eq_nil_iff] at hf
          exact hf w hw (by simp [hwn])
        | cons x xs =>
          have hx : x ∈ vs.filter fun v => !v.isNull := by rw [hf]; simp
          rw [hf] at h
          simp only [List.head?_cons, Option.getD_some] at h
          subst h
          simp at hx
      · intro h
        have : (vs.filter fun v => !v.isNull) = [] := by
          rw [List.filter_eq_nil_iff]
          intro w hw
          rw [h w hw]
          simp
        rw [this]
        rfl

theorem last_filter (vs : List Val) :
    ((vs.filter fun v => !v.isNull).getLast?).getD .null = (vs.getLast?).getD .null ↔
      (vs.getLast? = some .null → ∀ v ∈ vs, v = .null) := by
  have h := head_filter vs.reverse
  simp only [List.filter_reverse, List.head?_reverse, List.mem_reverse] at h
  exact h

theorem panic_bind {α β} (f : α → Res β) : (Res.panic : Res α).bind f = .panic := rfl

/-- C44, exact.  FIRST_VALUE and LAST_VALUE over a ROWS frame are right exactly if the frame is not reversed and, where the query
does not state its null handling, the value they should find is not NULL or all are.  NTH_VALUE, where the query states
its null handling, is right exactly if the frame is not reversed and the value it should find is not the last one, or is NULL.  LEAD and
LAG are right exactly if the value they should find is not NULL, or the default is. -/
theorem C44_iff (S : Sorter) (text : Val → Res (List Char)) (flags : List Bool) (rows : List SRow)
    (hg : GoodParts text rows) (hk : GoodKeys flags rows) (p : List (Option Scalar)) :
    ∃ W, WindowOrder flags rows p W ∧ ∀ (i j : Nat), W[i]? = some j →
      (∀ b e n, Grammatical b e →
        (winFirst n S text .rows b e (input flags rows) ((j : Int) + 1) =
            .ok ((candidates n ((rowsFrame W b e i).map (valueAt rows))).head?.getD .null) ↔
          ¬ Reversed W.length i b e ∧ (n = .unspecified → ((rowsFrame W b e i).map (valueAt rows)).head? = some .null →
            ∀ v ∈ (rowsFrame W b e i).map (valueAt rows), v = .null)) ∧
        (winLast n S text .rows b e (input flags rows) ((j : Int) + 1) =
            .ok ((candidates n ((rowsFrame W b e i).map (valueAt rows))).getLast?.getD .null) ↔
          ¬ Reversed W.length i b e ∧ (n = .unspecified → ((rowsFrame W b e i).map (valueAt rows)).getLast? = some .null →
            ∀ v ∈ (rowsFrame W b e i).map (valueAt rows), v = .null)) ∧
        (n ≠ .unspecified → ∀ k : Nat, 1 ≤ k → (NthSpec S text flags rows W b e n k i j ↔
          ¬ Reversed W.length i b e ∧
            (k = (candidates n ((rowsFrame W b e i).map (valueAt rows))).length →
              (candidates n ((rowsFrame W b e i).map (valueAt rows))).getLast? = some .null)))) ∧
      ∀ (off : Nat) (d : Val),
        (winLead off d S text (input flags rows) ((j : Int) + 1) =
            .ok (match W[i + off]? with | some j' => valueAt rows j' | none => d) ↔
          ∀ j', W[i + off]? = some j' → valueAt rows j' = .null → d = .null) ∧
        (winLag off d S text (input flags rows) ((j : Int) + 1) =
            .ok (if off ≤ i then (match W[i - off]? with | some j' => valueAt rows j' | none => d) else d) ↔
          (off ≤ i → ∀ j', W[i - off]? = some j' → valueAt rows j' = .null → d = .null)) := by
  refine ⟨windowOrder S flags rows p, windowOrder_ok S hk p, ?_⟩
  intro i j h
  constructor
  · intro b e n hge
    obtain ⟨hr, hnr⟩ := rows_exact S hg hge h
    by_cases hrev : Reversed (windowOrder S flags rows p).length i b e
    · have hp := hr hrev
      refine ⟨iff_of_false ?_ fun h => h.1 hrev, iff_of_false ?_ fun h => h.1 hrev, fun _ k _ => iff_of_false ?_ fun h => h.1 hrev⟩
      · unfold winFirst; rw [hp, panic_bind]; simp
      · unfold winLast; rw [hp, panic_bind]; simp
      · unfold NthSpec winNth; rw [hp, panic_bind]; simp
    · have hf := hnr hrev
      refine ⟨?_, ?_, ?_⟩
      · unfold winFirst
        rw [hf]
        simp only [Res.bind'_ok, firstValue, Res.ok.injEq, hrev, not_false_eq_true, true_and]
        generalize (rowsFrame (windowOrder S flags rows p) b e i).map (valueAt rows) = vs
        cases n with
        | unspecified => simpa [navFilter, ignores, candidates] using head_filter vs
        | ignore => simp [navFilter, ignores, candidates]
        | respect => simp [navFilter, ignores, candidates]
      · unfold winLast
        rw [hf]
        simp only [Res.bind'_ok, lastValue, Res.ok.injEq, hrev, not_false_eq_true, true_and]
        generalize (rowsFrame (windowOrder S flags rows p) b e i).map (valueAt rows) = vs
        cases n with
        | unspecified => simpa [navFilter, ignores, candidates] using last_filter vs
        | ignore => simp [navFilter, ignores, candidates]
        | respect => simp [navFilter, ignores, candidates]
      · intro hn k hk1
        unfold NthSpec winNth
        rw [hf]
        simp only [Res.bind'_ok, nthValue, hrev, not_false_eq_true, true_and]
        rw [navFilter_eq hn]
        generalize candidates n ((rowsFrame (windowOrder S flags rows p) b e i).map (valueAt rows)) = cs at *
        by_cases hcs : cs = []
        · subst hcs
          simp
          omega
        · rw [if_neg hcs]
          by_cases hlt : k < cs.length
          · rw [if_pos (by omega), if_neg (by omega)]
            have : ((k : Int) - 1).toNat = k - 1 := by omega
            rw [this]
            exact iff_of_true rfl (fun h => by omega)
          · rw [if_neg (by omega)]
            by_cases heq : k = cs.length
            · simp only [heq, forall_const, Res.ok.injEq]
              rw [List.getLast?_eq_getElem?]
              have hlast : cs.length - 1 < cs.length := by
                have := List.length_pos_iff.2 hcs
                omega
              rw [List.getElem?_eq_getElem hlast]
              simp only [Option.getD_some, Option.some.injEq]
              exact eq_comm
            · rw [List.getElem?_eq_none (by omega)]
              exact iff_of_true rfl fun h => absurd h heq
  · intro off d
    obtain ⟨r, hr, rfl⟩ := mem_windowOrder.mp (List.mem_of_getElem? h)
    obtain ⟨h1, h2⟩ := lead_eq hg hr h off d
    rw [h1, h2]
    have key : ∀ v : Val, (if v.isNull then d else v) = v ↔ (v = .null → d = .null) := by
      intro v
      cases hv : v.isNull with
      | true =>
        have := isNull_eq hv
        subst this
        simp
      | false =>
        have : v ≠ .null := by rintro rfl; simp at hv
        simp [this]
    constructor
    · cases hx : (windowOrder S flags rows r.parts)[i + off]? with
      | none => simp
      | some y => simpa using key (valueAt rows y)
    · by_cases ho : off ≤ i
      · simp only [ho, forall_const]
        cases hx : (windowOrder S flags rows r.parts)[i - off]? with
        | none => simp
        | some y => simpa using key (valueAt rows y)
      · simp [ho]

/-- FIRST_VALUE of NULL, 20 is not right without RESPECT NULLS, that of 20, NULL is. -/
example : ((([.null, .int 20] : List Val).filter fun v => !v.isNull).head?).getD .null ≠ (([.null, .int 20] : List Val).head?).getD .null ∧
    ((([.int 20, .null] : List Val).filter fun v => !v.isNull).head?).getD .null = (([.int 20, .null] : List Val).head?).getD .null := by
  simp [Val.isNull]

end Verif.Window
