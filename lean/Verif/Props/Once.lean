import Verif.Model.Once

/-! # C274, C275: what is evaluated once per statement -/

namespace Verif.Once

section
variable {F V W : Type}

/-- What SQL asks for: the expressions are evaluated for every row, calls are made in the order of the text. -/
def meaning (run : F → List V → W → V × W) (es : List (Expr F V)) : List (Nat → V) → W → List (List V)
  | [], _ => []
  | row :: rows, w => (evals run row es w).1 :: meaning run es rows (evals run row es w).2

/-- The value of a function is determined by its arguments, and it leaves the world alone. -/
def Honest (run : F → List V → W → V × W) (f : F) : Prop := ∃ g : List V → V, ∀ args w, run f args w = (g args, w)

mutual
/-- The calls of an expression, with their places. -/
def calls : Expr F V → List (Nat × F × List (Expr F V))
  | .lit _ => []
  | .col _ => []
  | .call o f args => (o, f, args) :: callsL args
def callsL : List (Expr F V) → List (Nat × F × List (Expr F V))
  | [] => []
  | e :: es => calls e ++ callsL es
end

/-- Two calls at one place of the text are the same call. -/
def Places (es : List (Expr F V)) : Prop := ∀ x ∈ callsL es, ∀ y ∈ callsL es, x.1 = y.1 → x = y

mutual
theorem eval_world (run : F → List V → W → V × W) (row : Nat → V) : ∀ (e : Expr F V), (∀ x ∈ calls e, Honest run x.2.1) →
    ∀ w w', (eval run row e w).2 = w ∧ (eval run row e w).1 = (eval run row e w').1
  | .lit _, _, _, _ => ⟨rfl, rfl⟩
  | .col _, _, _, _ => ⟨rfl, rfl⟩
  | .call o f args, h, w, w' => by
    simp only [calls, List.mem_cons] at h
    obtain ⟨g, hg⟩ := h _ (Or.inl rfl)
    have ha := evals_world run row args (fun x hx => h x (Or.inr hx)) w w'
    simp only [eval, hg]
    exact ⟨ha.1, by rw [ha.2]⟩
theorem evals_world (run : F → List V → W → V × W) (row : Nat → V) : ∀ (es : List (Expr F V)), (∀ x ∈ callsL es, Honest run x.2.1) →
    ∀ w w', (evals run row es w).2 = w ∧ (evals run row es w).1 = (evals run row es w').1
  | [], _, _, _ => ⟨rfl, rfl⟩
  | e :: es, h, w, w' => by
    simp only [callsL, List.mem_append] at h
    have he := eval_world run row e (fun x hx => h x (Or.inl hx))
    have hs := evals_world run row es (fun x hx => h x (Or.inr hx))
    simp only [evals]
    exact ⟨by rw [(hs _ w).1, (he w w').1], by rw [(he w w').2, (hs (eval run row e w).2 (eval run row e w').2).2]⟩
end

mutual
theorem eval_row (run : F → List V → W → V × W) (row row' : Nat → V) : ∀ (e : Expr F V), constant e = true → ∀ w,
    eval run row e w = eval run row' e w
  | .lit _, _, _ => rfl
  | .col _, h, _ => by simp [constant] at h
  | .call o f args, h, w => by
    simp only [constant] at h
    simp only [eval, evals_row run row row' args h w]
theorem evals_row (run : F → List V → W → V × W) (row row' : Nat → V) : ∀ (es : List (Expr F V)), constants es = true → ∀ w,
    evals run row es w = evals run row' es w
  | [], _, _ => rfl
  | e :: es, h, w => by
    simp only [constants, Bool.and_eq_true] at h
    simp only [evals, eval_row run row row' e h.1, evals_row run row row' es h.2]
end

/-- The registers hold the values of their calls. -/
def Right (run : F → List V → W → V × W) (w : W) (all : List (Nat × F × List (Expr F V))) (m : Regs V) : Prop :=
  ∀ o v, m o = some v → ∃ f args, (o, f, args) ∈ all ∧ constants args = true ∧ ∀ row, (eval run row (.call o f args) w).1 = v

mutual
theorem code_eval (run : F → List V → W → V × W) (w : W) (all : List (Nat × F × List (Expr F V)))
    (hp : ∀ x ∈ all, ∀ y ∈ all, x.1 = y.1 → x = y) (hh : ∀ x ∈ all, Honest run x.2.1) (row : Nat → V) :
    ∀ (e : Expr F V), (∀ x ∈ calls e, x ∈ all) → ∀ m, Right run w all m →
      (code run row e (w, m)).1 = (eval run row e w).1 ∧ (code run row e (w, m)).2.1 = w ∧ Right run w all (code run row e (w, m)).2.2
  | .lit _, _, _, hm => ⟨rfl, rfl, hm⟩
  | .col _, _, _, hm => ⟨rfl, rfl, hm⟩
  | .call o f args, hs, m, hm => by
    simp only [code]
    have hmem : (o, f, args) ∈ all := hs _ (by simp [calls])
    have hw : ∀ x ∈ calls (Expr.call o f args), Honest run x.2.1 := fun x hx => hh x (hs x hx)
    by_cases hc : constants args = true
    · rw [if_pos hc]
      cases ho : m o with
      | some v =>
        refine ⟨?_, rfl, hm⟩
        obtain ⟨f', args', hmem', _, hv⟩ := hm o v ho
        have := hp _ hmem _ hmem' rfl
        cases this
        exact (hv row).symm
      | none =>
        refine ⟨rfl, (eval_world run row _ hw w w).1, ?_⟩
        intro p v hv
        simp only [Regs.set] at hv
        by_cases hpo : p = o
        · rw [if_pos hpo] at hv
          subst hpo
          refine ⟨f, args, hmem, hc, fun row' => ?_⟩
          rw [eval_row run row' row _ (by simpa [constant] using hc)]
          exact Option.some.inj hv
        · rw [if_neg hpo] at hv
          exact hm p v hv
    · rw [if_neg hc]
      obtain ⟨h1, h2, h3⟩ := codes_evals run w all hp hh row args (fun x hx => hs x (by simp [calls, hx])) m hm
      obtain ⟨g, hg⟩ := hh _ hmem
      simp only [eval, h1, h2, hg]
      exact ⟨trivial, trivial, h3⟩
theorem codes_evals (run : F → List V → W → V × W) (w : W) (all : List (Nat × F × List (Expr F V)))
    (hp : ∀ x ∈ all, ∀ y ∈ all, x.1 = y.1 → x = y) (hh : ∀ x ∈ all, Honest run x.2.1) (row : Nat → V) :
    ∀ (es : List (Expr F V)), (∀ x ∈ callsL es, x ∈ all) → ∀ m, Right run w all m →
      (codes run row es (w, m)).1 = (evals run row es w).1 ∧ (codes run row es (w, m)).2.1 = w ∧
        Right run w all (codes run row es (w, m)).2.2
  | [], _, _, hm => ⟨rfl, rfl, hm⟩
  | e :: es, hs, m, hm => by
    obtain ⟨h1, h2, h3⟩ := code_eval run w all hp hh row e (fun x hx => hs x (by simp [callsL, hx])) m hm
    obtain ⟨k1, k2, k3⟩ := codes_evals run w all hp hh row es (fun x hx => hs x (by simp [callsL, hx])) _ h3
    have e' : (code run row e (w, m)).2 = (w, (code run row e (w, m)).2.2) := Prod.ext h2 rfl
    have hwe := (eval_world run row e (fun x hx => hh x (hs x (by simp [callsL, hx]))) w w).1
    simp only [codes, evals, hwe]
    rw [e', h1]
    exact ⟨by rw [k1], k2, k3⟩
end

theorem selected_meaning (run : F → List V → W → V × W) (es : List (Expr F V)) (hp : Places es)
    (hh : ∀ x ∈ callsL es, Honest run x.2.1) (w : W) : ∀ (rows : List (Nat → V)) (m : Regs V), Right run w (callsL es) m →
    selected run es rows (w, m) = meaning run es rows w
  | [], _, _ => rfl
  | row :: rows, m, hm => by
    obtain ⟨h1, h2, h3⟩ := codes_evals run w (callsL es) hp hh row es (fun _ h => h) m hm
    have e' : (codes run row es (w, m)).2 = (w, (codes run row es (w, m)).2.2) := Prod.ext h2 rfl
    simp only [selected, meaning]
    rw [h1, e', selected_meaning run es hp hh w rows _ h3, (evals_world run row es hh w w).1]

/-- **C274** Queries whose functions depend on their arguments only: making a call without columns once per statement is not
noticed.  Every row is what the expressions are worth for this row, whatever the rows, the number of calls and their nesting. -/
theorem C274 (run : F → List V → W → V × W) (es : List (Expr F V)) (hp : Places es) (hh : ∀ x ∈ callsL es, Honest run x.2.1)
    (rows : List (Nat → V)) (w : W) : query run es rows w = meaning run es rows w :=
  selected_meaning run es hp hh w rows _ (by intro o v h; cases h)

/-! ### C275: functions that are not determined by their arguments -/

/-- C275: RAND() and GENERATE_UUID() are evaluated for every row.  `draw` is one call of the function. -/
def C275_full : Prop := ∀ (W V : Type) (draw : W → V × W) (rows : List (Nat → V)) (w : W),
  query (fun (_ : Unit) _ => draw) [.call 0 () []] rows w = meaning (fun (_ : Unit) _ => draw) [.call 0 () []] rows w

/-- The state of the world after `n` calls. -/
def later (draw : W → V × W) : Nat → W → W
  | 0, w => w
  | n + 1, w => later draw n (draw w).2

theorem meaning_draw (draw : W → V × W) : ∀ (rows : List (Nat → V)) (w : W) (n : Nat), n < rows.length →
    (meaning (fun (_ : Unit) _ => draw) [.call 0 () []] rows w)[n]? = some [(draw (later draw n w)).1]
  | [], _, _, h => by simp at h
  | row :: rows, w, 0, _ => by simp [meaning, evals, eval, later]
  | row :: rows, w, n + 1, h => by
    simp only [meaning, List.getElem?_cons_succ]
    simp only [List.length_cons] at h
    exact meaning_draw draw rows _ n (by omega)

theorem selected_kept (draw : W → V × W) (v : V) : ∀ (rows : List (Nat → V)) (w : W) (m : Regs V), m 0 = some v →
    selected (fun (_ : Unit) _ => draw) [.call 0 () []] rows (w, m) = List.replicate rows.length [v]
  | [], _, _, _ => rfl
  | row :: rows, w, m, h => by
    simp only [selected, codes, code, constants, h, if_true]
    rw [selected_kept draw v rows w m h]
    rfl

/-- **C275**, partial, exact: the function is called once, and all rows have the value of this call. -/
theorem C275_once_partial (draw : W → V × W) (rows : List (Nat → V)) (w : W) :
    query (fun (_ : Unit) _ => draw) [.call 0 () []] rows w = List.replicate rows.length [(draw w).1] := by
  cases rows with
  | nil => rfl
  | cons row rows =>
    simp only [query, selected, codes, code, constants, if_true, eval, evals]
    rw [selected_kept draw (draw w).1 rows _ _ (by simp [Regs.set])]
    rfl

/-- **C275**, partial: the rows are those of SQL exactly if as many calls as there are rows would all have given the same value. -/
theorem C275_iff (draw : W → V × W) (rows : List (Nat → V)) (w : W) :
    query (fun (_ : Unit) _ => draw) [.call 0 () []] rows w = meaning (fun (_ : Unit) _ => draw) [.call 0 () []] rows w ↔
      ∀ n, n < rows.length → (draw (later draw n w)).1 = (draw w).1 := by
  rw [C275_once_partial]
  constructor
  · intro h n hn
    have := congrArg (·[n]?) h
    simp only [meaning_draw draw rows w n hn, List.getElem?_replicate, hn, if_true] at this
    simpa using (Option.some.inj this).symm
  · intro h
    apply List.ext_getElem?
    intro n
    by_cases hn : n < rows.length
    · rw [meaning_draw draw rows w n hn, h n hn, List.getElem?_replicate, if_pos hn]
    · have hl : ∀ (rows : List (Nat → V)) (w : W), (meaning (fun (_ : Unit) _ => draw) [.call 0 () []] rows w).length = rows.length := by
        intro rows
        induction rows with
        | nil => intro w; rfl
        | cons r rows ih => intro w; simp [meaning, ih]
      rw [List.getElem?_replicate, if_neg hn, List.getElem?_eq_none (by rw [hl]; omega)]

/-- **C275** Identifiers that never repeat: two rows are enough to be wrong, all rows have the same identifier. -/
theorem C275_wrong (draw : W → V × W) (rows : List (Nat → V)) (w : W) (hd : (draw (draw w).2).1 ≠ (draw w).1) (h2 : 2 ≤ rows.length) :
    query (fun (_ : Unit) _ => draw) [.call 0 () []] rows w ≠ meaning (fun (_ : Unit) _ => draw) [.call 0 () []] rows w := by
  intro h
  exact hd ((C275_iff draw rows w).mp h 1 (by omega))

/-- SELECT GENERATE_UUID() FROM t with two rows in t; the source of identifiers counts. -/
theorem C275_full_false : ¬ C275_full := by
  intro h
  exact C275_wrong (W := Nat) (V := Nat) (fun n => (n, n + 1)) [fun _ => 0, fun _ => 0] 0 (by decide) (by decide) (h _ _ _ _ _)

/-- **C275** Two calls in one row are two calls: SELECT RAND(), RAND() has two values, the same two in each row. -/
theorem C275_two (draw : W → V × W) (rows : List (Nat → V)) (w : W) :
    query (fun (_ : Unit) _ => draw) [.call 0 () [], .call 1 () []] rows w = List.replicate rows.length [(draw w).1, (draw (draw w).2).1] := by
  have kept : ∀ (a b : V) (rows : List (Nat → V)) (w : W) (m : Regs V), m 0 = some a → m 1 = some b →
      selected (fun (_ : Unit) _ => draw) [.call 0 () [], .call 1 () []] rows (w, m) = List.replicate rows.length [a, b] := by
    intro a b rows
    induction rows with
    | nil => intros; rfl
    | cons r rows ih =>
      intro w m h0 h1
      simp only [selected, codes, code, constants, h0, h1, if_true]
      rw [ih w m h0 h1]
      rfl
  cases rows with
  | nil => rfl
  | cons row rows =>
    simp only [query, selected, codes, code, constants, if_true, eval, evals, Regs.set]
    have : (if (1 : Nat) = 0 then some (draw w).1 else none : Option V) = none := rfl
    simp only [this]
    rw [kept (draw w).1 (draw (draw w).2).1 rows _ _ rfl rfl]
    rfl

end

/-- C274 for SELECT f(1, g(2)), f(c, g(2)): nested calls, one of them with a column. -/
def sample : List (Expr Bool Nat) := [.call 0 true [.lit 1, .call 1 false [.lit 2]], .call 2 true [.col 0, .call 3 false [.lit 2]]]

example : Places sample ∧ (∀ x ∈ callsL sample, Honest (W := Unit) (fun f (args : List Nat) w => (if f then args.sum else args.length, w)) x.2.1) ∧
    query (fun f (args : List Nat) (w : Unit) => (if f then args.sum else args.length, w)) sample [fun _ => 5, fun _ => 6] () = [[2, 6], [2, 7]] := by
  refine ⟨?_, fun x _ => ⟨fun args => if x.2.1 then args.sum else args.length, fun _ _ => rfl⟩, rfl⟩
  intro x hx y hy h
  simp only [sample, callsL, calls, List.append_nil, List.nil_append, List.cons_append, List.mem_cons, List.not_mem_nil, or_false] at hx hy
  rcases hx with rfl | rfl | rfl | rfl <;> rcases hy with rfl | rfl | rfl | rfl <;> first | rfl | (simp at h)

/-- **C275** A call with a column is made for every row, one after the other: each sees what the ones before it have done. -/
theorem C275_column {F V W : Type} (run : F → List V → W → V × W) (o c : Nat) (f : F) (rows : List (Nat → V)) (w : W) (i : Nat) :
    (query run [.call o f [.col c]] rows w)[i]? =
      rows[i]?.map fun row => [(run f [row c] ((rows.take i).foldl (fun w row => (run f [row c] w).2) w)).1] := by
  unfold query
  generalize (fun _ => none : Regs V) = m
  induction rows generalizing w i with
  | nil => simp [selected]
  | cons row rows ih =>
    have e : codes run row [.call o f [.col c]] (w, m) = ([(run f [row c] w).1], (run f [row c] w).2, m) := rfl
    simp only [selected, e]
    cases i with
    | zero => rfl
    | succ i =>
      simp only [List.getElem?_cons_succ, List.take_succ_cons, List.foldl_cons]
      exact ih (run f [row c] w).2 i

/-- A counter: the rows get 10, 11 and 12 with it. -/
example : query (fun _ vs (w : Nat) => (w + vs.sum, w + 1)) [.call 0 () [.col 0]] [fun _ => 10, fun _ => 10, fun _ => 10] 0 = [[10], [11], [12]] := rfl

end Verif.Once
