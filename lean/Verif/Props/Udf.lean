import Verif.Model.Udf

/-! # C74: calls of SQL functions -/

namespace Verif.Udf

open Go

/-! ### strings.Replace of a reference -/

private theorem replaceAll_unfold {s old new : List Char} (ho : old ≠ []) :
    replaceAll s old new = match index old s with
      | none => s
      | some k => s.take k ++ new ++ replaceAll (s.drop (k + old.length)) old new := by
  unfold replaceAll
  simp only [if_neg ho]
  rw [split_eq ho]
  cases index old s with
  | none => rfl
  | some k =>
    apply join_cons
    unfold split
    rw [if_neg ho]
    exact splitAux_ne _ _ _

private theorem replace_nil (n v : List Char) : replaceAll [] ('@' :: n) v = [] := by
  rw [replaceAll_unfold (by simp)]; simp [index]

private theorem replace_skip {c : Char} {s n v : List Char} (h : ¬ ('@' :: n) <+: (c :: s)) :
    replaceAll (c :: s) ('@' :: n) v = c :: replaceAll s ('@' :: n) v := by
  have hi : index ('@' :: n) (c :: s) = (index ('@' :: n) s).map (· + 1) := by
    rw [index, if_neg]
    intro h'
    exact h (List.isPrefixOf_iff_prefix.mp h')
  rw [replaceAll_unfold (by simp), replaceAll_unfold (s := s) (by simp), hi]
  cases index ('@' :: n) s with
  | none => rfl
  | some k => simp [Nat.add_right_comm k 1]

private theorem replace_here (s n v : List Char) :
    replaceAll ('@' :: (n ++ s)) ('@' :: n) v = v ++ replaceAll s ('@' :: n) v := by
  rw [replaceAll_unfold (by simp)]
  have : index ('@' :: n) ('@' :: (n ++ s)) = some 0 := by
    rw [index, if_pos]
    exact List.isPrefixOf_iff_prefix.mpr (by simp)
  rw [this]
  simp

private theorem replace_text {n v s : List Char} : ∀ t : List Char, '@' ∉ t →
    replaceAll (t ++ s) ('@' :: n) v = t ++ replaceAll s ('@' :: n) v
  | [], _ => rfl
  | c :: t, h => by
    rw [List.cons_append, replace_skip, replace_text t (fun h' => h (by simp [h']))]
    · rfl
    · intro h'
      have := List.cons_prefix_cons.mp h'
      exact h (this.1 ▸ List.mem_cons_self)

/-! ### The property -/

/-- A letter, a digit or an underscore. -/
def IsIdent (c : Char) : Prop := c.isAlphanum = true ∨ c = '_'

instance (c : Char) : Decidable (IsIdent c) := by unfold IsIdent; infer_instance

/-- The body of a function: text, and references to the parameters. -/
inductive Piece where
  | text (s : List Char)
  | param (i : Nat)

/-- A body as it is stored: references are written `@name`. -/
def written (names : List (List Char)) : List Piece → List Char
  | [] => []
  | .text s :: ps => s ++ written names ps
  | .param i :: ps => '@' :: (names.getD i [] ++ written names ps)

/-- What a call means: the references replaced by the arguments, and nothing else. -/
def meant (args : List (List Char)) : List Piece → List Char
  | [] => []
  | .text s :: ps => s ++ meant args ps
  | .param i :: ps => args.getD i [] ++ meant args ps

/-- The next piece does not continue a name. -/
def Ends : List Piece → Prop
  | [] => True
  | .text (c :: _) :: _ => ¬ IsIdent c
  | _ => False

/-- The references are to parameters and are not run together with the text; the text has no `@` of its own. -/
def Body (n : Nat) : List Piece → Prop
  | [] => True
  | .text s :: ps => '@' ∉ s ∧ Body n ps
  | .param i :: ps => i < n ∧ Ends ps ∧ Body n ps

/-- Parameter names: identifiers, all different. -/
def Names (names : List (List Char)) : Prop :=
  (∀ n ∈ names, n ≠ [] ∧ ∀ c ∈ n, IsIdent c) ∧ names.Pairwise (· ≠ ·)

/-- Full C74. -/
def C74_full : Prop :=
  ∀ (names args : List (List Char)) (ps : List Piece), Names names → args.length = names.length → Body names.length ps →
    callSQL names args (written names ps) = ['(', ' '] ++ meant args ps ++ [' ', ')']

/-- A parameter whose name starts with an earlier parameter's name: in a function of `x` and `xy` with the body `xy`,
the call f(1, 2) is `1y`. -/
theorem C74_full_false : ¬ C74_full := by
  intro h
  have := h [['x'], ['x', 'y']] [['1'], ['2']] [.param 1] (by refine ⟨by decide, by decide⟩) rfl ⟨by decide, trivial, trivial⟩
  revert this
  show ¬ _
  simp only [meant, written]
  decide

/-- An argument that mentions a later parameter's name: a function of `b` and `a` called as f(@a, 1), from another
function with a parameter `a` or with a query parameter `a`, has both replaced by 1. -/
theorem C74_argument_counterexample :
    callSQL [['b'], ['a']] [['@', 'a'], ['1']] (written [['b'], ['a']] [.param 0, .text ['+'], .param 1]) = "( 1+1 )".toList ∧
    meant [['@', 'a'], ['1']] [.param 0, .text ['+'], .param 1] = "@a+1".toList := by
  decide

/-- No earlier name is the start of a later one. -/
def NoEarlierPrefix (names : List (List Char)) : Prop := names.Pairwise fun a b => ¬ a <+: b

instance (names : List (List Char)) : Decidable (NoEarlierPrefix names) := by unfold NoEarlierPrefix; infer_instance

/-- The body after the first `k` parameters were replaced. -/
private def after (k : Nat) (names args : List (List Char)) : List Piece → List Char
  | [] => []
  | .text s :: ps => s ++ after k names args ps
  | .param i :: ps => (if i < k then args.getD i [] else '@' :: names.getD i []) ++ after k names args ps

private theorem after_zero (names args : List (List Char)) : ∀ ps, after 0 names args ps = written names ps
  | [] => rfl
  | .text s :: ps => by rw [after, written, after_zero names args ps]
  | .param i :: ps => by rw [after, written, after_zero names args ps, if_neg (by omega)]; rfl

private theorem after_all (names args : List (List Char)) (n : Nat) : ∀ ps, Body n ps → after n names args ps = meant args ps
  | [], _ => rfl
  | .text s :: ps, h => by rw [after, meant, after_all names args n ps h.2]
  | .param i :: ps, h => by rw [after, meant, after_all names args n ps h.2.2, if_pos h.1]

private theorem prefix_cut {a b rest : List Char} (ha : ∀ c ∈ a, IsIdent c) (hab : ¬ a <+: b)
    (hr : rest = [] ∨ ∃ c r, rest = c :: r ∧ ¬ IsIdent c) : ¬ a <+: b ++ rest := by
  intro h
  rcases hr with rfl | ⟨c, r, rfl, hc⟩
  · rw [List.append_nil] at h; exact hab h
  · obtain ⟨t, e⟩ := h
    rcases List.append_eq_append_iff.mp e with ⟨x, h1, h2⟩ | ⟨x, h1, h2⟩
    · exact hab ⟨x, h1.symm⟩
    · cases x with
      | nil => exact hab ⟨[], by rw [h1]; simp⟩
      | cons d x =>
        simp only [List.cons_append, List.cons.injEq] at h2
        rw [h2.1] at hc
        exact hc (ha d (by rw [h1]; simp))

private theorem after_ends (k : Nat) (names args : List (List Char)) : ∀ ps, Ends ps →
    after k names args ps = [] ∨ ∃ c r, after k names args ps = c :: r ∧ ¬ IsIdent c
  | [], _ => .inl rfl
  | .text (c :: s) :: ps, h => .inr ⟨c, s ++ after k names args ps, rfl, h⟩
  | .text [] :: _, h => h.elim
  | .param _ :: _, h => h.elim

private theorem step {k : Nat} {names args : List (List Char)} (hn : Names names) (hp : NoEarlierPrefix names)
    (hk : k < names.length) (ha : ∀ a ∈ args, '@' ∉ a) : ∀ ps, Body names.length ps →
    replaceAll (after k names args ps) ('@' :: names.getD k []) (args.getD k []) = after (k + 1) names args ps
  | [], _ => replace_nil _ _
  | .text s :: ps, h => by
    rw [after, after, replace_text s h.1, step hn hp hk ha ps h.2]
  | .param i :: ps, h => by
    rw [after, after]
    have ih := step hn hp hk ha ps h.2.2
    by_cases h1 : i < k
    · have hno : '@' ∉ args.getD i [] := by
        by_cases hi : i < args.length
        · rw [List.getD_eq_getElem?_getD, List.getElem?_eq_getElem hi]
          exact ha _ (List.getElem_mem hi)
        · rw [List.getD_eq_getElem?_getD, List.getElem?_eq_none (by omega)]
          simp
      rw [if_pos h1, if_pos (by omega), replace_text _ hno, ih]
    · rw [if_neg h1]
      by_cases h2 : i = k
      · subst h2
        rw [if_pos (by omega), List.cons_append, replace_here, ih]
      · rw [if_neg (by omega)]
        have hi := h.1
        have gk : names.getD k [] = names[k] := by rw [List.getD_eq_getElem?_getD, List.getElem?_eq_getElem hk]; rfl
        have gi : names.getD i [] = names[i] := by rw [List.getD_eq_getElem?_getD, List.getElem?_eq_getElem hi]; rfl
        have hne : ¬ names[k] <+: names[i] := List.pairwise_iff_getElem.mp hp k i hk hi (by omega)
        have hcut := prefix_cut (hn.1 _ (List.getElem_mem hk)).2 hne (after_ends k names args ps h.2.1)
        rw [gk] at ih ⊢
        rw [gi, List.cons_append, replace_skip, replace_text, ih]
        · rfl
        · intro h'
          have := (hn.1 _ (List.getElem_mem hi)).2 _ h'
          revert this; decide
        · intro h'
          exact hcut (List.cons_prefix_cons.mp h').2

private theorem substitute_from {names args : List (List Char)} (hn : Names names) (hp : NoEarlierPrefix names)
    (hl : args.length = names.length) (ha : ∀ a ∈ args, '@' ∉ a) (ps : List Piece) (hb : Body names.length ps) :
    ∀ m k, k + m = names.length →
      substitute ((names.drop k).zip (args.drop k)) (after k names args ps) = after names.length names args ps
  | 0, k, h => by
    have : names.drop k = [] := List.drop_eq_nil_of_le (by omega)
    rw [this, show k = names.length by omega]; rfl
  | m + 1, k, h => by
    have hk : k < names.length := by omega
    have hk' : k < args.length := by omega
    have hs := step hn hp hk ha ps hb
    rw [List.getD_eq_getElem?_getD, List.getD_eq_getElem?_getD, List.getElem?_eq_getElem hk, List.getElem?_eq_getElem hk'] at hs
    simp only [Option.getD_some] at hs
    rw [List.drop_eq_getElem_cons hk, List.drop_eq_getElem_cons hk', List.zip_cons_cons, substitute, hs]
    exact substitute_from hn hp hl ha ps hb m (k + 1) (by omega)

/-- **C74** When no earlier parameter name is the start of a later one and the arguments contain no `@`, a call
replaces every reference by its argument and nothing else.  Missing: the two cases above. -/
theorem C74_partial (names args : List (List Char)) (ps : List Piece) (hn : Names names)
    (hl : args.length = names.length) (hb : Body names.length ps)
    (hp : NoEarlierPrefix names) (ha : ∀ a ∈ args, '@' ∉ a) :
    callSQL names args (written names ps) = ['(', ' '] ++ meant args ps ++ [' ', ')'] := by
  have := substitute_from hn hp hl ha ps hb names.length 0 (by omega)
  rw [after_zero, after_all names args _ ps hb] at this
  simp only [List.drop_zero] at this
  rw [callSQL, this]

/-- The names x, y, the arguments 10 and f(x), the body x*y+x. -/
example : callSQL [['x'], ['y']] ["10".toList, "f(x)".toList] (written [['x'], ['y']] [.param 0, .text ['*'], .param 1, .text ['+'], .param 0])
    = "( 10*f(x)+10 )".toList := by decide

/-- A function whose later parameter's name starts with the earlier one's never returns that parameter as it should:
the call of the body `@pq` is the first argument followed by `q`. -/
theorem C74_prefix_breaks (p q a b : List Char) (hpi : ∀ c ∈ p ++ q, IsIdent c) (ha : '@' ∉ a) :
    callSQL [p, p ++ q] [a, b] (written [p, p ++ q] [.param 1]) = ['(', ' '] ++ (a ++ q) ++ [' ', ')'] := by
  have hat : ∀ c ∈ p ++ q, c ≠ '@' := by
    intro c hc e
    have := hpi c hc
    subst e
    revert this; decide
  simp only [callSQL, written, List.zip_cons_cons, List.zip_nil_right, substitute, List.getD_eq_getElem?_getD]
  have e1 : replaceAll ('@' :: ((p ++ q) ++ [])) ('@' :: p) a = a ++ q := by
    rw [List.append_nil, replace_here]
    have := replace_text (n := p) (v := a) (s := []) q (fun h => hat '@' (by simp [h]) rfl)
    rw [List.append_nil, replace_nil, List.append_nil] at this
    rw [this]
  have e2 : replaceAll (a ++ q) ('@' :: (p ++ q)) b = a ++ q := by
    have := replace_text (n := p ++ q) (v := b) (s := []) (a ++ q) (by
      intro h
      rcases List.mem_append.mp h with h | h
      · exact ha h
      · exact hat '@' (by simp [h]) rfl)
    rw [List.append_nil, replace_nil, List.append_nil] at this
    exact this
  simp only [List.getElem?_cons_succ, List.getElem?_cons_zero, Option.getD_some]
  rw [e1, e2]

end Verif.Udf
