import Verif.Lemmas.QuerySound

/-!
# The texts of queries: which have one, which SQLite rejects, and when a filter puts its input in parentheses
-/

namespace Verif.Query

set_option linter.unusedSectionVars false

/-! ## Every resolved query has a text -/

mutual
/-- Every WITH query that is referred to is in scope and has as many columns; a join with a condition is no CROSS JOIN. -/
def scopedE (w : WMap) : Expr → Prop
  | .col _ => True
  | .lit _ => True
  | .call _ args => scopedEs w args
  | .scalar s => scopedS w s
  | .exists_ s => scopedS w s
  | .inq e s => scopedE w e ∧ scopedS w s
  | .arr s => s.cols ≠ [] ∧ scopedS w s

def scopedEs (w : WMap) : Exprs → Prop
  | .nil => True
  | .cons e es => scopedE w e ∧ scopedEs w es

def scopedO (w : WMap) : OExpr → Prop
  | .none => True
  | .some e => scopedE w e

def scopedCs (w : WMap) : CExprs → Prop
  | .nil => True
  | .cons _ e es => scopedE w e ∧ scopedCs w es

def scopedAs (w : WMap) : Aggs → Prop
  | .nil => True
  | .cons _ _ args as => scopedEs w args ∧ scopedAs w as

def scopedFs (w : WMap) : Wins → Prop
  | .nil => True
  | .cons _ _ args _ _ ws => scopedEs w args ∧ scopedFs w ws

@[inherit_doc scopedE]
def scopedS (w : WMap) : Scan → Prop
  | .single => True
  | .table _ _ => True
  | .join k l r on => scopedS w l ∧ scopedS w r ∧ scopedO w on ∧ (k = .cross → on.isNone = true)
  | .unnest e _ _ => scopedE w e
  | .array s e _ _ on _ => scopedS w s ∧ scopedE w e ∧ scopedO w on
  | .filter s e => scopedS w s ∧ scopedE w e
  | .project s exprs _ => scopedS w s ∧ scopedCs w exprs
  | .agg s groups aggs _ => scopedS w s ∧ scopedCs w groups ∧ scopedAs w aggs
  | .setop _ items _ => scopedIs w items
  | .order s _ _ => scopedS w s
  | .limit s _ _ _ => scopedS w s
  | .with_ es body => scopedWs w es ∧ scopedS (wAfter w es) body
  | .ref n cols => ∃ defs, w n = some defs ∧ defs.length = cols.length
  | .gsets s groups aggs _ _ _ => scopedS w s ∧ scopedCs w groups ∧ scopedAs w aggs
  | .win s ws _ => scopedS w s ∧ scopedFs w ws

def scopedIs (w : WMap) : Items → Prop
  | .nil => True
  | .cons s _ is => scopedS w s ∧ scopedIs w is

def scopedWs (w : WMap) : Entries → Prop
  | .nil => True
  | .cons n s es => scopedS w s ∧ scopedWs (upd w n s.cols) es
end

mutual
theorem hasE (nm : Col → Nm) (w : WMap) : ∀ e : Expr, scopedE w e → ∃ x, fmtE nm w e = some x
  | .col c, _ => ⟨_, rfl⟩
  | .lit k, _ => ⟨_, rfl⟩
  | .call f args, h => by
    obtain ⟨x, hx⟩ := hasEs nm w args h
    exact ⟨_, by simp only [fmtE, hx]; rfl⟩
  | .scalar s, h => by
    obtain ⟨x, hx⟩ := hasS nm w s h
    exact ⟨_, by simp only [fmtE, hx]; rfl⟩
  | .exists_ s, h => by
    obtain ⟨x, hx⟩ := hasS nm w s h
    exact ⟨_, by simp only [fmtE, hx]; rfl⟩
  | .inq e s, h => by
    obtain ⟨x, hx⟩ := hasS nm w s h.2
    obtain ⟨y, hy⟩ := hasE nm w e h.1
    exact ⟨_, by simp only [fmtE, hx, hy]; rfl⟩
  | .arr s, h => by
    obtain ⟨x, hx⟩ := hasS nm w s h.2
    cases hc : s.cols with
    | nil => exact absurd hc h.1
    | cons c cs => exact ⟨_, by simp only [fmtE, hx, hc]; rfl⟩

theorem hasEs (nm : Col → Nm) (w : WMap) : ∀ e : Exprs, scopedEs w e → ∃ x, fmtEs nm w e = some x
  | .nil, _ => ⟨_, rfl⟩
  | .cons e es, h => by
    obtain ⟨x, hx⟩ := hasE nm w e h.1
    obtain ⟨y, hy⟩ := hasEs nm w es h.2
    exact ⟨_, by simp only [fmtEs, hx, hy]; rfl⟩

theorem hasO (nm : Col → Nm) (w : WMap) : ∀ e : OExpr, scopedO w e → ∃ x, fmtO nm w e = some x ∧ x.isSome = !e.isNone
  | .none, _ => ⟨_, rfl, rfl⟩
  | .some e, h => by
    obtain ⟨x, hx⟩ := hasE nm w e h
    exact ⟨_, by simp only [fmtO, hx]; rfl, rfl⟩

theorem hasCs (nm : Col → Nm) (w : WMap) : ∀ e : CExprs, scopedCs w e → ∃ x, fmtCs nm w e = some x
  | .nil, _ => ⟨_, rfl⟩
  | .cons c e es, h => by
    obtain ⟨x, hx⟩ := hasE nm w e h.1
    obtain ⟨y, hy⟩ := hasCs nm w es h.2
    exact ⟨_, by simp only [fmtCs, hx, hy]; rfl⟩

theorem hasAs (nm : Col → Nm) (w : WMap) : ∀ e : Aggs, scopedAs w e → ∃ x, fmtAs nm w e = some x
  | .nil, _ => ⟨_, rfl⟩
  | .cons c f args as, h => by
    obtain ⟨x, hx⟩ := hasEs nm w args h.1
    obtain ⟨y, hy⟩ := hasAs nm w as h.2
    exact ⟨_, by simp only [fmtAs, hx, hy]; rfl⟩

theorem hasFs (nm : Col → Nm) (w : WMap) (t : List Tok) : ∀ e : Wins, scopedFs w e → ∃ x, fmtFs nm w t e = some x
  | .nil, _ => ⟨_, rfl⟩
  | .cons c f args _ _ ws, h => by
    obtain ⟨x, hx⟩ := hasEs nm w args h.1
    obtain ⟨y, hy⟩ := hasFs nm w t ws h.2
    exact ⟨_, by simp only [fmtFs, hx, hy]; rfl⟩

theorem hasS (nm : Col → Nm) (w : WMap) : ∀ s : Scan, scopedS w s → ∃ x, fmtS nm w s = some x
  | .single, _ => ⟨_, rfl⟩
  | .table _ _, _ => ⟨_, rfl⟩
  | .join k l r on, h => by
    obtain ⟨x, hx⟩ := hasS nm w l h.1
    obtain ⟨y, hy⟩ := hasS nm w r h.2.1
    obtain ⟨z, hz, hi⟩ := hasO nm w on h.2.2.1
    have hk := h.2.2.2
    cases z with
    | none => exact ⟨_, by simp only [fmtS, hx, hy, hz]; rfl⟩
    | some z =>
      cases k with
      | cross => simp [hk rfl] at hi
      | inner => exact ⟨_, by simp only [fmtS, hx, hy, hz]; rfl⟩
      | left => exact ⟨_, by simp only [fmtS, hx, hy, hz]; rfl⟩
      | right => exact ⟨_, by simp only [fmtS, hx, hy, hz]; rfl⟩
      | full => exact ⟨_, by simp only [fmtS, hx, hy, hz]; rfl⟩
  | .unnest e _ _, h => by
    obtain ⟨x, hx⟩ := hasE nm w e h
    exact ⟨_, by simp only [fmtS, hx]; rfl⟩
  | .array s e _ _ on _, h => by
    obtain ⟨x, hx⟩ := hasS nm w s h.1
    obtain ⟨y, hy⟩ := hasE nm w e h.2.1
    obtain ⟨z, hz, _⟩ := hasO nm w on h.2.2
    exact ⟨_, by simp only [fmtS, hx, hy, hz]; rfl⟩
  | .filter s e, h => by
    obtain ⟨x, hx⟩ := hasS nm w s h.1
    obtain ⟨y, hy⟩ := hasE nm w e h.2
    exact ⟨_, by simp only [fmtS, hx, hy]; rfl⟩
  | .project s exprs _, h => by
    obtain ⟨x, hx⟩ := hasS nm w s h.1
    obtain ⟨y, hy⟩ := hasCs nm w exprs h.2
    exact ⟨_, by simp only [fmtS, hx, hy]; rfl⟩
  | .agg s groups aggs _, h => by
    obtain ⟨x, hx⟩ := hasS nm w s h.1
    obtain ⟨y, hy⟩ := hasCs nm w groups h.2.1
    obtain ⟨z, hz⟩ := hasAs nm w aggs h.2.2
    exact ⟨_, by simp only [fmtS, hx, hy, hz]; rfl⟩
  | .setop o items _, h => by
    obtain ⟨x, y, hx⟩ := hasIs nm w o items h
    exact ⟨_, by simp only [fmtS, hx]; rfl⟩
  | .order s _ _, h => by
    obtain ⟨x, hx⟩ := hasS nm w s h
    exact ⟨_, by simp only [fmtS, hx]; rfl⟩
  | .limit s _ _ _, h => by
    obtain ⟨x, hx⟩ := hasS nm w s h
    exact ⟨_, by simp only [fmtS, hx]; rfl⟩
  | .with_ es body, h => by
    obtain ⟨x, hx⟩ := hasWs nm w es h.1
    obtain ⟨y, hy⟩ := hasS nm (wAfter w es) body h.2
    exact ⟨_, by simp only [fmtS, hx, hy]; rfl⟩
  | .ref n cols, h => by
    obtain ⟨defs, h1, h2⟩ := h
    exact ⟨_, by simp only [fmtS, h1, h2, if_true]; rfl⟩
  | .gsets s groups aggs _ _ _, h => by
    obtain ⟨x, hx⟩ := hasS nm w s h.1
    obtain ⟨y, hy⟩ := hasCs nm w groups h.2.1
    obtain ⟨z, hz⟩ := hasAs nm w aggs h.2.2
    exact ⟨_, by simp only [fmtS, hx, hy, hz]; rfl⟩
  | .win s ws _, h => by
    obtain ⟨x, hx⟩ := hasS nm w s h.1
    obtain ⟨y, hy⟩ := hasFs nm w (formatInput x) ws h.2
    exact ⟨_, by simp only [fmtS, hx, hy]; rfl⟩

theorem hasIs (nm : Col → Nm) (w : WMap) (o : SetOp) : ∀ e : Items, scopedIs w e → ∃ x y, fmtIs nm w o e = some (x, y)
  | .nil, _ => ⟨_, _, rfl⟩
  | .cons s _ is, h => by
    obtain ⟨x, hx⟩ := hasS nm w s h.1
    obtain ⟨y, z, hy⟩ := hasIs nm w o is h.2
    exact ⟨_, _, by simp only [fmtIs, hx, hy]; rfl⟩

theorem hasWs (nm : Col → Nm) (w : WMap) : ∀ e : Entries, scopedWs w e → ∃ x, fmtWs nm w e = some (x, wAfter w e)
  | .nil, _ => ⟨_, rfl⟩
  | .cons n s es, h => by
    obtain ⟨x, hx⟩ := hasS nm w s h.1
    obtain ⟨y, hy⟩ := hasWs nm (upd w n s.cols) es h.2
    exact ⟨_, by simp only [fmtWs, hx, hy]; rfl⟩
end

/-! ## Texts which SQLite rejects -/

section
variable {V : Type} [DecidableEq V] {S : Sem V} {db : Db V}

theorem fails_text {ts : List Tok} (h : pQuery ts = none) (n : Nat) (cte : CTE V) (env : SEnv V) :
    evalQ S db n cte env ts = none := by
  cases n with
  | zero => rfl
  | succ n => simp only [evalQ, evalBody, h]

/-- A SELECT from a query without value has no value. -/
theorem fails_from {ts : List Tok} (hs : startsSel ts = true) {items : List Item} {n : Nat} {cte : CTE V} {env : SEnv V}
    (h : evalQ S db n cte env ts = none) : evalQ S db (n + 1) cte env [.sel items, .from, .grp ts] = none := by
  simp only [evalQ, evalBody]
  cases hp : pQuery [.sel items, .from, .grp ts] with
  | none => rfl
  | some p =>
    simp only [pQuery, pBody, pCore, pFrom, pChain, trefOf, pLoop, Option.map_some, pWhere, pGroup] at hp
    split at hp
    · simp at hp
    · rename_i c r hc
      split at hc
      · simp at hc
      · cases hc
        simp only [List.length_nil, pMore, pOrder, pLimit, Option.some.injEq] at hp
        subst hp
        simp only [List.foldl_nil, evalCtes, evalCore, evalFW, evalPT, evalTref, hs, if_true, h]

theorem fails_query {out : List (Col × List Char)} {s : Scan} {t : List Tok} (ht : fmtS uid (fun _ => none) s = some t)
    (hs : startsSel t = true) (h : ∀ n, evalQ S db n (fun _ => none) (fun _ => none) t = none) :
    ∃ q, fmtQuery out s = some q ∧ Fails S db q := by
  refine ⟨_, by simp only [fmtQuery, ht]; rfl, fun n => ?_⟩
  cases n with
  | zero => rfl
  | succ n => exact fails_from hs (h n)

theorem fails_project {out : List (Col × List Char)} {s : Scan} {cols : List Col} {t : List Tok}
    (ht : fmtS uid (fun _ => none) s = some t)
    (hs : startsSel t = true) (h : ∀ n, evalQ S db n (fun _ => none) (fun _ => none) t = none) :
    ∃ q, fmtQuery out (.project s .nil cols) = some q ∧ Fails S db q := by
  have hf : formatInput t = [.from, .grp t] := by
    cases t with
    | nil => simp [startsSel] at hs
    | cons x r => cases x <;> simp_all [startsSel, formatInput]
  refine fails_query (t := .sel (selList uid [] cols) :: [.from, .grp t]) ?_ rfl fun n => ?_
  · simp only [fmtS, fmtCs, ht, hf]
  · cases n with
    | zero => rfl
    | succ n => exact fails_from hs (h n)
end

/-- The tokens from the first one which `p` accepts. -/
def fromTok (p : Tok → Bool) : List Tok → List Tok
  | [] => []
  | x :: r => if p x then x :: r else fromTok p r

theorem fromTok_append {p : Tok → Bool} : ∀ {a : List Tok}, (∀ x ∈ a, p x = false) → ∀ b, fromTok p (a ++ b) = fromTok p b
  | [], _, _ => rfl
  | x :: a, h, b => by
    simp only [List.cons_append, fromTok, h x (List.mem_cons_self ..), Bool.false_eq_true, if_false]
    exact fromTok_append (fun y hy => h y (List.mem_cons_of_mem _ hy)) b

/-- Tokens that end a FROM clause, WHERE or GROUP BY. -/
def isEnd : Tok → Bool
  | .limit _ => true
  | .offset _ => true
  | .setop _ => true
  | .withs _ => true
  | .orderBy _ => true
  | _ => false

theorem trefOf_notEnd {x : Tok} {t : Tref} (h : trefOf x = some t) : isEnd x = false := by
  cases x <;> simp_all [trefOf, isEnd]

variable {p : Tok → Bool} (hp : ∀ x, p x = true → isEnd x = true)
include hp

theorem notP {x : Tok} (h : isEnd x = false) : p x = false := by
  cases hx : p x with
  | false => rfl
  | true => rw [hp x hx] at h; simp at h

theorem pLoop_fromTok : ∀ (k : Nat) (ts : List Tok) (acc pt : PT) (r : List Tok), ts.length ≤ k →
    pLoop acc ts = some (pt, r) → fromTok p r = fromTok p ts := by
  intro k
  induction k with
  | zero =>
    intro ts acc pt r hl h
    have : ts = [] := List.length_eq_zero_iff.1 (Nat.le_zero.1 hl)
    subst this
    simp [pLoop] at h
    rw [h.2]
  | succ k ih =>
    intro ts acc pt r hl h
    unfold pLoop at h
    split at h
    · rename_i k' x e r'
      split at h
      · rename_i t ht
        rw [ih r' _ _ _ (by simp at hl; omega) h]
        simp only [fromTok, notP hp (trefOf_notEnd ht), notP hp (x := .join k') rfl, notP hp (x := .on e) rfl, Bool.false_eq_true, if_false]
      · simp at h
    · rename_i k' x r' _
      split at h
      · rename_i t ht
        rw [ih r' _ _ _ (by simp at hl; omega) h]
        simp only [fromTok, notP hp (trefOf_notEnd ht), notP hp (x := .join k') rfl, Bool.false_eq_true, if_false]
      · simp at h
    · simp at h
    · simp only [Option.some.injEq, Prod.mk.injEq] at h
      rw [h.2]

theorem pChain_fromTok {ts : List Tok} {pt : PT} {r : List Tok} (h : pChain ts = some (pt, r)) :
    fromTok p r = fromTok p ts := by
  unfold pChain at h
  split at h
  · simp at h
  · rename_i x r'
    split at h
    · rename_i t ht
      rw [pLoop_fromTok hp _ _ _ _ _ (Nat.le_refl _) h]
      simp only [fromTok, notP hp (trefOf_notEnd ht), Bool.false_eq_true, if_false]
    · simp at h

theorem pCore_fromTok {ts : List Tok} {c : Core} {r : List Tok} (h : pCore ts = some (c, r)) :
    fromTok p r = fromTok p ts := by
  have hw : ∀ r, fromTok p (pWhere r).2 = fromTok p r := by
    intro r
    unfold pWhere
    split
    · rename_i e r
      simp only [fromTok, notP hp (x := .whr e) rfl, Bool.false_eq_true, if_false]
    · rfl
  have hg : ∀ r, fromTok p (pGroup r).2 = fromTok p r := by
    intro r
    unfold pGroup
    split
    · rename_i e r
      simp only [fromTok, notP hp (x := .groupBy e) rfl, Bool.false_eq_true, if_false]
    · rfl
  unfold pCore at h
  split at h
  · rename_i items r0
    split at h
    · simp at h
    · split at h
      · simp at h
      · rename_i f r1 hf
        simp only [Option.some.injEq, Prod.mk.injEq] at h
        rw [← h.2, hg, hw]
        simp only [fromTok, notP hp (x := .sel items) rfl, Bool.false_eq_true, if_false]
        unfold pFrom at hf
        split at hf
        · rename_i r2
          simp only [Option.map_eq_some_iff] at hf
          obtain ⟨⟨pt, r3⟩, h1, h2⟩ := hf
          simp only [Prod.mk.injEq] at h2
          rw [← h2.2, pChain_fromTok hp h1]
          simp only [fromTok, notP hp (x := .from) rfl, Bool.false_eq_true, if_false]
        · simp only [Option.some.injEq, Prod.mk.injEq] at hf
          rw [hf.2]
  · simp at h
omit hp

/-- Is the token an operator of a set operation? -/
def isSetop : Tok → Bool
  | .setop _ => true
  | _ => false

def isLimit : Tok → Bool
  | .limit _ => true
  | _ => false

/-- No query continues after LIMIT with anything but OFFSET. -/
theorem pMore_limit : ∀ (k : Nat) (ts : List Tok) (more : List (SetOp × Core)) (r : List Tok),
    pMore k ts = some (more, r) → fromTok isLimit r = fromTok isLimit ts
  | 0, ts, more, r, h => by
    simp only [pMore, Option.some.injEq, Prod.mk.injEq] at h
    rw [h.2]
  | k + 1, ts, more, r, h => by
    unfold pMore at h
    split at h
    · rename_i n0 o r0 hk
      cases hk
      split at h
      · split at h
        · simp at h
        · rename_i c r' hc
          simp only [Option.map_eq_some_iff] at h
          obtain ⟨⟨m, r2⟩, h1, h2⟩ := h
          simp only [Prod.mk.injEq] at h2
          rw [← h2.2, pMore_limit k r' m r2 h1,
            pCore_fromTok (p := isLimit) (by intro x; cases x <;> simp [isLimit, isEnd]) hc]
          simp [fromTok, isLimit]
      · simp at h
    · simp only [Option.some.injEq, Prod.mk.injEq] at h
      rw [h.2]

/-- A text with a WHERE after LIMIT is no query. -/
theorem pQuery_limit_where {items : List Item} {a : List Tok} (ha : ∀ x ∈ a, isLimit x = false) {k : Nat} {off : Option Nat}
    {e : SExpr} : pQuery (.sel items :: (a ++ (.limit k :: off.toList.map Tok.offset ++ [.whr e]))) = none := by
  have hq : pQuery (.sel items :: (a ++ (.limit k :: off.toList.map Tok.offset ++ [.whr e]))) =
      pBody [] (.sel items :: (a ++ (.limit k :: off.toList.map Tok.offset ++ [.whr e]))) := rfl
  rw [hq]
  unfold pBody
  split
  · rfl
  rename_i c r hc
  have h1 := pCore_fromTok (p := isLimit) (by intro x; cases x <;> simp [isLimit, isEnd]) hc
  split
  · rfl
  rename_i more r2 hm
  have h2 := pMore_limit _ _ _ _ hm
  split
  · rename_i n m hl
    exfalso
    have h3 : fromTok isLimit (pOrder r2).2 = fromTok isLimit r2 := by
      unfold pOrder
      split
      · simp [fromTok, isLimit]
      · rfl
    have h4 : fromTok isLimit (pOrder r2).2 = .limit k :: off.toList.map Tok.offset ++ [.whr e] := by
      rw [h3, h2, h1]
      simp only [fromTok, isLimit, Bool.false_eq_true, if_false]
      rw [fromTok_append ha]
      simp [fromTok, isLimit]
    unfold pLimit at hl
    split at hl
    · rename_i n' m' r' heq
      simp only [Prod.mk.injEq] at hl
      rw [heq] at h4
      simp only [fromTok, isLimit, if_true, hl.2.2] at h4
      cases off <;> simp at h4
    · rename_i n' r' hno heq
      simp only [Prod.mk.injEq] at hl
      rw [heq] at h4
      simp only [fromTok, isLimit, if_true, hl.2.2] at h4
      cases off <;> simp at h4
    · simp only [Prod.mk.injEq] at hl
      rw [hl.2.2] at h4
      simp [fromTok] at h4
  · rfl

/-! ## The tokens at the top of a text -/

/-- Tokens which are not at the top of a text that does not begin with SELECT or WITH. -/
def isTail : Tok → Bool
  | .limit _ => true
  | .offset _ => true
  | .setop _ => true
  | .withs _ => true
  | .orderBy _ => true
  | .groupBy _ => true
  | .sel _ => true
  | _ => false

theorem joinInput_top {t : List Tok} (h : startsSel t = false → ∀ x ∈ t, isTail x = false) :
    ∀ x ∈ joinInput t, isTail x = false := by
  intro x hx
  unfold joinInput at hx
  split at hx
  · simp only [List.mem_singleton] at hx
    subst hx
    rfl
  · rename_i hs
    exact h (by simpa using hs) x hx

theorem startsSel_append {a b : List Tok} (ha : a ≠ []) : startsSel (a ++ b) = startsSel a := by
  cases a with
  | nil => simp at ha
  | cons x a => cases x <;> rfl

theorem top_plain (nm : Col → Nm) (w : WMap) : ∀ (s : Scan) (t : List Tok), fmtS nm w s = some t → startsSel t = false →
    ∀ x ∈ t, isTail x = false
  | .single, t, h, hs => by
    cases h
    simp
  | .table t' cols, t, h, hs => by
    cases h
    simp [isTail]
  | .ref n cols, t, h, hs => by
    simp only [fmtS] at h
    split at h
    · simp at h
    · split at h
      · cases h
        simp [isTail]
      · simp at h
  | .join k l r on, t, h, hs => by
    simp only [fmtS] at h
    split at h
    · rename_i tl tr hl hr _
      cases h
      intro x hx
      rw [List.mem_append, List.mem_cons] at hx
      rcases hx with hx | rfl | hx
      · exact joinInput_top (fun h' => top_plain nm w l tl hl h') x hx
      · rfl
      · exact joinInput_top (fun h' => top_plain nm w r tr hr h') x hx
    · rename_i tl tr y hl hr _
      split at h
      · simp at h
      · cases h
        intro x hx
        rw [List.mem_append, List.mem_append, List.mem_cons, List.mem_singleton] at hx
        rcases hx with (hx | rfl | hx) | rfl
        · exact joinInput_top (fun h' => top_plain nm w l tl hl h') x hx
        · rfl
        · exact joinInput_top (fun h' => top_plain nm w r tr hr h') x hx
        · rfl
    · simp at h
  | .filter s e, t, h, hs => by
    simp only [fmtS] at h
    split at h
    · rename_i ts xe hts _
      split at h
      · cases h
        simp [isTail]
      · cases h
        intro x hx
        simp only [List.mem_append, List.mem_singleton] at hx
        rcases hx with hx | rfl
        · refine top_plain nm w s ts hts ?_ x hx
          rw [startsSel_append (List.ne_nil_of_mem hx)] at hs
          exact hs
        · rfl
    · simp at h
  | .unnest e elem off, t, h, hs => by
    simp only [fmtS] at h
    split at h
    · simp at h
    · cases h
      simp [startsSel] at hs
  | .array s e elem off on outer, t, h, hs => by
    simp only [fmtS] at h
    split at h
    · cases h
      simp [startsSel] at hs
    · simp at h
  | .project s exprs cols, t, h, hs => by
    simp only [fmtS] at h
    split at h
    · cases h
      simp [startsSel] at hs
    · simp at h
  | .agg s groups aggs cols, t, h, hs => by
    simp only [fmtS] at h
    split at h
    · cases h
      simp [startsSel] at hs
    · simp at h
  | .setop o items cols, t, h, hs => by
    simp only [fmtS] at h
    split at h
    · simp at h
    · cases h
      simp [startsSel] at hs
  | .order s items cols, t, h, hs => by
    simp only [fmtS] at h
    split at h
    · simp at h
    · cases h
      simp [startsSel] at hs
  | .limit s k off cols, t, h, hs => by
    simp only [fmtS] at h
    split at h
    · simp at h
    · cases h
      simp [startsSel] at hs
  | .with_ es body, t, h, hs => by
    simp only [fmtS] at h
    split at h
    · simp at h
    · split at h
      · simp at h
      · cases h
        simp [startsSel] at hs
  | .gsets s groups aggs set sets cols, t, h, hs => by
    simp only [fmtS] at h
    split at h
    · cases h
      simp [fmtGSets, startsSel] at hs
    · simp at h
  | .win s ws cols, t, h, hs => by
    simp only [fmtS] at h
    split at h
    · simp at h
    · split at h
      · simp at h
      · cases h
        simp [startsSel] at hs

theorem formatInput_top {nm : Col → Nm} {w : WMap} {s : Scan} {t : List Tok} (h : fmtS nm w s = some t) :
    ∀ x ∈ formatInput t, isTail x = false := by
  have ht := top_plain nm w s t h
  intro x hx
  unfold formatInput at hx
  split at hx
  · simp at hx
  · exact ht rfl x hx
  · split at hx
    · simp only [List.mem_cons, List.not_mem_nil, or_false] at hx
      rcases hx with rfl | rfl <;> rfl
    · rename_i hs
      rcases List.mem_cons.1 hx with rfl | hx
      · rfl
      · exact ht (by simpa using hs) x hx

/-! ## When a filter puts its input in parentheses -/

/-- Every opening parenthesis is followed by a closing one. -/
def Closed : List Sym → Prop
  | [] => True
  | .op :: r => Sym.cl ∈ r ∧ Closed r
  | _ :: r => Closed r

/-- Every opening parenthesis is followed by a symbol and then a closing one. -/
def Apart : List Sym → Prop
  | [] => True
  | .op :: r => Sym.cl ∈ r.tail ∧ Apart r
  | _ :: r => Apart r

theorem Closed.append : ∀ {a b : List Sym}, Closed a → Closed b → Closed (a ++ b)
  | [], _, _, h => h
  | .op :: a, b, h, h' => ⟨List.mem_append_left _ h.1, Closed.append (a := a) h.2 h'⟩
  | .cl :: a, b, h, h' => Closed.append (a := a) h h'
  | .tk :: a, b, h, h' => Closed.append (a := a) h h'
  | .ot :: a, b, h, h' => Closed.append (a := a) h h'

theorem Closed.paren {a : List Sym} (h : Closed a) : Closed (.op :: a ++ [.cl]) :=
  ⟨by simp, Closed.append h trivial⟩

theorem Apart.append : ∀ {a b : List Sym}, Apart a → Apart b → Apart (a ++ b)
  | [], _, _, h => h
  | .op :: a, b, h, h' => by
    refine ⟨?_, Apart.append (a := a) h.2 h'⟩
    have := h.1
    cases a with
    | nil => simp at this
    | cons x a => simpa using Or.inl this
  | .cl :: a, b, h, h' => Apart.append (a := a) h h'
  | .tk :: a, b, h, h' => Apart.append (a := a) h h'
  | .ot :: a, b, h, h' => Apart.append (a := a) h h'

theorem Apart.before : ∀ {a b : List Sym}, Closed a → Apart b → Sym.cl ∈ b → Apart (a ++ b)
  | [], _, _, h, _ => h
  | .op :: a, b, h, h', hb => by
    refine ⟨?_, Apart.before (a := a) h.2 h' hb⟩
    have := h.1
    cases a with
    | nil => simp at this
    | cons x a => simpa using Or.inr hb
  | .cl :: a, b, h, h', hb => Apart.before (a := a) h h' hb
  | .tk :: a, b, h, h', hb => Apart.before (a := a) h h' hb
  | .ot :: a, b, h, h', hb => Apart.before (a := a) h h' hb

theorem Apart.paren {a : List Sym} (h : Closed a) (ha : a ≠ []) : Apart (.op :: a ++ [.cl]) := by
  refine ⟨?_, Apart.before h trivial (by simp)⟩
  cases a with
  | nil => simp at ha
  | cons x a => simp

theorem closed_one {x : Sym} (h : x ≠ .op) : Closed [x] := by
  cases x <;> simp_all [Closed]

theorem apart_one {x : Sym} (h : x ≠ .op) : Apart [x] := by
  cases x <;> simp_all [Apart]

theorem symText_ne (s : List Char) : symText s ≠ .op := by
  unfold symText
  split <;> simp

theorem symName_ne (n : Nm) : symName n ≠ .op := symText_ne _

theorem closed_ot {r : List Sym} (h : Closed r) : Closed (.ot :: r) := h

theorem closed_cons {x : Sym} {r : List Sym} (hx : x ≠ .op) (h : Closed r) : Closed (x :: r) := by
  cases x <;> simp_all [Closed]

theorem closed_opt (n : Option Nm) : Closed ((n.map symName).toList) := by
  cases n with
  | none => trivial
  | some n => exact closed_one (symName_ne n)

theorem closed_flatMap {α : Type} (f : α → List Sym) (h : ∀ a, Closed (f a)) : ∀ l : List α, Closed (l.flatMap f)
  | [] => trivial
  | a :: l => by
    rw [List.flatMap_cons]
    exact (h a).append (closed_flatMap f h l)

mutual
theorem closedE : ∀ e : SExpr, Closed (symE e)
  | .name n => closed_one (symName_ne n)
  | .null => by simp [symE, Closed]
  | .opt e => by
    simp only [symE]
    exact closed_ot (closedE e).paren
  | .lit _ => by simp [symE, Closed]
  | .call _ args => by
    simp only [symE]
    exact closed_ot (closedEs args).paren
  | .scalar q => by
    simp only [symE]
    exact (closedTs q).paren
  | .exists_ q => by
    simp only [symE]
    exact closed_ot (closedTs q).paren
  | .inq e q => by
    simp only [symE, List.append_assoc]
    exact (closedE e).append (closed_ot (closedTs q).paren)

theorem closedEs : ∀ e : List SExpr, Closed (symEs e)
  | [] => trivial
  | e :: es => by
    simp only [symEs]
    exact (closedE e).append (closedEs es)

theorem closedI : ∀ i : Item, Closed (symI i)
  | .star => by simp [symI, Closed]
  | .ex e n => by
    simp only [symI]
    exact (closedE e).append (closed_opt n)
  | .agg _ args n => by
    have : Closed ((Sym.op :: symEs args ++ [Sym.cl]) ++ (n.map symName).toList) :=
      (closedEs args).paren.append (closed_opt n)
    simpa [symI, Closed] using this

theorem closedIs : ∀ i : List Item, Closed (symIs i)
  | [] => trivial
  | i :: is => by
    simp only [symIs]
    exact (closedI i).append (closedIs is)

theorem closedT : ∀ t : Tok, Closed (symT t)
  | .sel items => by
    simp only [symT]
    exact closed_ot (closedIs items)
  | .from => by simp [symT, Closed]
  | .whr e => by
    simp only [symT]
    exact closed_cons (by simp) (closedE e)
  | .groupBy ns => by
    simp only [symT]
    refine closed_cons (by simp) (closed_flatMap _ (fun n => ?_) ns)
    exact closed_ot ((closed_one (symName_ne n)).paren)
  | .orderBy ts => by
    simp only [symT]
    refine closed_cons (by simp) (closed_flatMap _ (fun t => ?_) ts)
    cases t with
    | notNull n => exact Closed.paren (a := [symName n, .ot]) (closed_cons (symName_ne n) (closed_one (by simp)))
    | isNull n => exact Closed.paren (a := [symName n, .ot]) (closed_cons (symName_ne n) (closed_one (by simp)))
    | coll n d => exact closed_cons (symName_ne n) (closed_one (by simp))
  | .limit _ => by simp [symT, Closed]
  | .offset _ => by simp [symT, Closed]
  | .withs es => by
    simp only [symT]
    exact closed_ot (closedWs es)
  | .setop _ => by simp [symT, Closed]
  | .join _ => by simp [symT, Closed]
  | .on e => by
    simp only [symT]
    exact closed_ot (closedE e)
  | .tbl n => closed_one (symText_ne n)
  | .each e => by
    have : Closed (Sym.op :: (Sym.ot :: (Sym.op :: symE e ++ [Sym.cl])) ++ [Sym.cl]) :=
      Closed.paren (closed_ot (closedE e).paren)
    simpa [symT, Closed] using this
  | .grp ts => by
    simp only [symT]
    exact (closedTs ts).paren
  | .num ts => by
    have h1 : Closed ([Sym.ot, .op, .cl, .ot, .op, .cl, .ot] ++ symTs ts) :=
      Closed.append (by simp [Closed]) (closedTs ts)
    have : Closed (Sym.op :: ([Sym.ot, .op, .cl, .ot, .op, .cl, .ot] ++ symTs ts) ++ [.cl]) := h1.paren
    simpa [symT] using this

theorem closedTs : ∀ t : List Tok, Closed (symTs t)
  | [] => trivial
  | t :: ts => by
    simp only [symTs]
    exact (closedT t).append (closedTs ts)

theorem closedWs : ∀ t : List (TName × List Tok), Closed (symWs t)
  | [] => trivial
  | (n, q) :: es => by
    have : Closed ((Sym.op :: symTs q ++ [Sym.cl]) ++ symWs es) := (closedTs q).paren.append (closedWs es)
    simp only [symWs]
    refine closed_cons (symText_ne n) ?_
    simpa using this
end

theorem afterClose_mem : ∀ {a : List Sym}, Sym.cl ∈ a → ∀ z, ∃ a', afterClose (a ++ z) = some (a' ++ z) ∧
    a'.length < a.length ∧ (Apart a → Apart a')
  | .cl :: a, _, z => ⟨a, rfl, by simp, fun h => h⟩
  | .op :: a, h, z => by
    obtain ⟨a', h1, h2, h3⟩ := afterClose_mem (a := a) (by simpa using h) z
    exact ⟨a', h1, by simp; omega, fun h => h3 h.2⟩
  | .tk :: a, h, z => by
    obtain ⟨a', h1, h2, h3⟩ := afterClose_mem (a := a) (by simpa using h) z
    exact ⟨a', h1, by simp; omega, fun h => h3 h⟩
  | .ot :: a, h, z => by
    obtain ⟨a', h1, h2, h3⟩ := afterClose_mem (a := a) (by simpa using h) z
    exact ⟨a', h1, by simp; omega, fun h => h3 h⟩

/-- A clause word which follows such symbols is found. -/
theorem removeExprs_tk : ∀ (n : Nat) (a z : List Sym), Apart a → a.length < n →
    Sym.tk ∈ removeExprs n (a ++ .tk :: z)
  | 0, _, _, _, h => by omega
  | n + 1, [], z, _, _ => by simp [removeExprs]
  | n + 1, .op :: [], z, h, _ => by simp [Apart] at h
  | n + 1, .op :: x :: a, z, h, hn => by
    obtain ⟨a', h1, h2, h3⟩ := afterClose_mem (a := a) h.1 (.tk :: z)
    have ha : Apart a := by
      have := h.2
      cases x <;> first | exact this | exact this.2
    simp only [List.cons_append, removeExprs, h1]
    exact removeExprs_tk n a' z (h3 ha) (by simp at hn; omega)
  | n + 1, .cl :: a, z, h, hn => by
    simp only [List.cons_append, removeExprs]
    exact List.mem_cons_of_mem _ (removeExprs_tk n a z h (by simp at hn; omega))
  | n + 1, .tk :: a, z, h, hn => by
    simp only [List.cons_append, removeExprs]
    exact List.mem_cons_self ..
  | n + 1, .ot :: a, z, h, hn => by
    simp only [List.cons_append, removeExprs]
    exact List.mem_cons_of_mem _ (removeExprs_tk n a z h (by simp at hn; omega))

theorem wraps_of {t : List Tok} {a z : List Sym} (h : symTs t = a ++ .tk :: z) (ha : Apart a) : wraps t = true := by
  unfold wraps
  rw [h]
  exact decide_eq_true (removeExprs_tk _ a z ha (by simp))

theorem symTs_append (a b : List Tok) : symTs (a ++ b) = symTs a ++ symTs b := by
  induction a with
  | nil => rfl
  | cons x a ih => simp [symTs, ih]

theorem symE_ne : ∀ e : SExpr, symE e ≠ []
  | .name _ => by simp [symE]
  | .null => by simp [symE]
  | .opt _ => by simp [symE]
  | .lit _ => by simp [symE]
  | .call _ _ => by simp [symE]
  | .scalar _ => by simp [symE]
  | .exists_ _ => by simp [symE]
  | .inq _ _ => by simp [symE]

/-- A text whose parentheses are apart, and which has some. -/
def Good (t : List Tok) : Prop := Apart (symTs t) ∧ Sym.cl ∈ symTs t

theorem Good.grp {t : List Tok} (h : startsSel t = true) : Good [.grp t] := by
  have hne : symTs t ≠ [] := by
    cases t with
    | nil => simp [startsSel] at h
    | cons x r => cases x <;> simp_all [startsSel, symTs, symT]
  have := Apart.paren (closedTs t) hne
  refine ⟨by simpa [symTs, symT] using this, by simp [symTs, symT]⟩

theorem Good.before {a b : List Tok} (h : Good b) : Good (a ++ b) := by
  refine ⟨?_, ?_⟩
  · rw [symTs_append]
    exact Apart.before (closedTs a) h.1 h.2
  · rw [symTs_append]
    exact List.mem_append_right _ h.2

theorem joinInput_self {t : List Tok} (h : startsSel t = false) : joinInput t = t := by simp [joinInput, h]

theorem wraps_good {a : List Tok} {x : Tok} {b : List Tok} (hG : Good a) (hx : ∃ z, symT x = .tk :: z) :
    wraps (a ++ x :: b) = true := by
  obtain ⟨z, hz⟩ := hx
  refine wraps_of (a := symTs a) (z := z ++ symTs b) ?_ hG.1
  rw [symTs_append, symTs, hz]
  rfl

/-- A call without arguments. -/
def Expr.nullary : Expr → Bool
  | .call _ .nil => true
  | _ => false

def OExpr.nullary : OExpr → Bool
  | .none => false
  | .some e => e.nullary

/-- The condition of a join is no call without arguments. -/
def calm : Scan → Bool
  | .join _ _ _ on => !on.nullary
  | _ => true

theorem apartE {nm : Col → Nm} {w : WMap} {e : Expr} {x : SExpr} (h : fmtE nm w e = some x) (ho : okE nm w e)
    (hn : e.nullary = false) : Apart (symE x) := by
  have hq : ∀ s q, fmtS nm w s = some q → isQuery s = true → symTs q ≠ [] := by
    intro s q h1 h2
    have := isQuery_sel h1 h2
    cases q with
    | nil => simp [startsSel] at this
    | cons x r => cases x <;> simp_all [startsSel, symTs, symT]
  cases e with
  | col c =>
    cases h
    exact apart_one (symName_ne _)
  | lit k =>
    cases h
    simp [symE, Apart]
  | call f args =>
    simp only [fmtE, Option.map_eq_some_iff] at h
    obtain ⟨xs, h1, rfl⟩ := h
    have hx : symEs xs ≠ [] := by
      cases args with
      | nil => simp [Expr.nullary] at hn
      | cons a as =>
        simp only [fmtEs] at h1
        split at h1
        · cases h1
          simp [symEs, symE_ne]
        · simp at h1
    simp only [symE]
    exact Apart.paren (closedEs xs) hx
  | scalar s =>
    simp only [fmtE, Option.map_eq_some_iff] at h
    obtain ⟨q, h1, rfl⟩ := h
    simp only [symE]
    exact Apart.paren (closedTs q) (hq _ _ h1 ho.1)
  | exists_ s =>
    simp only [fmtE, Option.map_eq_some_iff] at h
    obtain ⟨q, h1, rfl⟩ := h
    simp only [symE]
    exact Apart.paren (closedTs q) (hq _ _ h1 ho.1)
  | inq e s =>
    simp only [fmtE] at h
    split at h
    · rename_i q y h1 h2
      cases h
      simp only [symE, List.append_assoc]
      refine Apart.before (closedE y) ?_ (by simp)
      exact Apart.paren (closedTs q) (hq _ _ h1 ho.2.1)
    · simp at h
  | arr s =>
    simp only [fmtE] at h
    split at h
    · cases h
      simp only [symE]
      exact Apart.paren (closedTs _) (by simp [symTs, symT])
    · simp at h

theorem right_good {nm : Col → Nm} {w : WMap} {s : Scan} {t : List Tok} (h : fmtS nm w s = some t) (hr : rightOk s = true) :
    Good (joinInput t) := by
  by_cases hq : isQuery s = true
  · have := isQuery_sel h hq
    simp only [joinInput, this, if_true]
    exact Good.grp this
  · cases s with
    | table t' cols =>
      cases h
      exact Good.grp rfl
    | ref n cols =>
      simp only [fmtS] at h
      split at h
      · simp at h
      · split at h
        · cases h
          exact Good.grp rfl
        · simp at h
    | single => simp [rightOk] at hr
    | filter s e => simp [rightOk] at hr
    | join k l r on => simp [rightOk] at hr
    | _ => simp [isQuery] at hq

theorem flat_good {nm : Col → Nm} {w : WMap} {s : Scan} {t : List Tok} (h : fmtS nm w s = some t) (ho : okS nm w s)
    (hl : leftOk s = true) (hc : calm s = true) : Good (joinInput t) := by
  cases s with
  | join k l r on =>
    simp only [fmtS] at h
    simp only [okS] at ho
    obtain ⟨_, _, _, hr, hon, _⟩ := ho
    split at h
    · rename_i tl tr h1 h2 h3
      cases h
      have hg := (right_good h2 hr).before (a := joinInput tl ++ [.join .cross])
      have hs := joinInput_nosel tl (.join .cross) (joinInput tr) rfl
      rw [joinInput_self hs]
      simpa using hg
    · rename_i tl tr x h1 h2 h3
      split at h
      · simp at h
      · cases h
        have hg := (right_good h2 hr).before (a := joinInput tl ++ [.join k])
        have hx : Apart (symE x) := by
          cases on with
          | none => simp [fmtO] at h3
          | some e =>
            simp only [fmtO, Option.map_eq_some_iff, Option.some.injEq] at h3
            obtain ⟨y, hy, rfl⟩ := h3
            exact apartE hy hon (by simpa [calm, OExpr.nullary] using hc)
        have hs := joinInput_nosel tl (.join k) (joinInput tr ++ [.on x]) rfl
        have e : joinInput tl ++ Tok.join k :: joinInput tr ++ [Tok.on x] =
          joinInput tl ++ .join k :: (joinInput tr ++ [.on x]) := by simp
        rw [e]
        rw [joinInput_self hs]
        have e2 : joinInput tl ++ .join k :: (joinInput tr ++ [.on x]) =
          (joinInput tl ++ [.join k] ++ joinInput tr) ++ [.on x] := by simp
        rw [e2]
        refine ⟨?_, ?_⟩
        · rw [symTs_append]
          refine Apart.append hg.1 ?_
          simpa [symTs, symT, Apart] using hx
        · rw [symTs_append]
          exact List.mem_append_left _ hg.2
    · simp at h
  | filter s e => simp [leftOk] at hl
  | single => simp [leftOk] at hl
  | table t' cols => exact right_good h rfl
  | ref n cols => exact right_good h rfl
  | unnest e elem off => exact right_good h rfl
  | array s e elem off on outer => exact right_good h rfl
  | project s exprs cols => exact right_good h rfl
  | agg s groups aggs cols => exact right_good h rfl
  | setop o items cols => exact right_good h rfl
  | order s items cols => exact right_good h rfl
  | limit s n off cols => exact right_good h rfl
  | with_ es body => exact right_good h rfl
  | gsets s groups aggs set sets cols => exact right_good h rfl
  | win s ws cols => exact right_good h rfl

theorem good_formatInput {t : List Tok} (h : Good (joinInput t)) : Good (formatInput t) := by
  unfold formatInput
  split
  · exact h
  · exact h
  · split
    · rename_i hs
      simp only [joinInput, hs, if_true] at h
      exact h.before (a := [.from])
    · rename_i hs
      simp only [joinInput, hs] at h
      exact h.before (a := [.from])

/-- The symbols of a filter's text, up to a WHERE. -/
theorem filter_sym {nm : Col → Nm} {w : WMap} {s : Scan} {e : Expr} {t : List Tok} (h : fmtS nm w (.filter s e) = some t)
    (ho : okS nm w (.filter s e)) (hc : calm s = true) (hq : isQuery s = false) :
    ∃ t0 x, formatInput t = t0 ++ [.whr x] ∧ Good t0 := by
  simp only [okS] at ho
  simp only [fmtS] at h
  split at h
  · rename_i t0 x ht hx
    have hg := flat_good ht ho.1 ho.2.1 hc
    have hs : startsSel t0 = false := by
      cases hss : startsSel t0 with
      | false => rfl
      | true => rw [sel_isQuery ht ho.2.1 hss] at hq; simp at hq
    have hj : joinInput t0 = t0 := by simp [joinInput, hs]
    rw [hj] at hg
    split at h
    · cases h
      have hgg : Good [.grp t0] := by
        refine ⟨?_, by simp [symTs, symT]⟩
        have := Apart.paren (closedTs t0) (by intro h; rw [Good, h] at hg; simp at hg)
        simpa [symTs, symT] using this
      exact ⟨[.from, .grp t0], x, rfl, hgg.before (a := [.from])⟩
    · cases h
      have hne : t0 ≠ [] := by
        rintro rfl
        simp [Good, symTs] at hg
      cases t0 with
      | nil => simp at hne
      | cons y r =>
        by_cases hy : y = .from
        · subst hy
          exact ⟨.from :: r, x, rfl, hg⟩
        · refine ⟨.from :: y :: r, x, ?_, hg.before (a := [.from])⟩
          have hs' : startsSel (y :: (r ++ [.whr x])) = false := by
            cases y <;> simp_all [startsSel]
          unfold formatInput
          split
          · simp at *
          · simp_all
          · simp [hs']
  · simp at h

/-- GROUP BY, ORDER BY and WHERE of the input are found: such an input is put in parentheses. -/
theorem wraps_agg {nm : Col → Nm} {w : WMap} {s : Scan} {groups : CExprs} {aggs : Aggs} {cols : List Col} {t : List Tok}
    (h : fmtS nm w (.agg s groups aggs cols) = some t) (ho : okS nm w s) (hl : leftOk s = true) (hc : calm s = true)
    (hg : groups.cols ≠ []) : wraps t = true := by
  simp only [fmtS] at h
  split at h
  · rename_i as ts gs h1 h2 h3
    cases h
    cases hgc : groups.cols with
    | nil => exact absurd hgc hg
    | cons g gs' =>
      have hG := (good_formatInput (flat_good h2 ho hl hc)).before (a := [.sel (selList nm (gs ++ as) cols)])
      have := wraps_good (b := []) hG (x := .groupBy ((g :: gs').map nm)) ⟨_, rfl⟩
      simpa using this
  · simp at h

theorem wraps_agg_filter {nm : Col → Nm} {w : WMap} {s : Scan} {e : Expr} {groups : CExprs} {aggs : Aggs} {cols : List Col}
    {t : List Tok} (h : fmtS nm w (.agg (.filter s e) groups aggs cols) = some t) (ho : okS nm w (.filter s e))
    (hc : calm s = true) (hq : isQuery s = false) : wraps t = true := by
  simp only [fmtS.eq_8] at h
  split at h
  · rename_i as ts gs h1 h2 h3
    cases h
    obtain ⟨t0, x, h4, h5⟩ := filter_sym h2 ho hc hq
    rw [h4]
    have hG := h5.before (a := [.sel (selList nm (gs ++ as) cols)])
    have : ∀ b, wraps (.sel (selList nm (gs ++ as) cols) :: (t0 ++ [.whr x]) ++ b) = true := by
      intro b
      have := wraps_good hG (x := .whr x) (b := b) ⟨_, rfl⟩
      simpa using this
    exact this _
  · simp at h

theorem wraps_order {nm : Col → Nm} {w : WMap} {s : Scan} {items : List OrdItem} {cols : List Col} {t : List Tok}
    (h : fmtS nm w (.order s items cols) = some t) (ho : okS nm w s) (hl : leftOk s = true) (hc : calm s = true) :
    wraps t = true := by
  simp only [fmtS] at h
  split at h
  · simp at h
  rename_i ts h2
  cases h
  have hG := (good_formatInput (flat_good h2 ho hl hc)).before (a := [.sel (selList nm [] cols)])
  have := wraps_good (b := []) hG (x := .orderBy (items.flatMap (ordTerms nm))) ⟨_, rfl⟩
  simpa using this

theorem good_sets {nm : Col → Nm} {gs as : List (Col × Item)} {cols : List Col} {t : List Tok} {ts : List OTerm} (ht : Good t) :
    ∀ sets : List (List Col), sets ≠ [] → ∃ a x b, fmtGSets nm gs as cols t sets ++ [.orderBy ts] = a ++ x :: b ∧ Good a ∧
      ∃ z, symT x = .tk :: z
  | [], h => absurd rfl h
  | set :: sets, _ => by
    have hG : Good (.sel (selList nm (maskItems nm set gs ++ as) cols) :: t) :=
      ht.before (a := [.sel (selList nm (maskItems nm set gs ++ as) cols)])
    rw [sets_append]
    cases set with
    | cons c cs => exact ⟨_, .groupBy ((c :: cs).map nm), _, rfl, hG, _, rfl⟩
    | nil =>
      cases sets with
      | nil => exact ⟨_, .orderBy ts, [], rfl, hG, _, rfl⟩
      | cons st sts =>
        obtain ⟨a, x, b, h1, h2, h3⟩ := good_sets (nm := nm) (gs := gs) (as := as) (cols := cols) (ts := ts) ht
          (st :: sts) (by simp)
        refine ⟨.sel (selList nm (maskItems nm [] gs ++ as) cols) :: t ++ [.setop .unionAll] ++ a, x, b, ?_, h2.before, h3⟩
        cases hf : fmtGSets nm gs as cols t (st :: sts) with
        | nil => simp [fmtGSets] at hf
        | cons y ys =>
          rw [hf] at h1
          simp only [List.nil_append, List.cons_append, List.append_assoc, List.cons.injEq, true_and]
          rw [← h1]
          rfl

theorem wraps_gsets {nm : Col → Nm} {w : WMap} {s : Scan} {groups : CExprs} {aggs : Aggs} {set : List Col}
    {sets : List (List Col)} {cols : List Col} {t : List Tok} (h : fmtS nm w (.gsets s groups aggs set sets cols) = some t)
    (ho : okS nm w s) (hl : leftOk s = true) (hc : calm s = true) : wraps t = true := by
  simp only [fmtS] at h
  split at h
  · rename_i as ts gs h1 h2 h3
    cases h
    obtain ⟨a, x, b, h4, h5, h6⟩ := good_sets (nm := nm) (gs := gs) (as := as) (cols := cols)
      (ts := (ascending groups.cols).flatMap (ordTerms nm)) (good_formatInput (flat_good h2 ho hl hc)) (set :: sets) (by simp)
    rw [h4]
    exact wraps_good h5 h6
  · simp at h

/-- The rows of an analytic scan with an ORDER BY clause are put in parentheses, whatever its input. -/
theorem wraps_win {nm : Col → Nm} {w : WMap} {s : Scan} {ws : Wins} {cols : List Col} {t : List Tok}
    (h : fmtS nm w (.win s ws cols) = some t) (ho : ws.order ≠ []) : wraps t = true := by
  simp only [fmtS] at h
  split at h
  · simp at h
  rename_i ts h1
  split at h
  · simp at h
  rename_i its h2
  cases h
  have hg : Good [.num (formatInput ts)] := by
    refine ⟨?_, by simp [symTs, symT]⟩
    have h3 : Apart (symTs (formatInput ts) ++ [.cl]) := Apart.before (closedTs _) (by simp [Apart]) (by simp)
    simp only [symTs, symT, List.cons_append, List.append_nil, Apart, List.tail_cons]
    simp [h3]
  have hG := hg.before (a := [.sel (selList nm its cols), .from])
  cases hw : ws.order with
  | nil => exact absurd hw ho
  | cons i is =>
    have := wraps_good (b := []) hG (x := .orderBy ((i :: is).flatMap (ordTerms nm))) ⟨_, rfl⟩
    simpa using this

theorem wraps_project {nm : Col → Nm} {w : WMap} {s : Scan} {e : Expr} {exprs : CExprs} {cols : List Col} {t : List Tok}
    (h : fmtS nm w (.project (.filter s e) exprs cols) = some t) (ho : okS nm w (.filter s e)) (hc : calm s = true)
    (hq : isQuery s = false) : wraps t = true := by
  simp only [fmtS.eq_7] at h
  split at h
  · rename_i its ts h1 h2
    cases h
    obtain ⟨t0, x, h4, h5⟩ := filter_sym h2 ho hc hq
    rw [h4]
    have hG := h5.before (a := [.sel (selList nm its cols)])
    have := wraps_good (b := []) hG (x := .whr x) ⟨_, rfl⟩
    simpa using this
  · simp at h

end Verif.Query
