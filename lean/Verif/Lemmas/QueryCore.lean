import Verif.Lemmas.Query

/-!
# What the text of one SELECT means
-/

namespace Verif.Query

set_option linter.unusedSectionVars false

section
variable {V : Type} [DecidableEq V] (S : Sem V) (db : Db V) (nm : Col → Nm)

/-- The WITH queries are the common table expressions. -/
def RW (w : WMap) (we : WEnv V) (cte : CTE V) : Prop :=
  ∀ n rows, we n = some rows → ∃ ds, w n = some ds ∧ cte n = some (some (ds.map nm, rows)) ∧ Dist nm ds ∧
    ∀ r ∈ rows, r.length = ds.length

/-- No common table expression has the name of one of these tables. -/
def NoCte (ts : List TName) (cte : CTE V) : Prop := ∀ t ∈ ts, cte t = none

/-- After FROM, the text denotes these rows. -/
def FromF (q : SEnv V → List Tok → Option (Rel V)) (cte : CTE V) (envr : Env V) (envs : SEnv V) (w : Option SExpr)
    (t : List Tok) (h : List Nm) (rows : List (List V)) : Prop :=
  ∃ pt t0, t = t0 ++ (w.map Tok.whr).toList ∧
    (∀ rest, (∀ e r, rest ≠ .on e :: r) → pChain (t0 ++ rest) = pLoop pt rest) ∧
    ∀ items, AlFree nm envr items → evalFW S db q cte envs items (some pt) w = some (h, rows)

/-- The text denotes these rows: as a query if it begins with SELECT or WITH, and else after FROM. -/
def Den (q : SEnv V → List Tok → Option (Rel V)) (cte : CTE V) (envr : Env V) (envs : SEnv V) (s : Scan) (t : List Tok)
    (rows : List (List V)) : Prop :=
  (startsSel t = true → q envs t = some (s.cols.map nm, rows)) ∧
  (startsSel t = false → ∃ w, (leftOk s = true → w = none) ∧ FromF S db nm q cte envr envs w t (s.cols.map nm) rows)

theorem startsSel_cons {t : List Tok} (h : startsSel t = true) : ∃ x r, t = x :: r ∧ x ≠ .from := by
  match t with
  | [] => simp [startsSel] at h
  | .sel is :: r => exact ⟨_, _, rfl, by simp⟩
  | .withs is :: r => exact ⟨_, _, rfl, by simp⟩
  | .from :: r | .whr _ :: r | .groupBy _ :: r | .orderBy _ :: r | .limit _ :: r | .offset _ :: r | .setop _ :: r |
    .join _ :: r | .on _ :: r | .tbl _ :: r | .each _ :: r | .grp _ :: r | .num _ :: r => simp [startsSel] at h

/-- `getInputPattern` for a text that is not empty and does not begin with FROM. -/
theorem formatInput_ne {x : Tok} (r : List Tok) (h : x ≠ .from) : formatInput (x :: r) = .from :: joinInput (x :: r) := by
  have : formatInput (x :: r) = if startsSel (x :: r) then [.from, .grp (x :: r)] else .from :: x :: r := by
    cases x <;> first | exact absurd rfl h | rfl
  rw [this, joinInput]
  split <;> rfl

theorem trefOf_ne {x : Tok} {t : Tref} (h : trefOf x = some t) : x ≠ .from := by
  cases x <;> simp [trefOf] at h <;> simp

variable {S db nm}

theorem FromF.cons {q : SEnv V → List Tok → Option (Rel V)} {cte : CTE V} {envr : Env V} {envs : SEnv V}
    {w : Option SExpr} {t : List Tok} {h : List Nm} {rows : List (List V)}
    (hf : FromF S db nm q cte envr envs w t h rows) : ∃ x r, t = x :: r ∧ x ≠ .from := by
  obtain ⟨pt, t0, rfl, hp, _⟩ := hf
  have h0 := hp [] (by simp)
  rw [List.append_nil] at h0
  have h1 : pLoop pt [] = some (pt, []) := by simp [pLoop]
  rw [h1] at h0
  match t0 with
  | [] => simp [pChain] at h0
  | x :: r =>
    refine ⟨x, r ++ (w.map Tok.whr).toList, rfl, ?_⟩
    simp only [pChain] at h0
    split at h0
    · rename_i t ht
      exact trefOf_ne ht
    · exact absurd h0 (by simp)

theorem Den.formatInput {q : SEnv V → List Tok → Option (Rel V)} {cte : CTE V} {envr : Env V} {envs : SEnv V}
    {s : Scan} {t : List Tok} {rows : List (List V)} (hd : Den S db nm q cte envr envs s t rows) :
    formatInput t = .from :: joinInput t := by
  cases hs : startsSel t with
  | true =>
    obtain ⟨x, r, rfl, hx⟩ := startsSel_cons hs
    exact formatInput_ne r hx
  | false =>
    obtain ⟨w, _, hf⟩ := hd.2 hs
    obtain ⟨x, r, rfl, hx⟩ := hf.cons
    exact formatInput_ne r hx

/-- The text, in parentheses if it is a query, after FROM. -/
theorem Den.from {q : SEnv V → List Tok → Option (Rel V)} {cte : CTE V} {envr : Env V} {envs : SEnv V}
    {s : Scan} {t : List Tok} {rows : List (List V)} (hd : Den S db nm q cte envr envs s t rows) :
    ∃ w, (leftOk s = true → w = none) ∧ FromF S db nm q cte envr envs w (joinInput t) (s.cols.map nm) rows := by
  cases hs : startsSel t with
  | true =>
    have hq := hd.1 hs
    refine ⟨none, fun _ => rfl, .leaf (.grp t), [.grp t], ?_, fun rest _ => ?_, fun items _ => ?_⟩
    · simp [joinInput, hs]
    · simp [pChain, trefOf]
    · simp only [evalFW, evalPT, evalTref, hs, if_true, hq]
  | false =>
    obtain ⟨w, hw, hf⟩ := hd.2 hs
    refine ⟨w, hw, ?_⟩
    simpa [joinInput, hs] using hf

/-! ## Parsing -/

/-- What may follow the text after FROM. -/
def Stop (tl : List Tok) : Prop := (∀ k r, tl ≠ .join k :: r) ∧ (∀ e r, tl ≠ .whr e :: r) ∧ (∀ e r, tl ≠ .on e :: r)

theorem pLoop_stop (pt : PT) {tl : List Tok} (h : ∀ k r, tl ≠ .join k :: r) : pLoop pt tl = some (pt, tl) := by
  match tl with
  | [] => simp [pLoop]
  | .join k :: r => exact absurd rfl (h k r)
  | .sel _ :: r | .withs _ :: r | .from :: r | .whr _ :: r | .groupBy _ :: r | .orderBy _ :: r | .limit _ :: r |
    .offset _ :: r | .setop _ :: r | .on _ :: r | .tbl _ :: r | .each _ :: r | .grp _ :: r | .num _ :: r => simp [pLoop]

theorem pWhere_stop {tl : List Tok} (h : ∀ e r, tl ≠ .whr e :: r) : pWhere tl = (none, tl) := by
  unfold pWhere
  split
  · rename_i e r
    exact absurd rfl (h e r)
  · rfl

theorem pCore_from {items : List Item} (hi : items ≠ []) {t0 : List Tok} {pt : PT} (w : Option SExpr)
    (hp : ∀ rest, (∀ e r, rest ≠ .on e :: r) → pChain (t0 ++ rest) = pLoop pt rest) {tl : List Tok} (hs : Stop tl) :
    pCore (.sel items :: .from :: (t0 ++ (w.map Tok.whr).toList ++ tl)) =
      some (⟨items, some pt, w, (pGroup tl).1⟩, (pGroup tl).2) := by
  have he : items.isEmpty = false := by cases items <;> simp_all
  have hl : pLoop pt ((w.map Tok.whr).toList ++ tl) = some (pt, (w.map Tok.whr).toList ++ tl) := by
    apply pLoop_stop
    intro k r
    cases w with
    | none => simpa using hs.1 k r
    | some e => simp
  have hw : pWhere ((w.map Tok.whr).toList ++ tl) = (w, tl) := by
    cases w with
    | none => simpa using pWhere_stop hs.2.1
    | some e => simp [pWhere]
  have ho : ∀ e r, (w.map Tok.whr).toList ++ tl ≠ .on e :: r := by
    intro e r
    cases w with
    | none => simpa using hs.2.2 e r
    | some e => simp
  simp only [pCore, he, pFrom, List.append_assoc, hp _ ho, hl, Option.map_some, hw]
  rfl

theorem pCore_nofrom {items : List Item} (hi : items ≠ []) (w : Option SExpr) :
    pCore (.sel items :: (w.map Tok.whr).toList) = some (⟨items, none, w, []⟩, []) := by
  have he : items.isEmpty = false := by cases items <;> simp_all
  cases w with
  | none => simp [pCore, he, pFrom, pWhere, pGroup]
  | some e => simp [pCore, he, pFrom, pWhere, pGroup]

/-- The end of a query: GROUP BY, ORDER BY, LIMIT, OFFSET. -/
def tail (g : List Nm) (o : List OTerm) (l : Option (Nat × Option Nat)) : List Tok :=
  (if g = [] then [] else [.groupBy g]) ++ ((if o = [] then [] else [.orderBy o]) ++
    match l with
    | none => []
    | some (n, m) => .limit n :: m.toList.map Tok.offset)

theorem tail_stop (g : List Nm) (o : List OTerm) (l : Option (Nat × Option Nat)) : Stop (tail g o l) := by
  refine ⟨?_, ?_, ?_⟩ <;>
  · intro k r h
    unfold tail at h
    split at h
    · split at h
      · split at h <;> simp at h
      · simp at h
    · simp at h

theorem pGroup_tail (g : List Nm) (o : List OTerm) (l : Option (Nat × Option Nat)) :
    pGroup (tail g o l) = (g, tail [] o l) := by
  unfold tail
  by_cases hg : g = []
  · subst hg
    simp only [if_true, List.nil_append]
    split
    · split <;> simp [pGroup]
    · simp [pGroup]
  · simp [hg, pGroup]

theorem pMore_tail (n : Nat) (o : List OTerm) (l : Option (Nat × Option Nat)) :
    pMore n (tail [] o l) = some ([], tail [] o l) := by
  unfold tail
  simp only [if_true, List.nil_append]
  split
  · split <;> cases n <;> simp [pMore]
  · cases n <;> simp [pMore]

theorem pOrder_tail (o : List OTerm) (l : Option (Nat × Option Nat)) :
    pOrder (tail [] o l) = (o, tail [] [] l) := by
  unfold tail
  by_cases ho : o = []
  · subst ho
    simp only [if_true, List.nil_append]
    split <;> simp [pOrder]
  · simp [ho, pOrder]

theorem pLimit_tail (l : Option (Nat × Option Nat)) :
    pLimit (tail [] [] l) = (l.map (·.1), l.bind (·.2), []) := by
  unfold tail
  simp only [if_true, List.nil_append]
  match l with
  | none => simp [pLimit]
  | some (n, none) => simp [pLimit]
  | some (n, some m) => simp [pLimit]

/-- The names and rows of a SELECT without WITH and set operations. -/
def finish (S : Sem V) (o : List OTerm) (l : Option (Nat × Option Nat))
    (x : Option (List Nm × List (List V × SEnv V))) : Option (Rel V) :=
  match x with
  | none => none
  | some (h, rows) => match evalOrder S o h rows with
    | none => none
    | some rows => some (h, limited ((l.map (·.1)).map S.count) ((l.bind (·.2)).map S.count) rows)

theorem evalQ_core {n : Nat} {cte : CTE V} {envs : SEnv V} {ts : List Tok} {c : Core} {o : List OTerm}
    {l : Option (Nat × Option Nat)} (hc : pCore ts = some (c, tail [] o l)) (hw : ∀ es r, ts ≠ .withs es :: r) :
    evalQ S db (n + 1) cte envs ts = finish S o l (evalCore S db (evalQ S db n cte) cte envs c) := by
  have hb : pBody [] ts = some ⟨[], c, [], o, l.map (·.1), l.bind (·.2)⟩ := by
    simp only [pBody, hc, pMore_tail, pOrder_tail, pLimit_tail]
  have hq : pQuery ts = some ⟨[], c, [], o, l.map (·.1), l.bind (·.2)⟩ := by
    unfold pQuery
    split
    · rename_i es r
      exact absurd rfl (hw es r)
    · exact hb
  simp only [evalQ, evalBody, hq, List.foldl_nil, evalCtes]
  unfold finish
  cases evalCore S db (evalQ S db n cte) cte envs c with
  | none => rfl
  | some x => rfl

/-- One SELECT over a FROM clause. -/
theorem evalQ_sel {n : Nat} {cte : CTE V} {envr : Env V} {envs : SEnv V} {w : Option SExpr} {t : List Tok} {h : List Nm}
    {rows : List (List V)} (hf : FromF S db nm (evalQ S db n cte) cte envr envs w t h rows) {items : List Item}
    (hi : items ≠ []) (hal : AlFree nm envr items) (g : List Nm) (o : List OTerm) (l : Option (Nat × Option Nat)) :
    evalQ S db (n + 1) cte envs (.sel items :: .from :: (t ++ tail g o l)) =
      finish S o l (evalRows S (evalQ S db n cte) envs items g h rows) := by
  obtain ⟨pt, t0, rfl, hp, he⟩ := hf
  have hc := pCore_from hi w hp (tail_stop g o l)
  rw [pGroup_tail] at hc
  rw [evalQ_core hc (by intro es r; simp)]
  simp only [evalCore, he items hal]

/-- One SELECT without FROM. -/
theorem evalQ_nofrom {n : Nat} {cte : CTE V} {envs : SEnv V} {items : List Item} (hi : items ≠ []) (w : Option SExpr) :
    evalQ S db (n + 1) cte envs (.sel items :: (w.map Tok.whr).toList) =
      finish S [] none (evalCore S db (evalQ S db n cte) cte envs ⟨items, none, w, []⟩) := by
  have hc := pCore_nofrom hi w
  exact evalQ_core (o := []) (l := none) hc (by intro es r; simp)

/-! ## SELECT lists -/

def shapeC (nm : Col → Nm) : List Col → List SExpr → List (Col × Item)
  | c :: cs, x :: xs => (c, .ex x (some (nm c))) :: shapeC nm cs xs
  | _, _ => []

def shapeA (nm : Col → Nm) : List Col → List (Nat × List SExpr) → List (Col × Item)
  | c :: cs, x :: xs => (c, .agg x.1 x.2 (some (nm c))) :: shapeA nm cs xs
  | _, _ => []

theorem findItem_append (a b : List (Col × Item)) (c : Col) :
    findItem (a ++ b) c = (findItem a c).or (findItem b c) := by
  induction a with
  | nil => simp [findItem]
  | cons x xs ih =>
    obtain ⟨d, i⟩ := x
    simp only [List.cons_append, findItem]
    split
    · simp
    · exact ih

/-- The name of an entry. -/
theorem selList_hdr (h : List Nm) {its : List (Col × Item)}
    (hits : ∀ x ∈ its, itemHdr h x.2 = [nm x.1]) (cols : List Col) :
    (selList nm its cols).flatMap (itemHdr h) = cols.map nm := by
  induction cols with
  | nil => rfl
  | cons c cs ih =>
    simp only [selList, List.map_cons, List.flatMap_cons] at ih ⊢
    rw [ih]
    have : itemHdr h ((findItem its c).getD (.ex (.name (nm c)) none)) = [nm c] := by
      cases hf : findItem its c with
      | none => rfl
      | some i =>
        have : ∀ (l : List (Col × Item)), findItem l c = some i → (c, i) ∈ l := by
          intro l
          induction l with
          | nil => simp [findItem]
          | cons x xs ih =>
            obtain ⟨d, j⟩ := x
            simp only [findItem]
            split
            · rename_i hd
              intro he
              cases he
              subst hd
              exact List.mem_cons_self ..
            · intro he
              exact List.mem_cons_of_mem _ (ih he)
        exact hits _ (this its hf)
    rw [this]
    rfl

theorem shapeC_hdr (h : List Nm) : ∀ (cs : List Col) (xs : List SExpr), ∀ x ∈ shapeC nm cs xs, itemHdr h x.2 = [nm x.1]
  | [], _, x, hx => by simp [shapeC] at hx
  | _ :: _, [], x, hx => by simp [shapeC] at hx
  | c :: cs, y :: ys, x, hx => by
    simp only [shapeC, List.mem_cons] at hx
    rcases hx with rfl | hx
    · rfl
    · exact shapeC_hdr h cs ys x hx

theorem shapeA_hdr (h : List Nm) : ∀ (cs : List Col) (xs : List (Nat × List SExpr)), ∀ x ∈ shapeA nm cs xs,
    itemHdr h x.2 = [nm x.1]
  | [], _, x, hx => by simp [shapeA] at hx
  | _ :: _, [], x, hx => by simp [shapeA] at hx
  | c :: cs, y :: ys, x, hx => by
    simp only [shapeA, List.mem_cons] at hx
    rcases hx with rfl | hx
    · rfl
    · exact shapeA_hdr h cs ys x hx

theorem evalXs_cons {q : SEnv V → List Tok → Option (Rel V)} {env : SEnv V} {e : SExpr} {es : List SExpr} {r : List V}
    (h : evalXs S q env (e :: es) = some r) : ∃ v vs, evalX S q env e = some v ∧ evalXs S q env es = some vs ∧ r = v :: vs := by
  unfold evalXs at h
  split at h
  · rename_i v vs h1 h2
    exact ⟨v, vs, h1, h2, (Option.some.inj h).symm⟩
  · exact absurd h (by simp)

theorem evalXs_cons' {q : SEnv V → List Tok → Option (Rel V)} {env : SEnv V} {e : SExpr} {es : List SExpr} {v : V}
    {vs : List V} (h1 : evalX S q env e = some v) (h2 : evalXs S q env es = some vs) :
    evalXs S q env (e :: es) = some (v :: vs) := by
  rw [evalXs, h1, h2]

/-- A computed column's entry has the column's value. -/
theorem shapeC_find {q : SEnv V → List Tok → Option (Rel V)} {env : SEnv V} : ∀ {cs : List Col} {xs : List SExpr}
    {vs : List V}, xs.length = cs.length → evalXs S q env xs = some vs → ∀ c,
    (c ∉ cs ∧ findItem (shapeC nm cs xs) c = none) ∨
    (∃ x v, findItem (shapeC nm cs xs) c = some (.ex x (some (nm c))) ∧ evalX S q env x = some v ∧ lk cs vs c = some v)
  | [], xs, vs, _, _, c => Or.inl ⟨by simp, by cases xs <;> rfl⟩
  | d :: cs, [], vs, hl, _, c => by simp at hl
  | d :: cs, x :: xs, vs, hl, he, c => by
    obtain ⟨v, vs', h1, h2, rfl⟩ := evalXs_cons he
    by_cases hd : d = c
    · subst hd
      exact Or.inr ⟨x, v, by simp [shapeC, findItem], h1, by simp [lk]⟩
    · rcases shapeC_find (cs := cs) (xs := xs) (by simpa using hl) h2 c with h | ⟨y, u, h3, h4, h5⟩
      · exact Or.inl ⟨by simp [Ne.symm hd, h.1], by simp [shapeC, findItem, hd, h.2]⟩
      · exact Or.inr ⟨y, u, by simp [shapeC, findItem, hd, h3], h4, by simp [lk, hd, h5]⟩

theorem lk_append_left {α : Type} [DecidableEq α] : ∀ {a b : List α} {vs us : List V} {c : α} {v : V},
    lk a vs c = some v → lk (a ++ b) (vs ++ us) c = some v
  | [], _, _, _, _, _, h => by simp [lk] at h
  | _ :: _, _, [], _, _, _, h => by simp [lk] at h
  | x :: xs, b, u :: us, ws, c, v, h => by
    simp only [lk] at h
    simp only [List.cons_append, lk]
    split
    · rename_i hx
      rw [if_pos hx] at h
      exact h
    · rename_i hx
      rw [if_neg hx] at h
      exact lk_append_left h

theorem lk_append_right {α : Type} [DecidableEq α] : ∀ {a b : List α} {vs us : List V} {c : α},
    vs.length = a.length → c ∉ a → lk (a ++ b) (vs ++ us) c = lk b us c
  | [], b, vs, us, c, hl, _ => by
    have : vs = [] := by simpa using hl
    subst this
    rfl
  | x :: xs, b, [], us, c, hl, _ => by simp at hl
  | x :: xs, b, v :: vs, us, c, hl, hc => by
    simp only [List.mem_cons, not_or] at hc
    simp only [List.cons_append, lk, if_neg (Ne.symm hc.1)]
    exact lk_append_right (by simpa using hl) hc.2

theorem evalXs_length {q : SEnv V → List Tok → Option (Rel V)} {env : SEnv V} : ∀ {xs : List SExpr} {vs : List V},
    evalXs S q env xs = some vs → vs.length = xs.length
  | [], vs, h => by
    simp only [evalXs, Option.some.injEq] at h
    subst h
    rfl
  | x :: xs, vs, h => by
    obtain ⟨v, vs', h1, h2, rfl⟩ := evalXs_cons h
    simp [evalXs_length h2]

/-- The SELECT list of a projection has the values of its columns. -/
theorem selList_val {q : SEnv V → List Tok → Option (Rel V)} {envs : SEnv V} {h : List Col} {a : List V}
    (hinj : ∀ c ∈ h, ∀ d ∈ h, nm c = nm d → c = d) {cs : List Col} {xs : List SExpr} {vs : List V}
    (hl : xs.length = cs.length) (he : evalXs S q (bindR (h.map nm) a envs) xs = some vs) :
    ∀ {cols : List Col} {r : List V}, pick (cs ++ h) (vs ++ a) cols = some r →
      mapO (itemVal S q envs (h.map nm) a) (selList nm (shapeC nm cs xs) cols) = some (r.map fun v => [v])
  | [], r, hp => by
    simp only [pick, mapO, Option.some.injEq] at hp
    subst hp
    rfl
  | c :: cols, r, hp => by
    obtain ⟨v, vs', h1, h2, rfl⟩ := mapO_cons hp
    have ih := selList_val hinj hl he h2
    refine mapO_cons' (b := [v]) ?_ ih
    show itemVal S q envs (h.map nm) a ((findItem (shapeC nm cs xs) c).getD (.ex (.name (nm c)) none)) = _
    rcases shapeC_find (nm := nm) hl he c with ⟨hc, hf⟩ | ⟨x, u, hf, hx, hu⟩
    · rw [hf]
      rw [lk_append_right (by rw [evalXs_length he, hl]) hc] at h1
      simp only [Option.getD_none, itemVal, evalX, bindR, lk_map h1 hinj, Option.map_some]
    · rw [hf]
      rw [lk_append_left hu] at h1
      cases h1
      simp only [Option.getD_some, itemVal, hx, Option.map_some]

theorem flatten_single (r : List V) : (r.map fun v => [v]).flatten = r := by
  induction r with
  | nil => rfl
  | cons v vs ih => simp [ih]

theorem selList_noAgg {its : List (Col × Item)} (h : ∀ x ∈ its, isAgg x.2 = false) (cols : List Col) :
    (selList nm its cols).any isAgg = false := by
  have hf : ∀ (l : List (Col × Item)), (∀ x ∈ l, isAgg x.2 = false) → ∀ c i, findItem l c = some i → isAgg i = false := by
    intro l hl c i
    induction l with
    | nil => simp [findItem]
    | cons x xs ih =>
      obtain ⟨d, j⟩ := x
      simp only [findItem]
      split
      · intro he
        cases he
        exact hl (d, i) (List.mem_cons_self ..)
      · exact ih fun x hx => hl x (List.mem_cons_of_mem _ hx)
  rw [List.any_eq_false]
  intro i hi
  simp only [selList, List.mem_map] at hi
  obtain ⟨c, _, rfl⟩ := hi
  cases hc : findItem its c with
  | none => simp [isAgg]
  | some i => simp [hf its h c i hc]

theorem shapeC_noAgg : ∀ (cs : List Col) (xs : List SExpr), ∀ x ∈ shapeC nm cs xs, isAgg x.2 = false
  | [], _, x, hx => by simp [shapeC] at hx
  | _ :: _, [], x, hx => by simp [shapeC] at hx
  | c :: cs, y :: ys, x, hx => by
    simp only [shapeC, List.mem_cons] at hx
    rcases hx with rfl | hx
    · rfl
    · exact shapeC_noAgg cs ys x hx

theorem selList_ne {its : List (Col × Item)} {cols : List Col} (h : cols ≠ []) : selList nm its cols ≠ [] := by
  cases cols with
  | nil => exact absurd rfl h
  | cons c cs => simp [selList]
end

end Verif.Query
