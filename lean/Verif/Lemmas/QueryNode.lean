import Verif.Lemmas.QuerySelect

/-!
# The nodes of a query: what the text of each denotes, given its parts
-/

namespace Verif.Query

set_option linter.unusedSectionVars false

/-! ## The columns and the texts of scans -/

theorem ccols_sub : ∀ (es : CExprs) (c : Col), c ∈ es.cols → c ∈ intCs es
  | .nil, c, hc => by simp [CExprs.cols] at hc
  | .cons d e es, c, hc => by
    simp only [CExprs.cols, List.mem_cons] at hc
    simp only [intCs, List.mem_cons, List.mem_append]
    rcases hc with rfl | hc
    · exact Or.inl rfl
    · exact Or.inr (Or.inr (ccols_sub es c hc))

theorem acols_sub : ∀ (as : Aggs) (c : Col), c ∈ as.cols → c ∈ intAs as
  | .nil, c, hc => by simp [Aggs.cols] at hc
  | .cons d f e as, c, hc => by
    simp only [Aggs.cols, List.mem_cons] at hc
    simp only [intAs, List.mem_cons, List.mem_append]
    rcases hc with rfl | hc
    · exact Or.inl rfl
    · exact Or.inr (Or.inr (acols_sub as c hc))

theorem wcols_sub : ∀ (ws : Wins) (c : Col), c ∈ ws.cols → c ∈ intFs ws
  | .nil, c, hc => by simp [Wins.cols] at hc
  | .cons d f e _ _ ws, c, hc => by
    simp only [Wins.cols, List.mem_cons] at hc
    simp only [intFs, List.mem_cons, List.mem_append]
    rcases hc with rfl | hc
    · exact Or.inl rfl
    · exact Or.inr (Or.inr (wcols_sub ws c hc))

theorem ccols_sublist : ∀ (es : CExprs), es.cols.Sublist (intCs es)
  | .nil => List.Sublist.slnil
  | .cons d e es => by
    simp only [CExprs.cols, intCs]
    exact ((ccols_sublist es).trans (List.sublist_append_right ..)).cons_cons d

/-- A scan's columns are introduced by it. -/
theorem cols_sub (nm : Col → Nm) : ∀ (w : WMap) (s : Scan), okS nm w s → ∀ c ∈ s.cols, c ∈ intS s
  | w, .single, h, c, hc => by simp [okS] at h
  | w, .table t cols, h, c, hc => hc
  | w, .ref t cols, h, c, hc => hc
  | w, .join k l r on, h, c, hc => by
    simp only [okS] at h
    simp only [Scan.cols, List.mem_append] at hc
    simp only [intS, List.mem_append]
    rcases hc with hc | hc
    · exact Or.inl (cols_sub nm w l h.1 c hc)
    · exact Or.inr (Or.inl (cols_sub nm w r h.2.1 c hc))
  | w, .unnest e elem off, h, c, hc => by
    simp only [intS, List.mem_append]
    exact Or.inr hc
  | w, .array s e elem off on outer, h, c, hc => by
    simp only [okS] at h
    simp only [Scan.cols, List.mem_append] at hc
    simp only [intS, List.mem_append]
    rcases hc with hc | hc
    · exact Or.inl (cols_sub nm w s h.1 c hc)
    · exact Or.inr (Or.inr (Or.inl hc))
  | w, .filter s e, h, c, hc => by
    simp only [okS] at h
    simp only [intS, List.mem_append]
    exact Or.inl (cols_sub nm w s h.1 c hc)
  | w, .project s exprs cols, h, c, hc => by
    simp only [okS] at h
    simp only [intS, List.mem_append]
    rcases h.2.2.2 c hc with hc | hc
    · exact Or.inr (ccols_sub exprs c hc)
    · rcases h.1 with hs | hs
      · subst hs
        simp [Scan.cols] at hc
      · exact Or.inl (cols_sub nm w s hs c hc)
  | w, .agg s groups aggs cols, h, c, hc => by
    simp only [okS] at h
    simp only [intS, List.mem_append]
    rcases h.2.2.2.2.1 c hc with hc | hc
    · exact Or.inr (Or.inl (ccols_sub groups c hc))
    · exact Or.inr (Or.inr (acols_sub aggs c hc))
  | w, .setop o items cols, h, c, hc => by
    simp only [intS, List.mem_append]
    exact Or.inr hc
  | w, .order s items cols, h, c, hc => by
    simp only [okS] at h
    exact cols_sub nm w s h.1 c (h.2.2.2.1 c hc)
  | w, .limit s n off cols, h, c, hc => by
    simp only [okS] at h
    exact cols_sub nm w s h.1 c (h.2.2 c hc)
  | w, .with_ es body, h, c, hc => by
    simp only [okS] at h
    simp only [intS, List.mem_append]
    exact Or.inr (cols_sub nm _ body h.2.2.2.2.2.2 c hc)
  | w, .gsets s groups aggs set sets cols, h, c, hc => by
    simp only [okS] at h
    simp only [intS, List.mem_append]
    rcases h.2.2.2.2.1 c hc with hc | hc
    · exact Or.inr (Or.inl (ccols_sub groups c hc))
    · exact Or.inr (Or.inr (acols_sub aggs c hc))
  | w, .win s ws cols, h, c, hc => by
    simp only [okS] at h
    simp only [intS, List.mem_append]
    rcases h.2.2.2.1 c hc with hc | hc
    · exact Or.inr (wcols_sub ws c hc)
    · exact Or.inl (cols_sub nm w s h.1 c hc)

/-- Which scans are translated to a text which begins with SELECT or WITH. -/
theorem isQuery_sel {nm : Col → Nm} {w : WMap} {s : Scan} {t : List Tok} (h : fmtS nm w s = some t)
    (hq : isQuery s = true) : startsSel t = true := by
  cases s with
  | single => simp [isQuery] at hq
  | table t' cols => simp [isQuery] at hq
  | ref t' cols => simp [isQuery] at hq
  | join k l r on => simp [isQuery] at hq
  | filter s e => simp [isQuery] at hq
  | unnest e elem off =>
    simp only [fmtS] at h
    split at h
    · simp at h
    · cases h
      rfl
  | array s e elem off on outer =>
    simp only [fmtS] at h
    split at h
    · cases h
      rfl
    · simp at h
  | project s exprs cols =>
    simp only [fmtS] at h
    split at h
    · cases h
      rfl
    · simp at h
  | agg s groups aggs cols =>
    simp only [fmtS] at h
    split at h
    · cases h
      rfl
    · simp at h
  | setop o items cols =>
    simp only [fmtS] at h
    split at h
    · simp at h
    · cases h
      rfl
  | order s items cols =>
    simp only [fmtS] at h
    split at h
    · simp at h
    · cases h
      rfl
  | limit s n off cols =>
    simp only [fmtS] at h
    split at h
    · simp at h
    · cases h
      rfl
  | with_ es body =>
    simp only [fmtS] at h
    split at h
    · simp at h
    · split at h
      · simp at h
      · cases h
        rfl
  | gsets s groups aggs set sets cols =>
    simp only [fmtS] at h
    split at h
    · cases h
      rfl
    · simp at h
  | win s ws cols =>
    simp only [fmtS] at h
    split at h
    · simp at h
    · split at h
      · simp at h
      · cases h
        rfl

theorem joinInput_nosel (t : List Tok) (x : Tok) (r : List Tok) (hx : startsSel (x :: r) = false) :
    startsSel (joinInput t ++ x :: r) = false := by
  unfold joinInput
  split
  · rfl
  · rename_i h
    match t with
    | [] => simpa using hx
    | y :: ys =>
      cases y <;> first | rfl | simp [startsSel] at h

theorem sel_isQuery {nm : Col → Nm} {w : WMap} {s : Scan} {t : List Tok} (h : fmtS nm w s = some t)
    (hl : leftOk s = true) (hs : startsSel t = true) : isQuery s = true := by
  cases s with
  | single => simp [leftOk] at hl
  | filter s e => simp [leftOk] at hl
  | table t' cols =>
    simp only [fmtS, Option.some.injEq] at h
    subst h
    simp [startsSel] at hs
  | ref t' cols =>
    simp only [fmtS] at h
    split at h
    · simp at h
    · split at h
      · cases h
        simp [startsSel] at hs
      · simp at h
  | join k l r on =>
    simp only [fmtS] at h
    split at h
    · cases h
      rw [joinInput_nosel _ _ _ rfl] at hs
      exact absurd hs (by simp)
    · split at h
      · simp at h
      · cases h
        rw [List.append_assoc, List.cons_append, joinInput_nosel _ _ _ rfl] at hs
        exact absurd hs (by simp)
    · simp at h
  | unnest e elem off => rfl
  | array s e elem off on outer => rfl
  | project s exprs cols => rfl
  | agg s groups aggs cols => rfl
  | setop o items cols => rfl
  | order s items cols => rfl
  | limit s n off cols => rfl
  | with_ es body => rfl
  | gsets s groups aggs set sets cols => rfl
  | win s ws cols => rfl

/-! ## What is shown of each node -/

section
variable {V : Type} [DecidableEq V] {S : Sem V} {db : Db V} {nm : Col → Nm}

/-- The text of a scan denotes the scan's rows. -/
structure Fin (S : Sem V) (db : Db V) (nm : Col → Nm) (n : Nat) (cte : CTE V) (envr : Env V) (envs : SEnv V) (s : Scan)
    (t : List Tok) (rows : List (List V)) : Prop where
  den : Den S db nm (evalQ S db n cte) cte envr envs s t rows
  bareF : bare s = true → ∃ m, n = m + 1 ∧ BareF S db nm (evalQ S db m cte) cte envr envs s t rows
  one : rightOk s = true → ∃ ts, joinInput t = [.grp ts] ∧ startsSel ts = true ∧
    evalQ S db n cte envs ts = some (s.cols.map nm, rows)
  len : ∀ r ∈ rows, r.length = s.cols.length

def GE (S : Sem V) (db : Db V) (nm : Col → Nm) (e : Expr) : Prop :=
  ∀ w x, fmtE nm w e = some x → okE nm w e → ∃ N, ∀ n, N ≤ n → ∀ we cte envr envs,
    Ctx nm w we cte envr envs (intE e) (tabE e) → ∀ v, evalE S db we envr e = some v →
    evalX S (evalQ S db n cte) envs x = some v

def GEs (S : Sem V) (db : Db V) (nm : Col → Nm) (e : Exprs) : Prop :=
  ∀ w x, fmtEs nm w e = some x → okEs nm w e → ∃ N, ∀ n, N ≤ n → ∀ we cte envr envs,
    Ctx nm w we cte envr envs (intEs e) (tabEs e) → ∀ v, evalEs S db we envr e = some v →
    evalXs S (evalQ S db n cte) envs x = some v

def GO (S : Sem V) (db : Db V) (nm : Col → Nm) (e : OExpr) : Prop :=
  ∀ w x, fmtO nm w e = some x → okO nm w e → ∃ N, ∀ n, N ≤ n → ∀ we cte envr envs,
    Ctx nm w we cte envr envs (intO e) (tabO e) → ∀ v, evalO S db we envr e = some v →
    evalOn S (evalQ S db n cte) envs x = some v

def GCs (S : Sem V) (db : Db V) (nm : Col → Nm) (e : CExprs) : Prop :=
  ∀ w its, fmtCs nm w e = some its → okCs nm w e → ∃ xs, xs.length = e.cols.length ∧ its = shapeC nm e.cols xs ∧
    ∃ N, ∀ n, N ≤ n → ∀ we cte envr envs,
    Ctx nm w we cte envr envs (intCs e) (tabCs e) → ∀ v, evalCs S db we envr e = some v →
    evalXs S (evalQ S db n cte) envs xs = some v

/-- The value of an aggregate for rows with these scopes. -/
def aggVal (S : Sem V) (q : SEnv V → List Tok → Option (Rel V)) (envs : List (SEnv V)) (y : Nat × List SExpr) : Option V :=
  (mapO (fun p => evalXs S q p y.2) envs).map (S.agg y.1)

def GAs (S : Sem V) (db : Db V) (nm : Col → Nm) (e : Aggs) : Prop :=
  ∀ w its, fmtAs nm w e = some its → okAs nm w e → ∃ ys, ys.length = e.cols.length ∧ its = shapeA nm e.cols ys ∧
    ∃ N, ∀ n, N ≤ n → ∀ we cte, ∀ prs : List (Env V × SEnv V),
    (∀ p ∈ prs, Ctx nm w we cte p.1 p.2 (intAs e) (tabAs e)) → ∀ v, evalAs S db we (prs.map (·.1)) e = some v →
    mapO (aggVal S (evalQ S db n cte) (prs.map (·.2))) ys = some v

def GS (S : Sem V) (db : Db V) (nm : Col → Nm) (s : Scan) : Prop :=
  ∀ w t, fmtS nm w s = some t → okS nm w s → ∃ N, ∀ n, N ≤ n → ∀ we cte envr envs,
    Ctx nm w we cte envr envs (intS s) (tabS s) → ∀ rows, evalS S db we envr s = some rows →
    Fin S db nm n cte envr envs s t rows

variable {w : WMap} {we : WEnv V} {cte : CTE V} {envr : Env V} {envs : SEnv V}

theorem Fin.ofQuery {n : Nat} {s : Scan} {t : List Tok} {rows : List (List V)} (ht : startsSel t = true)
    (hq : evalQ S db n cte envs t = some (s.cols.map nm, rows)) (hb : bare s = true → ∃ m, n = m + 1 ∧
      BareF S db nm (evalQ S db m cte) cte envr envs s t rows) (hl : ∀ r ∈ rows, r.length = s.cols.length) :
    Fin S db nm n cte envr envs s t rows where
  den := ⟨fun _ => hq, fun h => by rw [ht] at h; exact absurd h (by simp)⟩
  bareF := hb
  one := fun _ => ⟨t, by simp [joinInput, ht], ht, hq⟩
  len := hl

theorem Fin.ofBare {m : Nat} {s : Scan} {t : List Tok} {rows : List (List V)}
    (hb : BareF S db nm (evalQ S db m cte) cte envr envs s t rows) (hl : ∀ r ∈ rows, r.length = s.cols.length) :
    Fin S db nm (m + 1) cte envr envs s t rows := by
  refine Fin.ofQuery ?_ hb.val (fun _ => ⟨m, rfl, hb⟩) hl
  obtain ⟨items, f, fh, L, _, _, ⟨r, rfl⟩, _⟩ := hb
  rfl

/-- A SELECT in parentheses. -/
theorem Fin.ofGrp {n : Nat} {s : Scan} {t : List Tok} {rows : List (List V)} (hb : bare s = false) (ht : startsSel t = true)
    (hq : evalQ S db n cte envs t = some (s.cols.map nm, rows)) (hl : ∀ r ∈ rows, r.length = s.cols.length) :
    Fin S db nm n cte envr envs s [.grp t] rows where
  den := by
    refine ⟨fun h => absurd h (by simp [startsSel]), fun _ => ⟨none, fun _ => rfl, .leaf (.grp t), [.grp t], rfl, ?_, ?_⟩⟩
    · intro rest _
      simp [pChain, trefOf]
    · intro items _
      simp only [evalFW, evalPT, evalTref, ht, if_true, hq]
  bareF := fun h => by rw [hb] at h; exact absurd h (by simp)
  one := fun _ => ⟨t, by simp [joinInput, startsSel], ht, hq⟩
  len := hl

theorem tail_none : tail [] [] none = [] := by simp [tail]

/-- A SELECT without aggregates over a FROM clause. -/
theorem sel_query {m : Nat} {wh : Option SExpr} {t : List Tok} {h : List Nm} {L : List (List V)}
    (hf : FromF S db nm (evalQ S db m cte) cte envr envs wh t h L) {items : List Item} (hi : items ≠ [])
    (hal : AlFree nm envr items) (hn : items.any isAgg = false) {out : List (List V)}
    (hm : mapO (fun a => (mapO (itemVal S (evalQ S db m cte) envs h a) items).map List.flatten) L = some out)
    (l : Option (Nat × Option Nat)) :
    evalQ S db (m + 1) cte envs (.sel items :: .from :: (t ++ tail [] [] l)) =
      some (items.flatMap (itemHdr h), limited ((l.map (·.1)).map S.count) ((l.bind (·.2)).map S.count) out) := by
  rw [evalQ_sel hf hi hal [] [] l, evalRows_sel hn hm, finish_plain (mapO_length hm)]

theorem bare_of_from {m : Nat} {s : Scan} {t : List Tok} {h : List Nm} {L rows : List (List V)}
    (hf : FromF S db nm (evalQ S db m cte) cte envr envs none t h L) {items : List Item} (hi : items ≠ [])
    (hal : AlFree nm envr items) (hn : items.any isAgg = false) (hlen : ∀ a ∈ L, a.length = h.length)
    (hok : ∀ i ∈ items, ItemOk h i) (hh : items.flatMap (itemHdr h) = s.cols.map nm)
    (hinj : ∀ c ∈ s.cols, ∀ d ∈ s.cols, nm c = nm d → c = d) (hr : Ref nm envr envs)
    (hfree : ∀ d, envr d ≠ none → nm d ∉ h)
    (hm : mapO (fun a => (mapO (itemVal S (evalQ S db m cte) envs h a) items).map List.flatten) L = some rows) :
    BareF S db nm (evalQ S db m cte) cte envr envs s (.sel items :: .from :: t) rows := by
  obtain ⟨pt, t0, ht, hp, he⟩ := hf
  simp only [Option.map_none, Option.toList_none, List.append_nil] at ht
  subst ht
  refine ⟨items, some pt, h, L, hn, fun w => ?_, ⟨_, rfl⟩, he items hal, hh, hm, fun a ha o ho => ?_⟩
  · have := pCore_from hi w hp (tl := []) ⟨by simp, by simp, by simp⟩
    rw [List.append_nil] at this
    exact this
  · cases hv : mapO (itemVal S (evalQ S db m cte) envs h a) items with
    | none => simp [hv] at ho
    | some os =>
      simp only [hv, Option.map_some, Option.some.injEq] at ho
      subst ho
      exact bare_ref (hlen a ha) hok hh hinj hr hal hfree hv

theorem map_flatten {o : Option (List (List V))} {r : List V} (h : o = some (r.map fun v => [v])) :
    o.map List.flatten = some r := by
  rw [h, Option.map_some, flatten_single]

/-! ## Tables -/

theorem lk_raw : ∀ {names : List (List Char)} {r : List V} {n : List Char},
    lk (names.map Nm.raw) r (.raw n) = lk names r n
  | [], _, _ => by simp [lk]
  | _ :: _, [], _ => by simp [lk]
  | x :: xs, v :: vs, n => by simp [lk, lk_raw]

theorem raw_val {q : SEnv V → List Tok → Option (Rel V)} {names : List (List Char)} {a : List V} :
    ∀ {cols : List Col} {r : List V}, mapO (fun c => lk names a c.name) cols = some r →
    mapO (itemVal S q envs (names.map Nm.raw) a)
      (cols.map fun c => .ex (.name (.raw c.name)) (some (nm c))) = some (r.map fun v => [v])
  | [], r, h => by
    simp only [mapO, Option.some.injEq] at h
    subst h
    rfl
  | c :: cs, r, h => by
    obtain ⟨v, vs, h1, h2, rfl⟩ := mapO_cons h
    refine mapO_cons' (b := [v]) ?_ (raw_val h2)
    show (bindR (names.map Nm.raw) a envs (.raw c.name)).map _ = _
    simp only [bindR, lk_raw]
    rw [h1]
    rfl

theorem map_noAgg {α : Type} (f : α → SExpr) (g : α → Option Nm) (l : List α) :
    (l.map fun x => Item.ex (f x) (g x)).any isAgg = false := by
  induction l with
  | nil => rfl
  | cons x xs ih => simpa [isAgg] using ih

theorem map_alIn {α : Type} (f : α → SExpr) (g : α → Col) (l : List α) (cs : List Col) (h : ∀ x ∈ l, g x ∈ cs) :
    AlIn nm cs (l.map fun x => Item.ex (f x) (some (nm (g x)))) := by
  intro e n hm
  obtain ⟨x, hx, he⟩ := List.mem_map.1 hm
  cases he
  exact ⟨g x, h x hx, rfl⟩

theorem gs_table (t : TName) (cols : List Col) : GS S db nm (.table t cols) := by
  intro w tx ht hok
  simp only [fmtS, Option.some.injEq] at ht
  subst ht
  simp only [okS] at hok
  refine ⟨1, fun n hn we cte envr envs hc rows he => ?_⟩
  obtain ⟨m, rfl⟩ : ∃ m, n = m + 1 := ⟨n - 1, by omega⟩
  simp only [evalS] at he
  split at he
  · simp at he
  rename_i names R hdb
  have hno : cte t = none := hc.no t (by simp [tabS])
  have hf : FromF S db nm (evalQ S db m cte) cte envr envs none [.tbl t] (names.map Nm.raw) R := by
    refine ⟨.leaf (.tbl t), [.tbl t], rfl, fun rest _ => by simp [pChain, trefOf], fun items _ => ?_⟩
    simp only [evalFW, evalPT, evalTref, hno, hdb, Option.map_some]
  have hal : AlFree nm envr (cols.map fun c => Item.ex (.name (.raw c.name)) (some (nm c))) :=
    (map_alIn _ (fun c => c) cols cols fun _ h => h).free hc.away
  have hm : mapO (fun a => (mapO (itemVal S (evalQ S db m cte) envs (names.map Nm.raw) a)
      (cols.map fun c => Item.ex (.name (.raw c.name)) (some (nm c)))).map List.flatten) R = some rows :=
    mapO_mono he fun a _ b hb => map_flatten (raw_val hb)
  have hq := sel_query hf (by simpa using hok) hal (map_noAgg _ _ _) hm none
  rw [tail_none, limited_none] at hq
  have hh : (cols.map fun c => Item.ex (.name (.raw c.name)) (some (nm c))).flatMap (itemHdr (names.map Nm.raw)) =
      cols.map nm := by
    rw [List.flatMap_map]
    simp only [itemHdr]
    exact (List.map_eq_flatMap ..).symm
  rw [hh] at hq
  refine Fin.ofGrp rfl rfl hq ?_
  exact mapO_length_of he fun a _ b hb => mapO_length hb

theorem gs_ref (n0 : TName) (cols : List Col) : GS S db nm (.ref n0 cols) := by
  intro w tx ht hok
  simp only [fmtS] at ht
  split at ht
  · simp at ht
  rename_i ds hds
  split at ht
  · rename_i hlen
    cases ht
    simp only [okS] at hok
    refine ⟨1, fun n hn we cte envr envs hc rows he => ?_⟩
    obtain ⟨m, rfl⟩ : ∃ m, n = m + 1 := ⟨n - 1, by omega⟩
    simp only [evalS] at he
    obtain ⟨ds', h1, h2, h3, h4⟩ := hc.rw n0 rows he
    rw [hds] at h1
    cases h1
    have hf : FromF S db nm (evalQ S db m cte) cte envr envs none [.tbl n0] (ds.map nm) rows := by
      refine ⟨.leaf (.tbl n0), [.tbl n0], rfl, fun rest _ => by simp [pChain, trefOf], fun items _ => ?_⟩
      simp only [evalFW, evalPT, evalTref, h2]
    have hal : AlFree nm envr ((ds.zip cols).map fun x => Item.ex (.name (nm x.1)) (some (nm x.2))) := by
      refine (map_alIn (fun x : Col × Col => SExpr.name (nm x.1)) (fun x => x.2) (ds.zip cols) cols fun x hx => ?_).free
        hc.away
      exact (List.of_mem_zip hx).2
    have hm : mapO (fun a => (mapO (itemVal S (evalQ S db m cte) envs (ds.map nm) a)
        ((ds.zip cols).map fun x => Item.ex (.name (nm x.1)) (some (nm x.2)))).map List.flatten) rows = some rows := by
      have : ∀ L : List (List V), (∀ a ∈ L, a ∈ rows) → mapO (fun a => (mapO (itemVal S (evalQ S db m cte) envs (ds.map nm) a)
        ((ds.zip cols).map fun x => Item.ex (.name (nm x.1)) (some (nm x.2)))).map List.flatten) L = some L := by
        intro L
        induction L with
        | nil => intro _; rfl
        | cons a as ih =>
          intro hL
          refine mapO_cons' (map_flatten (zip_val hlen ?_)) (ih fun x hx => hL x (List.mem_cons_of_mem _ hx))
          have hs := pick_self (h := ds.map nm) (vs := a) h3 (by simpa using h4 a (hL a (List.mem_cons_self ..)))
          rw [mapO_map] at hs
          refine mapO_mono hs fun d _ b hb => ?_
          simp only [bindR, hb]
      exact this rows fun _ h => h
    have hne : ((ds.zip cols).map fun x => Item.ex (.name (nm x.1)) (some (nm x.2))) ≠ [] := by
      intro h
      have := congrArg List.length h
      simp only [List.length_map, List.length_zip, List.length_nil] at this
      have : cols.length ≠ 0 := by simpa using hok
      omega
    have hq := sel_query hf hne hal (map_noAgg (fun x : Col × Col => SExpr.name (nm x.1)) _ _) hm none
    rw [tail_none, limited_none, zip_hdr _ hlen] at hq
    refine Fin.ofGrp rfl rfl hq fun r hr => ?_
    rw [h4 r hr]
    exact hlen
  · simp at ht

/-! ## Projections -/

theorem findItem_shapeC_none : ∀ {cs : List Col} {xs : List SExpr} {c : Col}, xs.length = cs.length →
    findItem (shapeC nm cs xs) c = none → c ∉ cs
  | [], _, _, _, _ => by simp
  | _ :: _, [], _, hl, _ => by simp at hl
  | d :: cs, x :: xs, c, hl, h => by
    simp only [shapeC, findItem] at h
    split at h
    · simp at h
    · rename_i hd
      simp only [List.mem_cons, not_or]
      exact ⟨Ne.symm hd, findItem_shapeC_none (by simpa using hl) h⟩

theorem shapeC_alIn (cs : List Col) (xs : List SExpr) (cols : List Col) :
    AlIn nm cs (selList nm (shapeC nm cs xs) cols) := by
  refine selList_alIn (fun x hx e n he => ?_) cols
  obtain ⟨h1, y, h2⟩ := shapeC_mem hx
  rw [h2] at he
  cases he
  exact ⟨h1, rfl⟩

theorem selList_ok {cs : List Col} {xs : List SExpr} (hl : xs.length = cs.length) {h cols : List Col}
    (hd : ∀ c ∈ cs, nm c ∉ h.map nm) (hc : ∀ c ∈ cols, c ∈ cs ∨ c ∈ h) :
    ∀ i ∈ selList nm (shapeC nm cs xs) cols, ItemOk (h.map nm) i := by
  intro i hi
  simp only [selList, List.mem_map] at hi
  obtain ⟨c, hcc, rfl⟩ := hi
  cases hf : findItem (shapeC nm cs xs) c with
  | none =>
    have : c ∈ h := (hc c hcc).resolve_left (findItem_shapeC_none hl hf)
    exact List.mem_map_of_mem this
  | some i =>
    obtain ⟨h1, e, h2⟩ := shapeC_mem (findItem_mem hf)
    simp only at h1 h2
    subst h2
    exact hd c h1

theorem gs_project {s : Scan} {exprs : CExprs} {cols : List Col} (hs : GS S db nm s) (hes : GCs S db nm exprs) :
    GS S db nm (.project s exprs cols) := by
  intro w tx ht hok
  simp only [fmtS] at ht
  split at ht
  · rename_i its t hits htt
    cases ht
    simp only [okS] at hok
    obtain ⟨hok1, hok2, hok3, hok4⟩ := hok
    obtain ⟨xs, hlen, rfl, N1, hN1⟩ := hes w its hits hok2
    have hne : selList nm (shapeC nm exprs.cols xs) cols ≠ [] := selList_ne hok3
    have hna : (selList nm (shapeC nm exprs.cols xs) cols).any isAgg = false := selList_noAgg (shapeC_noAgg _ _) _
    have hhd : ∀ h, (selList nm (shapeC nm exprs.cols xs) cols).flatMap (itemHdr h) = cols.map nm :=
      fun h => selList_hdr h (shapeC_hdr h _ _) cols
    rcases hok1 with rfl | hoks
    · simp only [fmtS, Option.some.injEq] at htt
      subst htt
      refine ⟨N1 + 1, fun n hn we cte envr envs hc rows he => ?_⟩
      obtain ⟨m, rfl⟩ : ∃ m, n = m + 1 := ⟨n - 1, by omega⟩
      have hc' : Ctx nm w we cte envr envs (intCs exprs) (tabCs exprs) := hc.r
      have hal : AlFree nm envr (selList nm (shapeC nm exprs.cols xs) cols) :=
        (shapeC_alIn exprs.cols xs cols).free (hc'.away.mono (ccols_sub exprs))
      simp only [evalS] at he
      have hm : mapO (fun a => (mapO (itemVal S (evalQ S db m cte) envs [] a)
          (selList nm (shapeC nm exprs.cols xs) cols)).map List.flatten) [[]] = some rows := by
        refine mapO_mono he fun a ha r hr => ?_
        have ha' : a = [] := by simpa using ha
        subst ha'
        split at hr
        · simp at hr
        rename_i vs hvs
        have hb : bindR ([] : List Col) ([] : List V) envr = envr := rfl
        rw [show Scan.cols .single = [] from rfl, hb] at hvs
        have hx := hN1 m (by omega) we cte envr envs hc' vs hvs
        exact map_flatten (selList_val (h := []) (by simp) hlen hx hr)
      refine Fin.ofBare ?_ (mapO_length_of he fun a _ b hb => ?_)
      · refine ⟨_, none, [], [[]], hna, fun w => pCore_nofrom hne w, ⟨_, rfl⟩, rfl, hhd _, hm, fun a ha o ho => ?_⟩
        have ha' : a = [] := by simpa using ha
        subst ha'
        cases hv : mapO (itemVal S (evalQ S db m cte) envs [] []) (selList nm (shapeC nm exprs.cols xs) cols) with
        | none => simp [hv] at ho
        | some os =>
          simp only [hv, Option.map_some, Option.some.injEq] at ho
          subst ho
          refine bare_ref (S := S) (q := evalQ S db m cte) (envs := envs) (h := []) (a := []) (os := os) rfl (selList_ok (h := []) hlen (by simp) hok4) (hhd _) (hc.inj fun c hcc => ?_) hc.ref hal
            (by simp) hv
          exact cols_sub nm w (.project .single exprs cols) (by unfold okS; exact ⟨Or.inl rfl, hok2, hok3, hok4⟩) c hcc
      · split at hb
        · simp at hb
        · exact mapO_length hb
    · obtain ⟨N2, hN2⟩ := hs w t htt hoks
      refine ⟨N1 + N2 + 1, fun n hn we cte envr envs hc rows he => ?_⟩
      obtain ⟨m, rfl⟩ : ∃ m, n = m + 1 := ⟨n - 1, by omega⟩
      simp only [evalS] at he
      split at he
      · simp at he
      rename_i L hL
      have hcs : Ctx nm w we cte envr envs (intS s ++ intCs exprs) (tabS s ++ tabCs exprs) := hc
      have hfin := hN2 m (by omega) we cte envr envs hcs.l L hL
      have hsub := cols_sub nm w s hoks
      have hal : AlFree nm envr (selList nm (shapeC nm exprs.cols xs) cols) :=
        (shapeC_alIn exprs.cols xs cols).free (hcs.r.away.mono (ccols_sub exprs))
      have hm : mapO (fun a => (mapO (itemVal S (evalQ S db m cte) envs (s.cols.map nm) a)
          (selList nm (shapeC nm exprs.cols xs) cols)).map List.flatten) L = some rows := by
        refine mapO_mono he fun a ha r hr => ?_
        split at hr
        · simp at hr
        rename_i vs hvs
        have hx := hN1 m (by omega) we cte _ _ (hcs.bind hsub a) vs hvs
        exact map_flatten (selList_val (hcs.l.inj hsub) hlen hx hr)
      have hrl : ∀ r ∈ rows, r.length = cols.length := by
        refine mapO_length_of he fun a _ b hb => ?_
        split at hb
        · simp at hb
        · exact mapO_length hb
      obtain ⟨wh, hwh, hf⟩ := hfin.den.from
      rw [hfin.den.formatInput]
      have hq := sel_query hf hne hal hna hm none
      rw [tail_none, limited_none, hhd, List.append_nil] at hq
      refine Fin.ofQuery rfl hq (fun hb => ⟨m, rfl, ?_⟩) hrl
      have hlo : leftOk s = true := by
        cases s with
        | filter s e => simp [bare] at hb
        | single => simp [okS] at hoks
        | _ => rfl
      have hwn := hwh hlo
      subst hwn
      refine bare_of_from hf hne hal hna (fun a ha => by simpa using hfin.len a ha) ?_ (hhd _) (hc.inj fun c hcc => ?_)
        hc.ref ?_ hm
      · refine selList_ok hlen (fun c hcc hmm => ?_) hok4
        obtain ⟨d, hd, hdn⟩ := List.mem_map.1 hmm
        exact (Dist.append hcs.dist).2.2 d (hsub d hd) c (ccols_sub exprs c hcc) hdn
      · exact cols_sub nm w (.project s exprs cols) (by unfold okS; exact ⟨Or.inr hoks, hok2, hok3, hok4⟩) c hcc
      · intro d hd hmm
        obtain ⟨c, hcc, hcn⟩ := List.mem_map.1 hmm
        exact hcs.l.away d hd c (hsub c hcc) hcn
  · simp at ht
end

end Verif.Query
