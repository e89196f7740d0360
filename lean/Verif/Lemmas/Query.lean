import Verif.Model.Query

/-!
# Lemmas about the translation of queries

The columns a resolved query introduces, the tables it reads, and the resolved queries whose translation is right (`okS`).
-/

namespace Verif.Query

/-! ## Columns, tables -/

mutual
/-- The columns an expression's subqueries introduce. -/
def intE : Expr → List Col
  | .col _ => []
  | .lit _ => []
  | .call _ args => intEs args
  | .scalar s => intS s
  | .exists_ s => intS s
  | .inq e s => intE e ++ intS s
  | .arr s => intS s

def intEs : Exprs → List Col
  | .nil => []
  | .cons e es => intE e ++ intEs es

def intO : OExpr → List Col
  | .none => []
  | .some e => intE e

def intCs : CExprs → List Col
  | .nil => []
  | .cons c e es => c :: (intE e ++ intCs es)

def intAs : Aggs → List Col
  | .nil => []
  | .cons c _ args as => c :: (intEs args ++ intAs as)

def intFs : Wins → List Col
  | .nil => []
  | .cons c _ args _ _ ws => c :: (intEs args ++ intFs ws)

/-- The columns a scan introduces, at any depth. -/
def intS : Scan → List Col
  | .single => []
  | .table _ cols => cols
  | .join _ l r on => intS l ++ (intS r ++ intO on)
  | .unnest e elem off => intE e ++ elem :: off.toList
  | .array s e elem off on _ => intS s ++ (intE e ++ (elem :: off.toList ++ intO on))
  | .filter s e => intS s ++ intE e
  | .project s exprs _ => intS s ++ intCs exprs
  | .agg s groups aggs _ => intS s ++ (intCs groups ++ intAs aggs)
  | .setop _ items cols => intIs items ++ cols
  | .order s _ _ => intS s
  | .limit s _ _ _ => intS s
  | .with_ es body => intWs es ++ intS body
  | .ref _ cols => cols
  | .gsets s groups aggs _ _ _ => intS s ++ (intCs groups ++ intAs aggs)
  | .win s ws _ => intS s ++ intFs ws

def intIs : Items → List Col
  | .nil => []
  | .cons s _ is => intS s ++ intIs is

def intWs : Entries → List Col
  | .nil => []
  | .cons _ s es => intS s ++ intWs es
end

mutual
/-- The tables an expression's subqueries read. -/
def tabE : Expr → List TName
  | .col _ => []
  | .lit _ => []
  | .call _ args => tabEs args
  | .scalar s => tabS s
  | .exists_ s => tabS s
  | .inq e s => tabE e ++ tabS s
  | .arr s => tabS s

def tabEs : Exprs → List TName
  | .nil => []
  | .cons e es => tabE e ++ tabEs es

def tabO : OExpr → List TName
  | .none => []
  | .some e => tabE e

def tabCs : CExprs → List TName
  | .nil => []
  | .cons _ e es => tabE e ++ tabCs es

def tabAs : Aggs → List TName
  | .nil => []
  | .cons _ _ args as => tabEs args ++ tabAs as

def tabFs : Wins → List TName
  | .nil => []
  | .cons _ _ args _ _ ws => tabEs args ++ tabFs ws

/-- The tables a scan reads, at any depth. -/
def tabS : Scan → List TName
  | .single => []
  | .table t _ => [t]
  | .join _ l r on => tabS l ++ (tabS r ++ tabO on)
  | .unnest e _ _ => tabE e
  | .array s e _ _ on _ => tabS s ++ (tabE e ++ tabO on)
  | .filter s e => tabS s ++ tabE e
  | .project s exprs _ => tabS s ++ tabCs exprs
  | .agg s groups aggs _ => tabS s ++ (tabCs groups ++ tabAs aggs)
  | .setop _ items _ => tabIs items
  | .order s _ _ => tabS s
  | .limit s _ _ _ => tabS s
  | .with_ es body => tabWs es ++ tabS body
  | .ref _ _ => []
  | .gsets s groups aggs _ _ _ => tabS s ++ (tabCs groups ++ tabAs aggs)
  | .win s ws _ => tabS s ++ tabFs ws

def tabIs : Items → List TName
  | .nil => []
  | .cons s _ is => tabS s ++ tabIs is

def tabWs : Entries → List TName
  | .nil => []
  | .cons _ s es => tabS s ++ tabWs es
end

/-! ## The queries whose translation is right -/

/-- Scans translated to a text which begins with SELECT or WITH. -/
def isQuery : Scan → Bool
  | .project _ _ _ => true
  | .agg _ _ _ _ => true
  | .setop _ _ _ => true
  | .order _ _ _ => true
  | .limit _ _ _ _ => true
  | .with_ _ _ => true
  | .unnest _ _ _ => true
  | .array _ _ _ _ _ _ => true
  | .gsets _ _ _ _ _ _ => true
  | .win _ _ _ => true
  | _ => false

def isWith : Scan → Bool
  | .with_ _ _ => true
  | _ => false

/-- Scans which may stand on the left of a join: all but filters. -/
def leftOk : Scan → Bool
  | .filter _ _ => false
  | .single => false
  | _ => true

/-- Scans which may stand on the right of a join: all but filters and joins. -/
def rightOk : Scan → Bool
  | .filter _ _ => false
  | .single => false
  | .join _ _ _ _ => false
  | _ => true

/-- Scans whose text is a SELECT to which a WHERE clause may be appended: no filter, GROUP BY, ORDER BY or LIMIT at its
end. -/
def bare : Scan → Bool
  | .project (.filter _ _) _ _ => false
  | .project _ _ _ => true
  | .setop _ _ _ => true
  | .unnest _ _ _ => true
  | .array _ _ _ _ _ _ => true
  | _ => false

/-- The columns of the WITH queries after a WITH clause. -/
def wAfter (w : WMap) : Entries → WMap
  | .nil => w
  | .cons n s es => wAfter (upd w n s.cols) es

def Items.outsLen (k : Nat) : Items → Prop
  | .nil => True
  | .cons _ outs is => outs.length = k ∧ is.outsLen k

/-- The output columns of the first input. -/
def Items.firstOuts : Items → List Col
  | .nil => []
  | .cons _ outs _ => outs

def Items.isNil : Items → Bool
  | .nil => true
  | _ => false

def Entries.isNil : Entries → Bool
  | .nil => true
  | _ => false

def OExpr.isNone : OExpr → Bool
  | .none => true
  | _ => false

/-- Each aggregate function refers to a column of its SELECT, or to no column. -/
def ownAs (nm : Col → Nm) (w : WMap) (h : List Col) : Aggs → Prop
  | .nil => True
  | .cons _ _ args as => (∀ xs, fmtEs nm w args = some xs → owned (h.map nm) xs = true) ∧ ownAs nm w h as

mutual
def okE (nm : Col → Nm) (w : WMap) : Expr → Prop
  | .col _ => True
  | .lit _ => True
  | .call _ args => okEs nm w args
  | .scalar s => isQuery s = true ∧ okS nm w s
  | .exists_ s => isQuery s = true ∧ okS nm w s
  | .inq e s => okE nm w e ∧ isQuery s = true ∧ okS nm w s
  | .arr s => isQuery s = true ∧ okS nm w s

def okEs (nm : Col → Nm) (w : WMap) : Exprs → Prop
  | .nil => True
  | .cons e es => okE nm w e ∧ okEs nm w es

def okO (nm : Col → Nm) (w : WMap) : OExpr → Prop
  | .none => True
  | .some e => okE nm w e

def okCs (nm : Col → Nm) (w : WMap) : CExprs → Prop
  | .nil => True
  | .cons _ e es => okE nm w e ∧ okCs nm w es

def okAs (nm : Col → Nm) (w : WMap) : Aggs → Prop
  | .nil => True
  | .cons _ _ args as => okEs nm w args ∧ okAs nm w as

/-- An analytic function has the NULLs of its ORDER BY where it has them by default, and it refers to a column of the scan. -/
def okFs (nm : Col → Nm) (w : WMap) (h : List Col) : Wins → Prop
  | .nil => True
  | .cons _ _ args parts ords ws => okEs nm w args ∧ (∀ c ∈ parts, c ∈ h) ∧
      (∀ o ∈ ords, o.col ∈ h ∧ o.nullsFirst = !o.desc) ∧
      (parts ≠ [] ∨ ords ≠ [] ∨ ∀ xs, fmtEs nm w args = some xs → ∃ n ∈ nmEs xs, n ∈ h.map nm) ∧ okFs nm w h ws

/-- The scans for which the translation is right.  Apart from what every resolved query satisfies (column lists are not
empty and hold columns that are there), these are the conditions: a join's inputs are no filters, and its right input is no
join; an outer join has a condition; the input of a filter ends with FROM, or the filter puts it in parentheses; a set
operation is one SQLite has, and no column is twice in the output of its first query; the query after WITH is no WITH; no
WITH query has the name of a table that is read; an aggregate or analytic function refers to a column of its SELECT (an
aggregate function may refer to no column at all); the grouping columns are selected; with an empty grouping set, an aggregate
is selected; and no column has the name of the column of row numbers. -/
def okS (nm : Col → Nm) (w : WMap) : Scan → Prop
  | .single => False
  | .table _ cols => cols ≠ []
  | .ref _ cols => cols ≠ []
  | .join k l r on => okS nm w l ∧ okS nm w r ∧ leftOk l = true ∧ rightOk r = true ∧ okO nm w on ∧
      (on.isNone = true → k = .inner ∨ k = .cross)
  | .unnest e _ _ => okE nm w e
  | .array s e _ _ on outer => okS nm w s ∧ leftOk s = true ∧ okE nm w e ∧ okO nm w on ∧
      (outer = true → on.isNone = false)
  | .filter s e => okS nm w s ∧ leftOk s = true ∧ okE nm w e ∧
      (isQuery s = true → bare s = true ∨ ∀ t, fmtS nm w s = some t → wraps t = true)
  | .project s exprs cols => (s = .single ∨ okS nm w s) ∧ okCs nm w exprs ∧ cols ≠ [] ∧
      (∀ c ∈ cols, c ∈ exprs.cols ∨ c ∈ s.cols)
  | .agg s groups aggs cols => okS nm w s ∧ okCs nm w groups ∧ okAs nm w aggs ∧ cols ≠ [] ∧
      (∀ c ∈ cols, c ∈ groups.cols ∨ c ∈ aggs.cols) ∧ (∀ c ∈ groups.cols, c ∈ cols) ∧ ownAs nm w s.cols aggs
  | .setop o items cols => sqliteHas o = true ∧ items.isNil = false ∧ okIs nm w items ∧ cols ≠ [] ∧
      items.outsLen cols.length ∧ items.firstOuts.Nodup
  | .order s items cols => okS nm w s ∧ items ≠ [] ∧ cols ≠ [] ∧ (∀ c ∈ cols, c ∈ s.cols) ∧
      (∀ i ∈ items, i.col ∈ s.cols)
  | .limit s _ _ cols => okS nm w s ∧ cols ≠ [] ∧ (∀ c ∈ cols, c ∈ s.cols)
  | .with_ es body => es.isNil = false ∧ es.names.Nodup ∧ (∀ n ∈ es.names, n ∉ tabWs es ++ tabS body ∧ w n = none) ∧
      okWs nm w es ∧
      isQuery body = true ∧ isWith body = false ∧ okS nm (wAfter w es) body
  | .gsets s groups aggs set sets cols => okS nm w s ∧ okCs nm w groups ∧ okAs nm w aggs ∧ cols ≠ [] ∧
      (∀ c ∈ cols, c ∈ groups.cols ∨ c ∈ aggs.cols) ∧ (∀ c ∈ groups.cols, c ∈ cols) ∧ ownAs nm w s.cols aggs ∧
      groups.cols ≠ [] ∧ (∀ g ∈ set :: sets, ∀ c ∈ g, c ∈ groups.cols) ∧ ([] ∈ set :: sets → ∃ c ∈ cols, c ∈ aggs.cols)
  | .win s ws cols => okS nm w s ∧ okFs nm w s.cols ws ∧ cols ≠ [] ∧ (∀ c ∈ cols, c ∈ ws.cols ∨ c ∈ s.cols) ∧
      (∀ i ∈ ws.order, i.col ∈ s.cols) ∧ ∀ c, nm c ≠ rowId

def okIs (nm : Col → Nm) (w : WMap) : Items → Prop
  | .nil => True
  | .cons s outs is => okS nm w s ∧ (∀ c ∈ outs, c ∈ s.cols) ∧ okIs nm w is

def okWs (nm : Col → Nm) (w : WMap) : Entries → Prop
  | .nil => True
  | .cons n s es => isQuery s = true ∧ okS nm w s ∧ s.cols.Nodup ∧ okWs nm (upd w n s.cols) es
end

/-! ## Lists of optional values -/

section
variable {α β γ : Type}

theorem mapO_cons {f : α → Option β} {a : α} {as : List α} {r : List β} (h : mapO f (a :: as) = some r) :
    ∃ b bs, f a = some b ∧ mapO f as = some bs ∧ r = b :: bs := by
  unfold mapO at h
  split at h
  · rename_i b bs h1 h2
    exact ⟨b, bs, h1, h2, (Option.some.inj h).symm⟩
  · exact absurd h (by simp)

theorem mapO_cons' {f : α → Option β} {a : α} {as : List α} {b : β} {bs : List β} (h1 : f a = some b)
    (h2 : mapO f as = some bs) : mapO f (a :: as) = some (b :: bs) := by
  unfold mapO
  rw [h1, h2]

theorem filtO_cons {f : α → Option Bool} {a : α} {as r : List α} (h : filtO f (a :: as) = some r) :
    ∃ b bs, f a = some b ∧ filtO f as = some bs ∧ r = if b then a :: bs else bs := by
  unfold filtO at h
  split at h
  · rename_i b bs h1 h2
    exact ⟨b, bs, h1, h2, (Option.some.inj h).symm⟩
  · exact absurd h (by simp)

theorem filtO_cons' {f : α → Option Bool} {a : α} {as bs : List α} {b : Bool} (h1 : f a = some b)
    (h2 : filtO f as = some bs) : filtO f (a :: as) = some (if b then a :: bs else bs) := by
  rw [filtO]
  rw [h1, h2]

/-- If each value is the same with `g`, so are all. -/
theorem mapO_mono {f g : α → Option β} : ∀ {as : List α} {r : List β}, mapO f as = some r →
    (∀ a ∈ as, ∀ b, f a = some b → g a = some b) → mapO g as = some r
  | [], r, h, _ => by simpa [mapO] using h
  | a :: as, r, h, hg => by
    obtain ⟨b, bs, h1, h2, rfl⟩ := mapO_cons h
    exact mapO_cons' (hg a (List.mem_cons_self ..) b h1)
      (mapO_mono h2 fun a ha => hg a (List.mem_cons_of_mem _ ha))

theorem filtO_mono {f g : α → Option Bool} : ∀ {as r : List α}, filtO f as = some r →
    (∀ a ∈ as, ∀ b, f a = some b → g a = some b) → filtO g as = some r
  | [], r, h, _ => by simpa [filtO] using h
  | a :: as, r, h, hg => by
    obtain ⟨b, bs, h1, h2, rfl⟩ := filtO_cons h
    exact filtO_cons' (hg a (List.mem_cons_self ..) b h1)
      (filtO_mono h2 fun a ha => hg a (List.mem_cons_of_mem _ ha))

theorem mapO_mem {f : α → Option β} : ∀ {as : List α} {r : List β}, mapO f as = some r → ∀ b ∈ r, ∃ a ∈ as, f a = some b
  | [], r, h, b, hb => by
    simp only [mapO, Option.some.injEq] at h
    subst h
    simp at hb
  | a :: as, r, h, b, hb => by
    obtain ⟨c, cs, h1, h2, rfl⟩ := mapO_cons h
    rcases List.mem_cons.1 hb with rfl | hb
    · exact ⟨a, List.mem_cons_self .., h1⟩
    · obtain ⟨x, hx, h⟩ := mapO_mem h2 b hb
      exact ⟨x, List.mem_cons_of_mem _ hx, h⟩

theorem mapO_some {f : α → Option β} : ∀ {as : List α} {r : List β}, mapO f as = some r → ∀ a ∈ as, ∃ b ∈ r, f a = some b
  | [], r, h, a, ha => by simp at ha
  | a :: as, r, h, x, hx => by
    obtain ⟨c, cs, h1, h2, rfl⟩ := mapO_cons h
    rcases List.mem_cons.1 hx with rfl | hx
    · exact ⟨c, List.mem_cons_self .., h1⟩
    · obtain ⟨b, hb, h⟩ := mapO_some h2 x hx
      exact ⟨b, List.mem_cons_of_mem _ hb, h⟩

theorem mapO_length {f : α → Option β} : ∀ {as : List α} {r : List β}, mapO f as = some r → r.length = as.length
  | [], r, h => by
    simp only [mapO, Option.some.injEq] at h
    subst h
    rfl
  | a :: as, r, h => by
    obtain ⟨c, cs, h1, h2, rfl⟩ := mapO_cons h
    simp [mapO_length h2]

theorem filtO_sub {f : α → Option Bool} : ∀ {as r : List α}, filtO f as = some r → ∀ a ∈ r, a ∈ as
  | [], r, h, a, ha => by
    simp only [filtO, Option.some.injEq] at h
    subst h
    exact ha
  | x :: as, r, h, a, ha => by
    obtain ⟨b, bs, h1, h2, rfl⟩ := filtO_cons h
    cases b with
    | true =>
      rcases List.mem_cons.1 (by simpa using ha) with rfl | ha
      · exact List.mem_cons_self ..
      · exact List.mem_cons_of_mem _ (filtO_sub h2 a ha)
    | false => exact List.mem_cons_of_mem _ (filtO_sub h2 a (by simpa using ha))

theorem mapO_map {f : α → Option β} {g : γ → α} : ∀ (as : List γ), mapO f (as.map g) = mapO (fun a => f (g a)) as
  | [] => rfl
  | a :: as => by simp only [List.map_cons, mapO, mapO_map as]

theorem mapO_congr {f g : α → Option β} : ∀ {as : List α}, (∀ a ∈ as, f a = g a) → mapO f as = mapO g as
  | [], _ => rfl
  | a :: as, h => by
    simp only [mapO, h a (List.mem_cons_self ..), mapO_congr fun a ha => h a (List.mem_cons_of_mem _ ha)]

/-- Choosing rows and then computing is computing and then choosing. -/
theorem filtO_mapO {p : α → Option Bool} {p' : β → Option Bool} {f : α → Option β} :
    ∀ {as : List α} {bs : List β} {r : List β}, mapO f as = some bs → filtO p' bs = some r →
    (∀ a ∈ as, ∀ b, f a = some b → ∀ x, p' b = some x → p a = some x) →
    ∃ cs, filtO p as = some cs ∧ mapO f cs = some r
  | [], bs, r, h, hr, _ => by
    simp only [mapO, Option.some.injEq] at h
    subst h
    simp only [filtO, Option.some.injEq] at hr
    subst hr
    exact ⟨[], rfl, rfl⟩
  | a :: as, bs, r, h, hr, hp => by
    obtain ⟨c, cs, h1, h2, rfl⟩ := mapO_cons h
    obtain ⟨x, xs, h3, h4, rfl⟩ := filtO_cons hr
    obtain ⟨ds, h5, h6⟩ := filtO_mapO h2 h4 fun a ha => hp a (List.mem_cons_of_mem _ ha)
    refine ⟨_, filtO_cons' (hp a (List.mem_cons_self ..) c h1 x h3) h5, ?_⟩
    cases x with
    | true => exact mapO_cons' h1 h6
    | false => exact h6
end

/-! ## Scopes -/

set_option linter.unusedSectionVars false

section
variable {V : Type} [DecidableEq V] (S : Sem V) (db : Db V) (nm : Col → Nm)

/-- The values of columns are the values of their names. -/
def Ref (envr : Env V) (envs : SEnv V) : Prop := ∀ c v, envr c = some v → envs (nm c) = some v

/-- No column of outer rows has the name of one of these columns. -/
def Away (envr : Env V) (cs : List Col) : Prop := ∀ d, envr d ≠ none → ∀ c ∈ cs, nm c ≠ nm d

/-- The names of these columns are different. -/
def Dist (cs : List Col) : Prop := (cs.map nm).Nodup

theorem Dist.inj {nm : Col → Nm} : ∀ {cs : List Col}, Dist nm cs → ∀ c ∈ cs, ∀ d ∈ cs, nm c = nm d → c = d
  | [], _, c, hc, _, _, _ => by simp at hc
  | x :: xs, h, c, hc, d, hd, e => by
    simp only [Dist, List.map_cons, List.nodup_cons] at h
    rcases List.mem_cons.1 hc with hc' | hc'
    · rcases List.mem_cons.1 hd with hd' | hd'
      · rw [hc', hd']
      · exact absurd (hc' ▸ e ▸ List.mem_map_of_mem hd') h.1
    · rcases List.mem_cons.1 hd with hd' | hd'
      · exact absurd (hd' ▸ e ▸ List.mem_map_of_mem hc') h.1
      · exact Dist.inj h.2 c hc' d hd' e

theorem Dist.append {nm : Col → Nm} {a b : List Col} (h : Dist nm (a ++ b)) :
    Dist nm a ∧ Dist nm b ∧ ∀ c ∈ a, ∀ d ∈ b, nm c ≠ nm d := by
  simp only [Dist, List.map_append, List.nodup_append] at h
  refine ⟨h.1, h.2.1, fun c hc d hd => ?_⟩
  exact h.2.2 _ (List.mem_map_of_mem hc) _ (List.mem_map_of_mem hd)

theorem Dist.cons {nm : Col → Nm} {a : Col} {b : List Col} (h : Dist nm (a :: b)) :
    Dist nm b ∧ ∀ d ∈ b, nm a ≠ nm d := by
  have := Dist.append (a := [a]) (b := b) h
  exact ⟨this.2.1, fun d hd => this.2.2 a (by simp) d hd⟩

theorem Away.mono {nm : Col → Nm} {envr : Env V} {a b : List Col} (h : Away nm envr b) (hs : ∀ c ∈ a, c ∈ b) :
    Away nm envr a := fun d hd c hc => h d hd c (hs c hc)

theorem lk_mem {α : Type} [DecidableEq α] : ∀ {h : List α} {vs : List V} {n : α} {v : V}, lk h vs n = some v → n ∈ h
  | [], _, _, _, e => by simp [lk] at e
  | _ :: _, [], _, _, e => by simp [lk] at e
  | x :: xs, u :: us, n, v, e => by
    simp only [lk] at e
    split at e
    · rename_i hx
      subst hx
      exact List.mem_cons_self ..
    · exact List.mem_cons_of_mem _ (lk_mem e)

theorem lk_map {nm : Col → Nm} : ∀ {h : List Col} {vs : List V} {c : Col} {v : V}, lk h vs c = some v →
    (∀ a ∈ h, ∀ b ∈ h, nm a = nm b → a = b) → lk (h.map nm) vs (nm c) = some v
  | [], _, _, _, e, _ => by simp [lk] at e
  | _ :: _, [], _, _, e, _ => by simp [lk] at e
  | x :: xs, u :: us, c, v, e, hi => by
    have hc := lk_mem e
    simp only [lk] at e
    simp only [List.map_cons, lk]
    split at e
    · rename_i hx
      subst hx
      rw [if_pos rfl]
      exact e
    · rename_i hx
      rw [if_neg fun hn => hx (hi x (List.mem_cons_self ..) c hc hn)]
      exact lk_map e fun a ha b hb => hi a (List.mem_cons_of_mem _ ha) b (List.mem_cons_of_mem _ hb)

theorem lk_none {α : Type} [DecidableEq α] : ∀ {h : List α} {n : α} (vs : List V), n ∉ h → lk h vs n = none
  | [], _, _, _ => rfl
  | _ :: _, _, [], _ => rfl
  | x :: xs, n, u :: us, hn => by
    simp only [List.mem_cons, not_or] at hn
    simp only [lk, if_neg (Ne.symm hn.1)]
    exact lk_none us hn.2

theorem scope_nil (q : SEnv V → List Tok → Option (Rel V)) (env : SEnv V) (h : List Nm) (vs : List V) :
    scope S q [] env h vs = bindR h vs env := by
  funext n
  simp only [scope, bindR, alias]

/-- No AS name is the name of a column of outer rows. -/
def AlFree (envr : Env V) (items : List Item) : Prop := ∀ d, envr d ≠ none → alias items (nm d) = none

theorem ref_scope {S : Sem V} {nm : Col → Nm} {envr : Env V} {envs : SEnv V} (hr : Ref nm envr envs) {h : List Col}
    (ha : Away nm envr h) (hd : ∀ a ∈ h, ∀ b ∈ h, nm a = nm b → a = b) {items : List Item} (hal : AlFree nm envr items)
    (q : SEnv V → List Tok → Option (Rel V)) (vs : List V) :
    Ref nm (bindR h vs envr) (scope S q items envs (h.map nm) vs) := by
  intro c v e
  simp only [bindR] at e
  simp only [scope]
  split at e
  · rename_i u hu
    rw [lk_map hu hd]
    exact e
  · rename_i hu
    have hne : envr c ≠ none := by rw [e]; simp
    have hnm : nm c ∉ h.map nm := by
      intro hm
      obtain ⟨d, hd', hdd⟩ := List.mem_map.1 hm
      exact ha c hne d hd' hdd
    rw [lk_none vs hnm, hal c hne]
    exact hr c v e

theorem ref_bind {nm : Col → Nm} {envr : Env V} {envs : SEnv V} (hr : Ref nm envr envs) {h : List Col}
    (ha : Away nm envr h) (hd : ∀ a ∈ h, ∀ b ∈ h, nm a = nm b → a = b) (vs : List V) :
    Ref nm (bindR h vs envr) (bindR (h.map nm) vs envs) := by
  intro c v e
  simp only [bindR] at e
  simp only [bindR]
  split at e
  · rename_i u hu
    rw [lk_map hu hd]
    exact e
  · rename_i hu
    have hne : envr c ≠ none := by rw [e]; simp
    have hnm : nm c ∉ h.map nm := by
      intro hm
      obtain ⟨d, hd', hdd⟩ := List.mem_map.1 hm
      exact ha c hne d hd' hdd
    rw [lk_none vs hnm]
    exact hr c v e

theorem bindR_dom {envr : Env V} {h : List Col} {vs : List V} {d : Col} (hd : bindR h vs envr d ≠ none) :
    d ∈ h ∨ envr d ≠ none := by
  simp only [bindR] at hd
  split at hd
  · rename_i v hv
    exact Or.inl (lk_mem hv)
  · exact Or.inr hd

theorem away_bind {nm : Col → Nm} {envr : Env V} {cs h : List Col} (ha : Away nm envr cs)
    (hd : ∀ c ∈ cs, ∀ d ∈ h, nm c ≠ nm d) (vs : List V) : Away nm (bindR h vs envr) cs := by
  intro d hne c hc
  rcases bindR_dom hne with hm | hm
  · exact hd c hc d hm
  · exact ha d hm c hc
end

end Verif.Query
