import Verif.Model.Wildcard

/-! # C73: wildcard tables -/

namespace Verif.Wildcard

open Go

/-- Names of letters, digits, `_`, `-` and `.`. -/
def Plain (s : List Char) : Prop := ∀ c ∈ s, c.isAlphanum = true ∨ c = '_' ∨ c = '-' ∨ c = '.'

instance (s : List Char) : Decidable (Plain s) := by unfold Plain; infer_instance

/-- A table a catalog may hold: a path of three plain names, none with a dot. -/
def Named (t : Table) : Prop :=
  ∃ a b c, t.path = [a, b, c] ∧ Plain a ∧ Plain b ∧ Plain c ∧ '.' ∉ a ∧ '.' ∉ b ∧ '.' ∉ c ∧ a ≠ [] ∧ b ≠ [] ∧ c ≠ []

/-- Full C73, for a prefix with project and dataset: exactly the tables whose full name starts with it, each once, with
the rest of its name as the suffix, and every column of the result taken from the table or NULL; no tables is an error. -/
def C73_full (S : Sorter) : Prop :=
  ∀ (tables : List Table) (pr ds base : List Char),
    (∀ t ∈ tables, Named t) → tables.Pairwise (fun a b => tableName a ≠ tableName b) →
    Plain pr → Plain ds → Plain base → '.' ∉ pr → '.' ∉ ds → '.' ∉ base → pr ≠ [] → ds ≠ [] →
    let p := pr ++ ['.'] ++ ds ++ ['.'] ++ base
    let sel := tables.filter fun t => p.isPrefixOf (fullName t)
    (sel = [] → query S tables [p ++ ['*']] = .err) ∧
    (sel ≠ [] → ∃ bs, query S tables [p ++ ['*']] = .ok bs ∧ (bs.map Branch.table).Perm sel ∧
      ∀ b ∈ bs, fullName b.table = p ++ b.suffix ∧ ∀ c ∈ b.columns, (c.2 = true ↔ c.1 ∈ b.table.columns))

private theorem isPrefixOf_iff {a b : List Char} : a.isPrefixOf b = true ↔ a <+: b := List.isPrefixOf_iff_prefix

/-! ### The regular expression -/

/-- `s` agrees with the pattern from position `k` on, a dot agreeing with anything. -/
def Agrees (p s : List Char) (k : Nat) : Prop :=
  ∀ i c, p[i]? = some c → ∃ d, s[k + i]? = some d ∧ (if c = '.' then d ≠ '\n' else c = d)

private theorem matchesHere_iff : ∀ (p s : List Char), matchesHere p s = true ↔ Agrees p s 0
  | [], s => by simp [matchesHere, Agrees]
  | c :: p, [] => by
    simp only [matchesHere, Bool.false_eq_true, false_iff]
    intro h
    obtain ⟨d, h1, _⟩ := h 0 c rfl
    simp at h1
  | c :: p, d :: s => by
    rw [matchesHere, Bool.and_eq_true, matchesHere_iff p s]
    constructor
    · rintro ⟨h1, h2⟩ i x hx
      cases i with
      | zero =>
        simp only [List.getElem?_cons_zero, Option.some.injEq] at hx
        subst hx
        refine ⟨d, rfl, ?_⟩
        unfold charMatches at h1
        split at h1 <;> simp_all
      | succ i =>
        obtain ⟨y, hy1, hy2⟩ := h2 i x hx
        refine ⟨y, ?_, hy2⟩
        rw [Nat.zero_add] at hy1 ⊢
        exact hy1
    · intro h
      refine ⟨?_, ?_⟩
      · obtain ⟨y, hy1, hy2⟩ := h 0 c rfl
        simp only [Nat.zero_add, List.getElem?_cons_zero, Option.some.injEq] at hy1
        subst hy1
        unfold charMatches
        split <;> simp_all
      · intro i x hx
        obtain ⟨y, hy1, hy2⟩ := h (i + 1) x hx
        refine ⟨y, ?_, hy2⟩
        rw [Nat.zero_add] at hy1 ⊢
        exact hy1

private theorem matchString_iff : ∀ (p s : List Char), matchString p s = true ↔ ∃ k, k ≤ s.length ∧ Agrees p s k
  | p, [] => by
    rw [matchString, matchesHere_iff]
    constructor
    · intro h; exact ⟨0, by simp, h⟩
    · rintro ⟨k, hk, h⟩
      have : k = 0 := by simpa using hk
      subst this; exact h
  | p, d :: s => by
    rw [matchString, Bool.or_eq_true, matchesHere_iff, matchString_iff p s]
    have shift : ∀ k, Agrees p (d :: s) (k + 1) ↔ Agrees p s k := by
      intro k
      constructor <;> intro h i x hx <;> obtain ⟨y, hy1, hy2⟩ := h i x hx <;> refine ⟨y, ?_, hy2⟩
      · rw [show k + 1 + i = k + i + 1 by omega] at hy1; simpa using hy1
      · rw [show k + 1 + i = k + i + 1 by omega]; simpa using hy1
    constructor
    · rintro (h | ⟨k, hk, h⟩)
      · exact ⟨0, by simp, h⟩
      · exact ⟨k + 1, by simpa using hk, (shift k).mpr h⟩
    · rintro ⟨k, hk, h⟩
      cases k with
      | zero => exact .inl h
      | succ k => exact .inr ⟨k, by simpa using hk, (shift k).mp h⟩

/-! ### The branches -/

private theorem branches_ok {w : Wild} : ∀ {ts : List Table} {bs : List Branch}, branches w ts = .ok bs →
    bs.map Branch.table = ts ∧ ∀ b ∈ bs, w.pre.length < (fullName b.table).length ∧ b.suffix = (fullName b.table).drop w.pre.length ∧
      b.columns = branchColumns w.columns b.table.columns
  | [], bs, h => by simp only [branches, Res.ok.injEq] at h; subst h; simp
  | t :: ts, bs, h => by
    rw [branches] at h
    by_cases hl : (fullName t).length ≤ w.pre.length
    · rw [if_pos hl] at h; cases h
    · rw [if_neg hl] at h
      cases hb : branches w ts with
      | err => rw [hb] at h; cases h
      | panic => rw [hb] at h; cases h
      | ok cs =>
        rw [hb, Res.bind'_ok, Res.ok.injEq] at h
        subst h
        obtain ⟨h1, h2⟩ := branches_ok hb
        refine ⟨by simp [h1], ?_⟩
        intro b hb
        rcases List.mem_cons.mp hb with rfl | hb
        · exact ⟨by simpa using hl, rfl, rfl⟩
        · exact h2 b hb

private theorem branches_total {w : Wild} : ∀ {ts : List Table}, (∀ t ∈ ts, w.pre.length < (fullName t).length) → ∃ bs, branches w ts = .ok bs
  | [], _ => ⟨[], rfl⟩
  | t :: ts, h => by
    obtain ⟨bs, hb⟩ := branches_total (fun t ht => h t (List.mem_cons_of_mem _ ht))
    have := h t (by simp)
    exact ⟨_, by rw [branches, if_neg (by omega), hb]; rfl⟩

private theorem trim_star {p : List Char} (h : '*' ∉ p) : trimRight (p ++ ['*']) ['*'] = p := by
  unfold trimRight
  rw [List.reverse_append]
  simp only [List.reverse_cons, List.reverse_nil, List.nil_append, List.singleton_append]
  rw [List.dropWhile_cons_of_pos (by simp)]
  cases hr : p.reverse with
  | nil =>
    have : p = [] := by simpa using hr
    subst this; rfl
  | cons c r =>
    have hc : c ≠ '*' := by
      rintro rfl
      apply h
      rw [← List.mem_reverse, hr]; simp
    rw [List.dropWhile_cons_of_neg (by simpa using hc), ← hr, List.reverse_reverse]

private theorem plain_star {p : List Char} (h : Plain p) : '*' ∉ p := by
  intro h'
  have := h _ h'
  revert this; decide

/-- The parts of an answered query. -/
private theorem query_parts {S : Sorter} {tables : List Table} {path : List (List Char)} {bs : List Branch} (h : query S tables path = .ok bs) :
    ∃ t ts w, matched S tables (trimRight (join ['_'] path) ['*']) = t :: ts ∧ create S tables path = .ok w ∧ w.columns = t.columns ∧
      w.tables = t :: ts ∧ branches w w.tables = .ok bs := by
  unfold query at h
  cases hc : create S tables path with
  | err => rw [hc] at h; cases h
  | panic => rw [hc] at h; cases h
  | ok w =>
    rw [hc, Res.bind'_ok] at h
    have hc' := hc
    unfold create at hc
    cases hm : matched S tables (trimRight (join ['_'] path) ['*']) with
    | nil => simp only [hm] at hc; cases hc
    | cons t ts =>
      simp only [hm] at hc
      have hw : w.columns = t.columns ∧ w.tables = t :: ts := by
        split at hc
        · split at hc
          · cases hc
          · cases hc; exact ⟨rfl, rfl⟩
        · cases hc
      exact ⟨t, ts, w, rfl, rfl, hw.1, hw.2, h⟩

/-- **C73**: whatever else matches, an answered query reads each table whose underscore name matches, once, with the
columns of the newest of them: taken from the table if it has one of that name, NULL otherwise. -/
theorem C73_columns_partial (S : Sorter) (tables : List Table) (path : List (List Char)) (bs : List Branch) (h : query S tables path = .ok bs) :
    ∃ newest ∈ bs.map Branch.table, (∀ b ∈ bs, b.table.createdAt ≤ newest.createdAt) ∧
      ∀ b ∈ bs, b.columns.map Prod.fst = newest.columns.filter (fun c => decide (c ≠ ['_', 'T', 'A', 'B', 'L', 'E', '_', 'S', 'U', 'F', 'F', 'I', 'X'])) ∧
        ∀ c ∈ b.columns, (c.2 = true ↔ c.1 ∈ b.table.columns) := by
  obtain ⟨t, ts, w, h1, _, h3, h4, h5⟩ := query_parts h
  obtain ⟨e1, e2⟩ := branches_ok h5
  rw [h4] at e1
  have hsort := S.sorted (fun a b : Table => decide (a.createdAt > b.createdAt))
    (tables.filter fun t => matchString (trimRight (join ['_'] path) ['*']) (tableName t))
    ⟨by simp, by intro x _ y _ z _; simp; omega, by intro x _ y _ z _; simp; omega⟩
  rw [show S.sort _ _ = t :: ts from h1] at hsort
  refine ⟨t, by rw [e1]; simp, ?_, ?_⟩
  · intro b hb
    have hb' : b.table ∈ t :: ts := by rw [← e1]; exact List.mem_map_of_mem hb
    rcases List.mem_cons.mp hb' with e | hb'
    · rw [e]; exact Int.le_refl _
    · have := (List.pairwise_cons.mp hsort).1 _ hb'
      simpa using this
  · intro b hb
    rw [(e2 b hb).2.2, h3, show ['_', 'T', 'A', 'B', 'L', 'E', '_', 'S', 'U', 'F', 'F', 'I', 'X'] = suffixColumn from rfl]
    unfold branchColumns
    refine ⟨by rw [List.map_map]; simp [Function.comp_def], ?_⟩
    intro c hc
    obtain ⟨x, _, rfl⟩ := List.mem_map.mp hc
    simp

/-- The underscore name differs from the full name only where that has its dots. -/
private theorem join_dots : ∀ (path : List (List Char)) (i : Nat) (c : Char), (join ['.'] path)[i]? = some c →
    ∃ d, (join ['_'] path)[i]? = some d ∧ (d = c ∨ (c = '.' ∧ d = '_'))
  | [], i, c, h => by simp [join] at h
  | [x], i, c, h => ⟨c, h, .inl rfl⟩
  | x :: y :: ys, i, c, h => by
    rw [join_cons _ _ (by simp)] at h ⊢
    by_cases h1 : i < x.length
    · rw [List.append_assoc, List.getElem?_append_left h1] at h ⊢
      exact ⟨c, h, .inl rfl⟩
    · rw [List.append_assoc, List.getElem?_append_right (by omega)] at h ⊢
      by_cases h2 : i - x.length = 0
      · rw [h2] at h ⊢
        simp only [List.singleton_append, List.getElem?_cons_zero, Option.some.injEq] at h ⊢
        exact ⟨'_', rfl, .inr ⟨h.symm, rfl⟩⟩
      · obtain ⟨j, hj⟩ : ∃ j, i - x.length = j + 1 := ⟨i - x.length - 1, by omega⟩
        rw [hj] at h ⊢
        simp only [List.singleton_append, List.getElem?_cons_succ] at h ⊢
        exact join_dots (y :: ys) j c h

/-- A table whose full name starts with the prefix matches. -/
private theorem match_of_prefix {t : Table} {p : List Char} (hnl : '\n' ∉ fullName t) (h : p <+: fullName t) : matchString p (tableName t) = true := by
  rw [matchString_iff]
  refine ⟨0, by simp, ?_⟩
  intro i c hc
  obtain ⟨r, hr⟩ := h
  have hfc : (fullName t)[i]? = some c := by
    rw [← hr, List.getElem?_append_left (List.getElem?_eq_some_iff.mp hc).1]; exact hc
  obtain ⟨d, hd1, hd2⟩ := join_dots t.path i c hfc
  refine ⟨d, by simpa [tableName] using hd1, ?_⟩
  rcases hd2 with rfl | ⟨rfl, rfl⟩
  · split
    · intro e
      subst e
      exact hnl (List.mem_of_getElem? hfc)
    · rfl
  · simp

/-- The query for a prefix that starts with the first identifier of the tables. -/
private theorem query_eq {S : Sorter} {tables : List Table} {p : List Char} (hp : '*' ∉ p)
    (hfirst : ∀ t ∈ tables, ∃ f, t.path.head? = some f ∧ (f ++ ['.']) <+: p) {t : Table} {ts : List Table} (hm : matched S tables p = t :: ts) :
    query S tables [p ++ ['*']] = branches { columns := t.columns, tables := t :: ts, pre := p } (t :: ts) := by
  have hname : trimRight (join ['_'] [p ++ ['*']]) ['*'] = p := trim_star hp
  have ht : t ∈ tables := by
    have h1 : t ∈ matched S tables p := by rw [hm]; simp
    exact (List.mem_filter.mp ((S.perm _ _).mem_iff.mp h1)).1
  obtain ⟨f, hf1, hf2⟩ := hfirst t ht
  obtain ⟨last, hl⟩ : ∃ l, t.path.getLast? = some l := by
    cases hp : t.path with
    | nil => rw [hp] at hf1; cases hf1
    | cons a as => exact ⟨_, List.getLast?_eq_some_getLast (by simp)⟩
  unfold query create
  simp only [hname, hm, hf1, hl]
  rw [if_neg (by simp), if_pos (isPrefixOf_iff.mpr hf2)]
  rfl

private theorem query_none {S : Sorter} {tables : List Table} {p : List Char} (hp : '*' ∉ p) (hm : matched S tables p = []) :
    query S tables [p ++ ['*']] = .err := by
  have hname : trimRight (join ['_'] [p ++ ['*']]) ['*'] = p := trim_star hp
  unfold query create
  simp only [hname, hm]
  rfl

/-- **C73** Completeness: every table whose full name starts with the prefix is read, with the rest of its name as the
suffix, whenever the query is answered. -/
theorem C73_complete_partial (S : Sorter) (tables : List Table) (p : List Char) (bs : List Branch)
    (hp : '*' ∉ p) (hnl : ∀ t ∈ tables, '\n' ∉ fullName t)
    (hfirst : ∀ t ∈ tables, ∃ f, t.path.head? = some f ∧ (f ++ ['.']) <+: p)
    (h : query S tables [p ++ ['*']] = .ok bs) :
    ∀ t ∈ tables, p <+: fullName t → ∃ b ∈ bs, b.table = t ∧ fullName t = p ++ b.suffix := by
  intro t ht hpre
  have hin : t ∈ matched S tables p :=
    (S.perm _ _).mem_iff.mpr (List.mem_filter.mpr ⟨ht, match_of_prefix (hnl t ht) hpre⟩)
  cases hm : matched S tables p with
  | nil => rw [hm] at hin; cases hin
  | cons s ss =>
    rw [query_eq hp hfirst hm] at h
    obtain ⟨e1, e2⟩ := branches_ok h
    rw [hm, ← e1] at hin
    obtain ⟨b, hb, rfl⟩ := List.mem_map.mp hin
    refine ⟨b, hb, rfl, ?_⟩
    rw [(e2 b hb).2.1]
    exact (List.prefix_iff_eq_append.mp hpre).symm

/-- **C73** When the underscore name of no table agrees with the prefix (dots agreeing with anything) unless its full name
really starts with the prefix and goes on, the query is right. -/
theorem C73_partial (S : Sorter) (tables : List Table) (p : List Char) (hp : '*' ∉ p) (hnl : ∀ t ∈ tables, '\n' ∉ fullName t)
    (hfirst : ∀ t ∈ tables, ∃ f, t.path.head? = some f ∧ (f ++ ['.']) <+: p)
    (hclear : ∀ t ∈ tables, ∀ k, Agrees p (tableName t) k → p <+: fullName t ∧ fullName t ≠ p) :
    let sel := tables.filter fun t => p.isPrefixOf (fullName t)
    (sel = [] → query S tables [p ++ ['*']] = .err) ∧
    (sel ≠ [] → ∃ bs, query S tables [p ++ ['*']] = .ok bs ∧ (bs.map Branch.table).Perm sel ∧
      ∀ b ∈ bs, fullName b.table = p ++ b.suffix ∧ ∀ c ∈ b.columns, (c.2 = true ↔ c.1 ∈ b.table.columns)) := by
  intro sel
  have hsel : tables.filter (fun t => matchString p (tableName t)) = sel := by
    apply List.filter_congr
    intro t ht
    rw [Bool.eq_iff_iff, isPrefixOf_iff]
    refine ⟨fun hmt => ?_, match_of_prefix (hnl t ht)⟩
    obtain ⟨k, _, hk⟩ := (matchString_iff _ _).mp hmt
    exact (hclear t ht k hk).1
  have hperm : (matched S tables p).Perm sel := by rw [← hsel]; exact S.perm _ _
  have hall : ∀ t ∈ matched S tables p, p <+: fullName t ∧ p.length < (fullName t).length := by
    intro t ht
    rw [hperm.mem_iff, ← hsel] at ht
    obtain ⟨ht1, ht2⟩ := List.mem_filter.mp ht
    obtain ⟨k, _, hk⟩ := (matchString_iff _ _).mp ht2
    obtain ⟨h1, h2⟩ := hclear t ht1 k hk
    refine ⟨h1, ?_⟩
    rcases Nat.lt_or_ge p.length (fullName t).length with h | h
    · exact h
    · exact absurd (h1.eq_of_length (Nat.le_antisymm h1.length_le h)).symm h2
  cases hm : matched S tables p with
  | nil =>
    rw [hm] at hperm
    have : sel = [] := List.nil_perm.mp hperm
    exact ⟨fun _ => query_none hp hm, fun h => absurd this h⟩
  | cons s ss =>
    rw [hm] at hperm hall
    refine ⟨fun h => ?_, fun _ => ?_⟩
    · rw [h] at hperm
      exact absurd hperm.eq_nil (by simp)
    · obtain ⟨bs, hb⟩ := branches_total (w := { columns := s.columns, tables := s :: ss, pre := p }) (fun t ht => (hall t ht).2)
      obtain ⟨e1, e2⟩ := branches_ok hb
      refine ⟨bs, by rw [query_eq hp hfirst hm]; exact hb, by rw [e1]; exact hperm, ?_⟩
      intro b hb
      obtain ⟨_, f2, f3⟩ := e2 b hb
      have hbt : b.table ∈ s :: ss := by rw [← e1]; exact List.mem_map_of_mem hb
      refine ⟨?_, ?_⟩
      · rw [f2]; exact (List.prefix_iff_eq_append.mp (hall _ hbt).1).symm
      · intro c hc
        rw [f3] at hc
        unfold branchColumns at hc
        obtain ⟨x, _, rfl⟩ := List.mem_map.mp hc
        simp

/-! ### What goes wrong -/

/-- A table in the same dataset that merely contains the text: `p.d.t_*` also reads `p.d.old_p_d_t_`. -/
def strayTables : List Table :=
  [⟨[['p'], ['d'], ['t', '_', '1']], [['x']], 1⟩, ⟨[['p'], ['d'], ['o', '_', 'p', '_', 'd', '_', 't', '_']], [['x']], 0⟩]

theorem C73_full_false (S : Sorter) : ¬ C73_full S := by
  intro h
  have hN : ∀ t ∈ strayTables, Named t := by
    intro t ht
    simp only [strayTables, List.mem_cons, List.not_mem_nil, or_false] at ht
    rcases ht with rfl | rfl
    · exact ⟨_, _, _, rfl, by decide, by decide, by decide, by decide, by decide, by decide, by decide, by decide, by decide⟩
    · exact ⟨_, _, _, rfl, by decide, by decide, by decide, by decide, by decide, by decide, by decide, by decide, by decide⟩
  obtain ⟨bs, h1, h2, -⟩ := (h strayTables ['p'] ['d'] ['t', '_'] hN (by decide) (by decide) (by decide) (by decide) (by decide)
    (by decide) (by decide) (by decide) (by decide)).2 (by decide)
  obtain ⟨t, ts, w, e1, -, -, e4, e5⟩ := query_parts h1
  have e6 := (branches_ok e5).1
  have hlen : (bs.map Branch.table).length = 2 := by
    rw [e6, e4, ← e1]
    unfold matched
    rw [(S.perm _ _).length_eq]
    decide
  have hlen' := h2.length_eq
  rw [hlen] at hlen'
  revert hlen'
  decide

/-- A table whose name is the prefix itself makes the whole query fail instead of having an empty suffix. -/
theorem C73_empty_suffix_counterexample (S : Sorter) :
    query S [⟨[['p'], ['d'], ['t']], [], 1⟩] ["p.d.t*".toList] = .err := by
  have hs : matched S [⟨[['p'], ['d'], ['t']], [], 1⟩] ['p', '.', 'd', '.', 't'] = [⟨[['p'], ['d'], ['t']], [], 1⟩] := by
    unfold matched
    rw [show List.filter (fun t => matchString ['p', '.', 'd', '.', 't'] (tableName t)) [⟨[['p'], ['d'], ['t']], [], 1⟩] =
      [⟨[['p'], ['d'], ['t']], [], 1⟩] by decide]
    exact List.perm_singleton.mp (S.perm _ _)
  have := query_eq (S := S) (p := ['p', '.', 'd', '.', 't']) (by decide) (by
    intro t ht
    simp only [List.mem_singleton] at ht
    subst ht
    exact ⟨['p'], rfl, by decide⟩) hs
  rw [show "p.d.t*".toList = ['p', '.', 'd', '.', 't'] ++ ['*'] by decide, this]
  decide

/-- With the parts quoted one by one the prefix is put together with underscores, and every query fails. -/
theorem C73_parts_counterexample (S : Sorter) :
    query S [⟨[['p'], ['d'], ['t', '1']], [], 1⟩] [['p'], ['d'], ['t', '*']] = .err := by
  have hs : matched S [⟨[['p'], ['d'], ['t', '1']], [], 1⟩] ['p', '_', 'd', '_', 't'] = [⟨[['p'], ['d'], ['t', '1']], [], 1⟩] := by
    unfold matched
    rw [show List.filter (fun t => matchString ['p', '_', 'd', '_', 't'] (tableName t)) [⟨[['p'], ['d'], ['t', '1']], [], 1⟩] =
      [⟨[['p'], ['d'], ['t', '1']], [], 1⟩] by decide]
    exact List.perm_singleton.mp (S.perm _ _)
  have hn : trimRight (join ['_'] [['p'], ['d'], ['t', '*']]) ['*'] = ['p', '_', 'd', '_', 't'] := by decide
  unfold query create
  simp only [hn, hs]
  decide

/-- Two tables of one dataset and one of another meet the hypotheses of `C73_partial`. -/
example : ∀ t ∈ [Table.mk [['p'], ['d'], ['t', '1']] [] 1, ⟨[['p'], ['d'], ['t', '2']] , [], 2⟩, ⟨[['p'], ['e'], ['t', '3']], [], 3⟩],
    matchString ['p', '.', 'd', '.', 't'] (tableName t) = true → ['p', '.', 'd', '.', 't'] <+: fullName t ∧ fullName t ≠ ['p', '.', 'd', '.', 't'] := by
  decide

end Verif.Wildcard
