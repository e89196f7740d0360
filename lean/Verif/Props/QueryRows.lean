import Verif.Props.QueryOrder

/-!
# Queries: what LIMIT, GROUP BY, set operations and joins yield
-/

namespace Verif.Query

set_option linter.unusedSectionVars false

/-! ### C145: LIMIT and OFFSET -/

/-- C145: LIMIT n OFFSET m on an ordered query yields the rows m+1 to m+n of the ordered rows. -/
theorem C145 {V : Type} [DecidableEq V] (S : Sem V) (hS : Total S.cmp) (db : Db V) (out : List (Col × List Char)) (s : Scan)
    (items : List OrdItem) (cols lcols : List Col) (n : Nat) (off : Option Nat) (L : List (List V))
    (hr : Resolved (.limit (.order s items cols) n off lcols))
    (hok : okS uid (fun _ => none) (.limit (.order s items cols) n off lcols)) (hout : out ≠ []) (hsub : ∀ x ∈ out, x.1 ∈ lcols)
    (he : evalS S db (fun _ => none) (fun _ => none) s = some L) :
    ∃ (t : List Tok) (L' : List (List V)), fmtQuery out (.limit (.order s items cols) n off lcols) = some t ∧ L'.Perm L ∧
      L'.Pairwise (fun a b => InOrder S items (lk s.cols a) (lk s.cols b)) ∧
      Yields S db t (out.map fun x => .raw x.2,
        ((L'.drop ((off.map S.count).getD 0)).take (S.count n)).map fun a => out.map fun x => valOf S s.cols a x.1) := by
  have hok' := hok
  unfold okS at hok'
  obtain ⟨hok1, _, hlc⟩ := hok'
  unfold okS at hok1
  obtain ⟨hoks, _, _, hc, hi⟩ := hok1
  have hl := rows_len (S := S) (db := db) (s := s) hr.ids hr.inScope hoks he
  obtain ⟨L', h1, h2, h3⟩ := order_rows hS he hl hc hi
  have h4 : evalS S db (fun _ => none) (fun _ => none) (.limit (.order s items cols) n off lcols) =
      some (((L'.drop ((off.map S.count).getD 0)).take (S.count n)).map fun a => lcols.map (valOf S s.cols a)) := by
    rw [evalS.eq_11, h3]
    simp only
    rw [mapO_map, mapO_some_map (g := fun a => lcols.map (valOf S s.cols a)) fun a ha => by
      rw [pick_valOf (S := S) (by simp [Scan.cols]) hlc]
      exact congrArg some (List.map_congr_left fun c hc' => valOf_map _ (hlc c hc'))]
    simp only [Option.map_some, limited, List.map_take, List.map_drop]
  obtain ⟨t, h5, h6⟩ := C134_partial _ hr hok V inferInstance S db out _
    (((L'.drop ((off.map S.count).getD 0)).take (S.count n)).map fun a => out.map fun x => valOf S s.cols a x.1) hout h4 (by
    generalize (L'.drop ((off.map S.count).getD 0)).take (S.count n) = L''
    rw [mapO_map]
    refine mapO_some_map fun a _ => ?_
    rw [pick_valOf (S := S) (by simp [Scan.cols]) (by simpa [Scan.cols] using hsub), List.map_map]
    exact congrArg some (List.map_congr_left fun x hx => valOf_map _ (hsub x hx)))
  exact ⟨t, L', h5, h1, h2, h6⟩

/-- `SELECT a FROM t ORDER BY a LIMIT 1 OFFSET 1` meets the hypotheses. -/
example : ∃ (t : List Tok) (L' : List (List (Option Int))),
    fmtQuery [(ca, ['a'])] (.limit (.order (pr T [ca]) [⟨ca, false, .unspecified⟩] [ca]) 1 (some 1) [ca]) = some t ∧
    L'.Perm [[some 1], [some 2], [some 3]] ∧
    L'.Pairwise (fun a b => InOrder S0 [⟨ca, false, .unspecified⟩] (lk [ca] a) (lk [ca] b)) ∧
    Yields S0 db0 t ([.raw ['a']], ((L'.drop 1).take 1).map fun a => [valOf S0 [ca] a ca]) :=
  C145 S0 total_S0 db0 [(ca, ['a'])] (pr T [ca]) _ _ _ _ _ _ ⟨by decide, by simp [pr, T, scopedS, scopedCs], rfl⟩
    (by simp [pr, T, okS, okCs, Scan.cols]) (by simp) (by simp) (by decide +kernel)

/-! ### C146: GROUP BY -/

theorem nodup_eraseDups' {α : Type} [BEq α] [LawfulBEq α] : ∀ (n : Nat) (l : List α), l.length ≤ n → l.eraseDups.Nodup
  | _, [], _ => by simp
  | 0, a :: l, h => by simp at h
  | n + 1, a :: l, h => by
    rw [List.eraseDups_cons, List.nodup_cons]
    refine ⟨fun hm => ?_, nodup_eraseDups' n _ ?_⟩
    · simp at hm
    · have := List.length_filter_le (fun b => !b == a) l
      simp only [List.length_cons] at h
      omega

theorem evalCs_length {V : Type} [DecidableEq V] {S : Sem V} {db : Db V} {w : WEnv V} {env : Env V} : ∀ {es : CExprs} {vs : List V},
    evalCs S db w env es = some vs → vs.length = es.cols.length
  | .nil, vs, h => by
    simp only [evalCs, Option.some.injEq] at h
    subst h
    rfl
  | .cons c e es, vs, h => by
    simp only [evalCs] at h
    split at h
    · rename_i v vs' _ h2
      cases h
      simp [CExprs.cols, evalCs_length h2]
    · simp at h

theorem evalAs_length {V : Type} [DecidableEq V] {S : Sem V} {db : Db V} {w : WEnv V} {envs : List (Env V)} : ∀ {as : Aggs} {vs : List V},
    evalAs S db w envs as = some vs → vs.length = as.cols.length
  | .nil, vs, h => by
    simp only [evalAs, Option.some.injEq] at h
    subst h
    rfl
  | .cons c f args as, vs, h => by
    simp only [evalAs] at h
    split at h
    · rename_i v vs' _ h2
      cases h
      simp [Aggs.cols, evalAs_length h2]
    · simp at h

theorem gcols_sublist : ∀ es : CExprs, es.cols.Sublist (intCs es)
  | .nil => List.Sublist.slnil
  | .cons c e es => by
    simp only [CExprs.cols, intCs]
    exact ((gcols_sublist es).trans (List.sublist_append_right ..)).cons_cons c

theorem acols_sublist : ∀ as : Aggs, as.cols.Sublist (intAs as)
  | .nil => List.Sublist.slnil
  | .cons c f args as => by
    simp only [Aggs.cols, intAs]
    exact ((acols_sublist as).trans (List.sublist_append_right ..)).cons_cons c

theorem mapO_map_eq {α β γ : Type} {f : α → Option β} {h : β → γ} {p : α → γ} : ∀ {l : List α} {r : List β}, mapO f l = some r →
    (∀ a ∈ l, ∀ b, f a = some b → h b = p a) → r.map h = l.map p
  | [], r, hm, _ => by
    simp only [mapO, Option.some.injEq] at hm
    subst hm
    rfl
  | a :: l, r, hm, hh => by
    obtain ⟨b, bs, h1, h2, rfl⟩ := mapO_cons hm
    simp only [List.map_cons, hh a (List.mem_cons_self ..) b h1, mapO_map_eq h2 fun x hx => hh x (List.mem_cons_of_mem _ hx)]

/-- The rows of the input with a key. -/
def withKey {V : Type} [DecidableEq V] (key : List V → Option (List V)) (k : List V) (L : List (List V)) : List (List V) :=
  L.filter fun a => key a = some k

/-- C146: GROUP BY yields one row for each value of the grouping expressions that occurs, with the aggregates of the input
rows that have these values. -/
theorem C146 {V : Type} [DecidableEq V] (S : Sem V) (db : Db V) (out : List (Col × List Char)) (s : Scan)
    (groups : CExprs) (aggs : Aggs) (L rows : List (List V))
    (hr : Resolved (.agg s groups aggs (groups.cols ++ aggs.cols)))
    (hok : okS uid (fun _ => none) (.agg s groups aggs (groups.cols ++ aggs.cols))) (hg : groups.cols ≠ [])
    (hout : out.map (·.1) = groups.cols ++ aggs.cols)
    (he : evalS S db (fun _ => none) (fun _ => none) s = some L)
    (hev : evalS S db (fun _ => none) (fun _ => none) (.agg s groups aggs (groups.cols ++ aggs.cols)) = some rows) :
    let key := fun a => evalCs S db (fun _ => none) (bindR s.cols a fun _ => none) groups
    let g := groups.cols.length
    ∃ (t : List Tok) (R : List (List V)), fmtQuery out (.agg s groups aggs (groups.cols ++ aggs.cols)) = some t ∧
      Yields S db t (out.map fun x => .raw x.2, R) ∧ (R.map (List.take g)).Nodup ∧
      (∀ k, k ∈ R.map (List.take g) ↔ ∃ a ∈ L, key a = some k) ∧
      ∀ r ∈ R, evalAs S db (fun _ => none) ((withKey key (r.take g) L).map fun a => bindR s.cols a fun _ => none) aggs = some (r.drop g) := by
  intro key g
  have hnd : (groups.cols ++ aggs.cols).Nodup := by
    have h1 : (intCs groups ++ intAs aggs).Sublist (intS (.agg s groups aggs (groups.cols ++ aggs.cols))) := by
      simp only [intS]
      exact List.sublist_append_right ..
    have h2 := ((gcols_sublist groups).append (acols_sublist aggs)).trans h1
    have h3 := (h2.map (·.id)).nodup hr.ids
    exact List.Pairwise.of_map (·.id) (fun a b h e => h (by rw [e])) h3
  have hcols : (Scan.agg s groups aggs (groups.cols ++ aggs.cols)).cols = groups.cols ++ aggs.cols := rfl
  have hne : out ≠ [] := by
    intro h
    rw [h] at hout
    simp at hout
    exact hg hout.1
  rw [evalS.eq_8, he] at hev
  simp only at hev
  cases hk : mapO (fun a => (key a).map fun k => (k, a)) L with
  | none =>
    simp only [key] at hk
    rw [hk] at hev
    simp at hev
  | some keyed =>
    have hk' := hk
    simp only [key] at hk'
    have hev0 := hev
    rw [hk'] at hev
    simp only at hev
    have hemp : groups.cols.isEmpty = false := by
      cases hgc : groups.cols with
      | nil => exact absurd hgc hg
      | cons _ _ => rfl
    simp only [hemp, grouped, Bool.false_eq_true, if_false] at hev
    have hlen : ∀ a k, key a = some k → k.length = g := fun a k h => evalCs_length h
    have hmem : ∀ k, k ∈ keyed.map (·.1) ↔ ∃ a ∈ L, key a = some k := by
      intro k
      constructor
      · intro h
        obtain ⟨x, hx, rfl⟩ := List.mem_map.1 h
        obtain ⟨a, ha, h⟩ := mapO_mem hk x hx
        cases hka : key a with
        | none => simp [hka] at h
        | some k =>
          simp only [hka, Option.map_some, Option.some.injEq] at h
          subst h
          exact ⟨a, ha, hka⟩
      · rintro ⟨a, ha, h⟩
        obtain ⟨x, hx, h'⟩ := mapO_some hk a ha
        simp only [h, Option.map_some, Option.some.injEq] at h'
        subst h'
        exact List.mem_map.2 ⟨_, hx, rfl⟩
    have hwith : ∀ k, (keyed.filter fun x => x.1 = k).map (·.2) = withKey key k L := by
      intro k
      clear hev0 hev hk' hmem he
      induction L generalizing keyed with
      | nil =>
        simp only [mapO, Option.some.injEq] at hk
        subst hk
        rfl
      | cons a L ih =>
        obtain ⟨b, bs, h1, h2, rfl⟩ := mapO_cons hk
        cases hka : key a with
        | none => simp [hka] at h1
        | some k' =>
          simp only [hka, Option.map_some, Option.some.injEq] at h1
          subst h1
          have := ih bs h2
          by_cases hkk : k' = k
          · simp [withKey, hka, hkk] at this ⊢
            exact this
          · simp [withKey, hka, hkk] at this ⊢
            exact this
    have hrow : ∀ x ∈ ((keyed.map (·.1)).eraseDups.map fun k => (k, (keyed.filter fun x => x.1 = k).map (·.2))), ∀ r,
        (match evalAs S db (fun _ => none) (x.2.map fun a => bindR s.cols a fun _ => none) aggs with
          | none => none
          | some vs => pick (groups.cols ++ aggs.cols) (x.1 ++ vs) (groups.cols ++ aggs.cols)) = some r →
        r.length = (groups.cols ++ aggs.cols).length ∧ r.take g = x.1 ∧
          evalAs S db (fun _ => none) ((withKey key x.1 L).map fun a => bindR s.cols a fun _ => none) aggs = some (r.drop g) := by
      intro x hx r h
      obtain ⟨k, hkm, rfl⟩ := List.mem_map.1 hx
      obtain ⟨a, ha, hka⟩ := (hmem k).1 (List.mem_eraseDups.1 hkm)
      have hkl := hlen a k hka
      cases hvs : evalAs S db (fun _ => none) ((keyed.filter fun x => x.1 = k).map (·.2) |>.map fun a => bindR s.cols a fun _ => none) aggs with
      | none => rw [hvs] at h; simp at h
      | some vs =>
        rw [hvs] at h
        simp only at h
        have hvl := evalAs_length hvs
        have hps : pick (groups.cols ++ aggs.cols) (k ++ vs) (groups.cols ++ aggs.cols) = some (k ++ vs) :=
          pick_self hnd (by simp [hkl, hvl, g])
        rw [hps] at h
        cases h
        rw [hwith] at hvs
        exact ⟨by simp [hkl, hvl, g], by simp [← hkl], by simpa [← hkl] using hvs⟩
    have htake : rows.map (List.take g) = (keyed.map (·.1)).eraseDups := by
      have := mapO_map_eq (h := List.take g) (p := fun x => x.1) hev fun x hx r h => (hrow x hx r h).2.1
      rw [this, List.map_map]
      simp [Function.comp_def]
    obtain ⟨t, h1, h2⟩ := C134_partial _ hr hok V inferInstance S db out rows rows hne (by
        rw [evalS.eq_8, he]
        exact hev0) (by
      rw [hcols, hout]
      have := mapO_some_map (f := fun a => pick (groups.cols ++ aggs.cols) a (groups.cols ++ aggs.cols)) (g := id) (l := rows) (fun r hr' => by
        obtain ⟨x, hx, h⟩ := mapO_mem hev r hr'
        exact pick_self hnd (hrow x hx r h).1)
      simpa using this)
    refine ⟨t, rows, h1, h2, ?_, fun k => ?_, fun r hr' => ?_⟩
    · rw [htake]
      exact nodup_eraseDups' _ _ (Nat.le_refl _)
    · rw [htake, List.mem_eraseDups]
      exact hmem k
    · obtain ⟨x, hx, h⟩ := mapO_mem hev r hr'
      have h3 := hrow x hx r h
      rw [h3.2.1]
      exact h3.2.2

/-- `SELECT b AS c, COUNT(*) AS d FROM u GROUP BY c`, in the database `db0`. -/
example : ∃ (t : List Tok) (R : List (List (Option Int))),
    fmtQuery [(cc, ['c']), (cd, ['d'])] (.agg U (.cons cc (.col cb) .nil) (.cons cd 1 .nil .nil) [cc, cd]) = some t ∧
    Yields S0 db0 t ([.raw ['c'], .raw ['d']], R) := by
  obtain ⟨t, R, h1, h2, _⟩ := C146 S0 db0 [(cc, ['c']), (cd, ['d'])] U (.cons cc (.col cb) .nil) (.cons cd 1 .nil .nil)
    [[some 2], [some 2]] [[some 2, some 2]]
    ⟨by decide, by simp [U, scopedS, scopedE, scopedEs, scopedCs, scopedAs], rfl⟩
    (by simp [U, okS, okE, okEs, okCs, okAs, ownAs, fmtEs, owned, nmEs, CExprs.cols, Aggs.cols]) (by simp [CExprs.cols]) rfl (by decide +kernel) (by decide +kernel)
  exact ⟨t, R, h1, h2⟩

/-! ### C147: set operations -/

/-- What the rows `R` of a set operation are, for the rows `l :: ls` of its queries. -/
def IsSetOp {V : Type} [DecidableEq V] (o : SetOp) (l : List (List V)) (ls : List (List (List V))) (R : List (List V)) : Prop :=
  match o with
  | .unionAll => ∀ x, R.count x = l.count x + (ls.map fun m => m.count x).sum
  | .union => (ls ≠ [] → R.Nodup) ∧ ∀ x, x ∈ R ↔ x ∈ l ∨ ∃ m ∈ ls, x ∈ m
  | .intersect => (ls ≠ [] → R.Nodup) ∧ ∀ x, x ∈ R ↔ x ∈ l ∧ ∀ m ∈ ls, x ∈ m
  | .except => (ls ≠ [] → R.Nodup) ∧ ∀ x, x ∈ R ↔ x ∈ l ∧ ∀ m ∈ ls, x ∉ m
  | _ => True

theorem foldSet_is {V : Type} [DecidableEq V] (o : SetOp) : ∀ (ls : List (List (List V))) (l : List (List V)),
    IsSetOp o l ls (foldSet o (l :: ls))
  | [], l => by cases o <;> simp [IsSetOp, foldSet]
  | m :: ls, l => by
    have ih := foldSet_is o ls (setRows o l m)
    have hf : foldSet o (l :: m :: ls) = foldSet o (setRows o l m :: ls) := rfl
    have hnd : ∀ r : List (List V), r.eraseDups.Nodup := fun r => nodup_eraseDups' _ r (Nat.le_refl _)
    rw [hf]
    have h1 : ls = [] → foldSet o (setRows o l m :: ls) = setRows o l m := by
      rintro rfl
      rfl
    generalize foldSet o (setRows o l m :: ls) = R at ih h1
    cases o with
    | unionAll =>
      intro x
      rw [ih x]
      simp [setRows, List.count_append]
      omega
    | union =>
      refine ⟨fun _ => ?_, fun x => ?_⟩
      · by_cases hl : ls = []
        · rw [h1 hl]
          exact hnd _
        · exact ih.1 hl
      · rw [ih.2 x]
        simp [setRows, or_assoc]
    | intersect =>
      refine ⟨fun _ => ?_, fun x => ?_⟩
      · by_cases hl : ls = []
        · rw [h1 hl]
          exact hnd _
        · exact ih.1 hl
      · rw [ih.2 x]
        simp [setRows, and_assoc]
    | except =>
      refine ⟨fun _ => ?_, fun x => ?_⟩
      · by_cases hl : ls = []
        · rw [h1 hl]
          exact hnd _
        · exact ih.1 hl
      · rw [ih.2 x]
        simp [setRows, and_assoc]
    | intersectAll => trivial
    | exceptAll => trivial

/-- C147: UNION ALL yields each row as often as its queries together; UNION, INTERSECT and EXCEPT DISTINCT yield, each once, the
rows of one of the queries, of all queries, and of the first but none of the others. -/
theorem C147 {V : Type} [DecidableEq V] (S : Sem V) (db : Db V) (out : List (Col × List Char)) (o : SetOp) (items : Items)
    (cols : List Col) (l : List (List V)) (ls : List (List (List V))) (hr : Resolved (.setop o items cols))
    (hok : okS uid (fun _ => none) (.setop o items cols)) (hout : out.map (·.1) = cols)
    (he : evalIs S db (fun _ => none) (fun _ => none) items = some (l :: ls)) :
    ∃ (t : List Tok) (R : List (List V)), fmtQuery out (.setop o items cols) = some t ∧
      Yields S db t (out.map fun x => .raw x.2, R) ∧ IsSetOp o l ls R := by
  have hev : evalS S db (fun _ => none) (fun _ => none) (.setop o items cols) = some (foldSet o (l :: ls)) := by
    rw [evalS.eq_9, he]
    rfl
  have hl := rows_len hr.ids hr.inScope hok hev
  have hnd : cols.Nodup := by
    have h1 : cols.Sublist (intS (.setop o items cols)) := by
      simp only [intS]
      exact List.sublist_append_right ..
    have h3 : (cols.map (·.id)).Nodup := (h1.map (·.id)).nodup hr.ids
    exact List.Pairwise.of_map (·.id) (fun a b h e => h (by rw [e])) h3
  have hne : out ≠ [] := by
    intro h
    unfold okS at hok
    rw [h] at hout
    exact hok.2.2.2.1 hout.symm
  obtain ⟨t, h1, h2⟩ := C134_partial _ hr hok V inferInstance S db out _ (foldSet o (l :: ls)) hne hev (by
    have := mapO_some_map (f := fun a => pick cols a cols) (g := id) (l := foldSet o (l :: ls)) (fun r hr' => pick_self hnd (hl r hr'))
    rw [hout]
    rw [List.map_id] at this
    exact this)
  exact ⟨t, _, h1, h2, foldSet_is o ls l⟩

/-- `SELECT a FROM t EXCEPT DISTINCT SELECT b FROM u` meets the hypotheses. -/
example : ∃ (t : List Tok) (R : List (List (Option Int))),
    fmtQuery [(cc, ['c'])] (.setop .except (.cons (pr T [ca]) [ca] (.cons (pr U [cb]) [cb] .nil)) [cc]) = some t ∧
    Yields S0 db0 t ([.raw ['c']], R) ∧ IsSetOp .except [[some 1], [some 2], [some 3]] [[[some 2], [some 2]]] R :=
  C147 S0 db0 [(cc, ['c'])] .except _ [cc] _ _ ⟨by decide, by simp [pr, T, U, scopedS, scopedIs, scopedCs], rfl⟩
    (by simp [pr, T, U, okS, okIs, okCs, Scan.cols, sqliteHas, Items.isNil, Items.outsLen, Items.firstOuts]) rfl (by decide +kernel)

/-! ### C148: joins -/

/-- The rows `R` of a join of the rows `L` and `M`, for the condition `p`: up to order, one for each pair of rows that match, and,
for an outer join, one for each row without match, with NULLs. -/
def IsJoin {V : Type} [DecidableEq V] (null : V) (k : JK) (wl wr : Nat) (p : List V → List V → Bool) (L M R : List (List V)) : Prop :=
  R.Perm ((L.flatMap fun a => (M.filter fun b => p a b).map fun b => a ++ b) ++
    (if k = .left ∨ k = .full then (L.filter fun a => M.all fun b => !p a b).map fun a => a ++ List.replicate wr null else []) ++
    (if k = .right ∨ k = .full then (M.filter fun b => L.all fun a => !p a b).map fun b => List.replicate wl null ++ b else []))

theorem filtO_eq {α : Type} {f : α → Option Bool} : ∀ {l r : List α}, filtO f l = some r → r = l.filter fun a => decide (f a = some true)
  | [], r, h => by
    simp only [filtO, Option.some.injEq] at h
    simpa using h.symm
  | x :: l, r, h => by
    obtain ⟨b, bs, h1, h2, rfl⟩ := filtO_cons h
    have ih := filtO_eq h2
    cases b with
    | true => simp [h1, ← ih]
    | false => simp [h1, ← ih]

theorem mapO_eq_map {α β : Type} {f : α → Option β} {g : α → β} (hfg : ∀ a b, f a = some b → b = g a) :
    ∀ {l : List α} {r : List β}, mapO f l = some r → r = l.map g
  | [], r, h => by
    simp only [mapO, Option.some.injEq] at h
    simpa using h.symm
  | a :: l, r, h => by
    obtain ⟨b, bs, h1, h2, rfl⟩ := mapO_cons h
    simp [hfg a b h1, mapO_eq_map hfg h2]

theorem leftOuter_perm {V : Type} {wr : Nat} {null : V} {f : List V → List (List V)} [DecidableEq V] : ∀ (L : List (List V)),
    (L.flatMap fun a => if f a = [] then [a ++ List.replicate wr null] else (f a).map fun b => a ++ b).Perm
      ((L.flatMap fun a => (f a).map fun b => a ++ b) ++ (L.filter fun a => decide (f a = [])).map fun a => a ++ List.replicate wr null)
  | [] => by simp
  | a :: L => by
    have ih := leftOuter_perm (wr := wr) (null := null) (f := f) L
    simp only [List.flatMap_cons]
    by_cases h : f a = []
    · simp only [h, if_true, List.map_nil, List.nil_append, List.singleton_append]
      rw [List.filter_cons_of_pos (by simpa using h), List.map_cons]
      exact (ih.cons _).trans List.perm_middle.symm
    · simp only [h, if_false]
      rw [List.filter_cons_of_neg (by simpa using h), List.append_assoc]
      exact ih.append_left _

theorem filter_empty {α : Type} {f : α → Bool} : ∀ {l : List α}, l.filter f = [] ↔ (l.all fun b => !f b) = true := by
  intro l
  simp [List.filter_eq_nil_iff]

theorem joinRows_is {V : Type} [DecidableEq V] {null : V} {k : JK} {wl wr : Nat} {p : List V → List V → Option Bool}
    {L M R : List (List V)} (h : joinRows null k wl wr p L M = some R) :
    IsJoin null k wl wr (fun a b => decide (p a b = some true)) L M R := by
  unfold joinRows at h
  split at h
  · simp at h
  rename_i pairs hp
  have hpairs : pairs = L.map fun a => (a, M.filter fun b => decide (p a b = some true)) := by
    refine mapO_eq_map ?_ hp
    intro a q hq
    cases hf : filtO (p a) M with
    | none => simp [hf] at hq
    | some rs =>
      simp only [hf, Option.map_some, Option.some.injEq] at hq
      rw [← hq, filtO_eq hf]
  subst hpairs
  simp only [List.flatMap_map, List.any_map, Function.comp_def] at h
  have hlo := leftOuter_perm (wr := wr) (null := null) (f := fun a => M.filter fun b => decide (p a b = some true)) L
  have he : (L.filter fun a => decide (M.filter (fun b => decide (p a b = some true)) = [])) = L.filter fun a => M.all fun b => !decide (p a b = some true) := by
    refine List.filter_congr fun a _ => ?_
    rw [Bool.eq_iff_iff, decide_eq_true_eq]
    exact filter_empty
  rw [he] at hlo
  have hl : (M.filter fun r => !(L.any fun a => decide (r ∈ M.filter fun b => decide (p a b = some true)))) =
      M.filter fun b => L.all fun a => !decide (p a b = some true) := by
    refine List.filter_congr fun b hb => ?_
    rw [List.all_eq_not_any_not]
    congr 2
    funext a
    simp [hb]
  rw [hl] at h
  unfold IsJoin
  cases k <;> simp only [Option.some.injEq] at h <;> subst h
  · simp
  · simp
  · simpa using hlo
  · simp
  · simpa using hlo.append_right _

/-- C148: a join yields one row for each pair of rows that match, and an outer join also one for each row without match of its left,
right or both inputs, padded with NULLs. -/
theorem C148 {V : Type} [DecidableEq V] (S : Sem V) (db : Db V) (out : List (Col × List Char)) (k : JK) (l r : Scan) (on : OExpr)
    (L M rows : List (List V)) (hr : Resolved (selJoin (l.cols ++ r.cols) k l r on)) (hp : JoinParts (l.cols ++ r.cols) k l r on)
    (hright : rightOk r = true) (hnd : (l.cols ++ r.cols).Nodup) (hout : out.map (·.1) = l.cols ++ r.cols)
    (hl : evalS S db (fun _ => none) (fun _ => none) l = some L) (hm : evalS S db (fun _ => none) (fun _ => none) r = some M)
    (hev : evalS S db (fun _ => none) (fun _ => none) (.join k l r on) = some rows) :
    ∃ (t : List Tok) (R : List (List V)), fmtQuery out (selJoin (l.cols ++ r.cols) k l r on) = some t ∧
      Yields S db t (out.map fun x => .raw x.2, R) ∧
      IsJoin S.null k l.cols.length r.cols.length
        (fun a b => decide (evalO S db (fun _ => none) (bindR (l.cols ++ r.cols) (a ++ b) fun _ => none) on = some true)) L M R := by
  have hokj : okS uid (fun _ => none) (.join k l r on) := by
    rw [okS.eq_4]
    exact ⟨hp.left, hp.right, hp.leftOk, hright, hp.cond, hp.outer⟩
  have hlen := rows_len (s := .join k l r on) (by
    have := hr.ids
    simpa [selJoin, intS, intCs] using this) hr.inScope.1 hokj hev
  have hself : ∀ a ∈ rows, pick (l.cols ++ r.cols) a (l.cols ++ r.cols) = some a := fun a ha => pick_self hnd (hlen a ha)
  have hev' : evalS S db (fun _ => none) (fun _ => none) (selJoin (l.cols ++ r.cols) k l r on) = some rows := by
    rw [selJoin, evalS.eq_7, hev]
    have := mapO_some_map (f := fun a => match evalCs S db (fun _ => none) (bindR (Scan.join k l r on).cols a fun _ => none) .nil with
        | none => none
        | some vs => pick (CExprs.nil.cols ++ (Scan.join k l r on).cols) (vs ++ a) (l.cols ++ r.cols)) (g := id) (l := rows) (fun a ha => by
      simp only [evalCs]
      exact hself a ha)
    rw [List.map_id] at this
    exact this
  have hne : out ≠ [] := by
    intro h
    rw [h] at hout
    exact hp.ne hout.symm
  obtain ⟨t, h1, h2⟩ := C136_partial _ _ _ _ _ hr hp hright V inferInstance S db out _ rows hne hev' (by
    have := mapO_some_map (f := fun a => pick (l.cols ++ r.cols) a (l.cols ++ r.cols)) (g := id) (l := rows) hself
    rw [hout]
    rw [List.map_id] at this
    exact this)
  refine ⟨t, rows, h1, h2, ?_⟩
  rw [evalS.eq_3, hl, hm] at hev
  exact joinRows_is hev

/-- `SELECT a, b FROM t LEFT JOIN u ON a = b`: the rows (1, NULL), (2, 2), (2, 2), (3, NULL). -/
example : ∃ (t : List Tok) (R : List (List (Option Int))), fmtQuery [(ca, ['a']), (cb, ['b'])] (selJoin [ca, cb] .left T U (.some (eq ca cb))) = some t ∧
    Yields S0 db0 t ([.raw ['a'], .raw ['b']], R) := by
  obtain ⟨t, R, h1, h2, _⟩ := C148 S0 db0 [(ca, ['a']), (cb, ['b'])] .left T U (.some (eq ca cb)) [[some 1], [some 2], [some 3]] [[some 2], [some 2]]
    [[some 1, none], [some 2, some 2], [some 2, some 2], [some 3, none]]
    ⟨by decide, by simp [selJoin, T, U, eq, scopedS, scopedE, scopedEs, scopedCs, scopedO], rfl⟩
    ⟨by simp [T, okS], by simp [U, okS], by simp [eq, okO, okE, okEs], rfl, by simp [T, U, Scan.cols], by simp, by simp [OExpr.isNone]⟩ rfl
    (by decide) rfl (by decide +kernel) (by decide +kernel) (by decide +kernel)
  exact ⟨t, R, h1, h2⟩

/-! ### C151: WHERE, and C152: UNNEST -/

/-- A query that selects all columns of its input yields the rows of the input. -/
theorem self_rows {V : Type} [DecidableEq V] {S : Sem V} {db : Db V} {s : Scan} {rows : List (List V)}
    (hf : Faithful (.project s .nil s.cols)) (hnd : s.cols.Nodup) (hne : s.cols ≠ [])
    (hlen : ∀ a ∈ rows, a.length = s.cols.length) (hev : evalS S db (fun _ => none) (fun _ => none) s = some rows)
    (out : List (Col × List Char)) (hout : out.map (·.1) = s.cols) :
    ∃ t, fmtQuery out (.project s .nil s.cols) = some t ∧ Yields S db t (out.map fun x => .raw x.2, rows) := by
  have hself : ∀ a ∈ rows, pick s.cols a s.cols = some a := fun a ha => pick_self hnd (hlen a ha)
  have hev' : evalS S db (fun _ => none) (fun _ => none) (.project s .nil s.cols) = some rows := by
    rw [evalS.eq_7, hev]
    have := mapO_some_map (f := fun a => match evalCs S db (fun _ => none) (bindR s.cols a fun _ => none) .nil with
        | none => none
        | some vs => pick (CExprs.nil.cols ++ s.cols) (vs ++ a) s.cols) (g := id) (l := rows) (fun a ha => by
      simp only [evalCs]
      exact hself a ha)
    rw [List.map_id] at this
    exact this
  refine hf V inferInstance S db out _ rows ?_ hev' ?_
  · intro h
    rw [h] at hout
    exact hne hout.symm
  · have := mapO_some_map (f := fun a => pick s.cols a s.cols) (g := id) (l := rows) hself
    rw [hout]
    rw [List.map_id] at this
    exact this

/-- C151: WHERE keeps the rows for which its condition is true, each as often as it is there, in their order. -/
theorem C151 {V : Type} [DecidableEq V] (S : Sem V) (db : Db V) (out : List (Col × List Char)) (s : Scan) (e : Expr) (L : List (List V))
    (cond : List V → V) (hr : Resolved (sel s.cols s e)) (hp : Parts s.cols s e) (hw : WhereOk s) (hnd : s.cols.Nodup)
    (hout : out.map (·.1) = s.cols) (hl : evalS S db (fun _ => none) (fun _ => none) s = some L)
    (hc : ∀ a ∈ L, evalE S db (fun _ => none) (bindR s.cols a fun _ => none) e = some (cond a)) :
    ∃ t, fmtQuery out (sel s.cols s e) = some t ∧
      Yields S db t (out.map fun x => .raw x.2, L.filter fun a => S.truth (cond a)) := by
  have hlen := rows_len (s := s) (by
    have := hr.ids
    simp only [sel, intS, List.map_append, List.nodup_append] at this
    exact this.1.1) hr.inScope.1.1 hp.input hl
  have hf : evalS S db (fun _ => none) (fun _ => none) (.filter s e) = some (L.filter fun a => S.truth (cond a)) := by
    rw [evalS.eq_6, hl]
    have : ∀ l : List (List V), (∀ a ∈ l, a ∈ L) →
        filtO (fun a => (evalE S db (fun _ => none) (bindR s.cols a fun _ => none) e).map S.truth) l = some (l.filter fun a => S.truth (cond a)) := by
      intro l
      induction l with
      | nil => intro _; rfl
      | cons a l ih =>
        intro h
        rw [filtO, ih fun b hb => h b (List.mem_cons_of_mem _ hb), hc a (h a (List.mem_cons_self ..))]
        simp only [Option.map_some, List.filter_cons]
    exact this L fun _ h => h
  have := self_rows (s := .filter s e) (C135_partial _ _ _ hr hp hw) hnd hp.ne
    (fun a ha => hlen a (List.mem_filter.1 ha).1) hf out hout
  exact this

/-- `SELECT a FROM t WHERE a > 1`: the rows 2 and 3. -/
example : ∃ t, fmtQuery [(ca, ['a'])] (sel [ca] T (gt ca 1)) = some t ∧ Yields S0 db0 t ([.raw ['a']], [[some 2], [some 3]]) := by
  have := C151 S0 db0 [(ca, ['a'])] T (gt ca 1) [[some 1], [some 2], [some 3]] (fun a => S0.fn 1 [a.head!, some 1])
    ⟨by decide, by simp [sel, T, gt, scopedS, scopedE, scopedEs, scopedCs], rfl⟩
    ⟨by simp [T, okS], by simp [gt, okE, okEs], by simp [T, Scan.cols], by simp [T, Scan.cols]⟩ (.flat rfl rfl) (by decide) rfl
    (by decide +kernel) (by decide +kernel)
  exact this

/-- C152: a join with UNNEST … WITH OFFSET yields, for each row in order, one row for each element of its array, in the order of the
array and with the positions 0, 1, …. -/
theorem C152 {V : Type} [DecidableEq V] (S : Sem V) (db : Db V) (out : List (Col × List Char)) (s : Scan) (e : Expr) (elem off : Col)
    (L : List (List V)) (arr : List V → V) (hr : Resolved (selUnnest (s.cols ++ [elem, off]) s e elem (some off) .none false))
    (hp : UnnestParts (s.cols ++ [elem, off]) s e elem (some off) .none) (hnd : (s.cols ++ [elem, off]).Nodup)
    (hout : out.map (·.1) = s.cols ++ [elem, off]) (hl : evalS S db (fun _ => none) (fun _ => none) s = some L)
    (hc : ∀ a ∈ L, evalE S db (fun _ => none) (bindR s.cols a fun _ => none) e = some (arr a)) :
    ∃ t, fmtQuery out (selUnnest (s.cols ++ [elem, off]) s e elem (some off) .none false) = some t ∧
      Yields S db t (out.map fun x => .raw x.2, L.flatMap fun a => (S.elems (arr a)).mapIdx fun i x => a ++ [x, S.ofNat i]) := by
  have hlen := rows_len (s := s) (by
    have := hr.ids
    simp only [selUnnest, intS, List.map_append, List.nodup_append] at this
    exact this.1.1) hr.inScope.1.1 hp.input hl
  have hev : evalS S db (fun _ => none) (fun _ => none) (.array s e elem (some off) .none false) =
      some (L.flatMap fun a => (S.elems (arr a)).mapIdx fun i x => a ++ [x, S.ofNat i]) := by
    rw [evalS.eq_5, hl]
    simp only [eachRows, evalO, filtO_true]
    rw [mapO_some_map (g := fun a => (a, elemRows S true (arr a))) fun a ha => by
      rw [hc a ha]
      rfl]
    simp only [Bool.false_and, Bool.false_eq_true, if_false, List.flatMap_map, elemRows, if_true, List.map_map, Function.comp_def]
    congr 1
    congr 1
    funext a
    rw [List.mapIdx_eq_zipIdx_map]
  refine self_rows (s := .array s e elem (some off) .none false) (C137_partial _ _ _ _ _ _ _ hr hp (by simp)) hnd (by simp [Scan.cols])
    ?_ hev out hout
  intro a ha
  obtain ⟨b, hb, h⟩ := List.mem_flatMap.1 ha
  rw [List.mem_mapIdx] at h
  obtain ⟨i, hi, rfl⟩ := h
  simp [Scan.cols, hlen b hb]

/-- `SELECT c, b, x FROM n, UNNEST(c) AS b WITH OFFSET AS x`, where the array of 2 is [0, 1]. -/
example : ∃ t, fmtQuery [(cc, ['c']), (cb, ['b']), (cg, ['x'])] (selUnnest [cc, cb, cg] (.table ['n'] [cc]) (.col cc) cb (some cg) .none false) = some t ∧
    Yields S0 (fun n => if n = ['n'] then some ([['c']], [[some 2], [some 0], [some 1]]) else none) t ([.raw ['c'], .raw ['b'], .raw ['x']],
      [[some 2, some 0, some 0], [some 2, some 1, some 1], [some 1, some 0, some 0]]) := by
  have := C152 S0 (fun n => if n = ['n'] then some ([['c']], [[some 2], [some 0], [some 1]]) else none) [(cc, ['c']), (cb, ['b']), (cg, ['x'])]
    (.table ['n'] [cc]) (.col cc) cb cg [[some 2], [some 0], [some 1]] (fun a => a.head!)
    ⟨by decide, by simp [selUnnest, scopedS, scopedE, scopedCs, scopedO], rfl⟩
    ⟨by simp [okS], by simp [okE], by simp [okO], rfl, by simp, by simp [Scan.cols]⟩ (by decide) rfl (by decide +kernel) (by decide +kernel)
  exact this

/-! ### C153: aggregates without GROUP BY -/

/-- C153: aggregates without GROUP BY yield exactly one row, with the aggregates of all input rows, also if there is no input row. -/
theorem C153 {V : Type} [DecidableEq V] (S : Sem V) (db : Db V) (out : List (Col × List Char)) (s : Scan) (aggs : Aggs)
    (L : List (List V)) (vs : List V) (hr : Resolved (.agg s .nil aggs aggs.cols)) (hok : okS uid (fun _ => none) (.agg s .nil aggs aggs.cols))
    (hne : aggs.cols ≠ []) (hout : out.map (·.1) = aggs.cols) (he : evalS S db (fun _ => none) (fun _ => none) s = some L)
    (hv : evalAs S db (fun _ => none) (L.map fun a => bindR s.cols a fun _ => none) aggs = some vs) :
    ∃ t, fmtQuery out (.agg s .nil aggs aggs.cols) = some t ∧ Yields S db t (out.map fun x => .raw x.2, [vs]) := by
  have hnd : aggs.cols.Nodup := by
    have h1 : (intAs aggs).Sublist (intS (.agg s .nil aggs aggs.cols)) := by
      simp only [intS]
      exact (List.sublist_append_right ..).trans (List.sublist_append_right ..)
    have h3 := (((acols_sublist aggs).trans h1).map (·.id)).nodup hr.ids
    exact List.Pairwise.of_map (·.id) (fun a b h e => h (by rw [e])) h3
  have hps : pick aggs.cols vs aggs.cols = some vs := pick_self hnd (evalAs_length hv)
  refine C134_partial _ hr hok V inferInstance S db out [vs] [vs] ?_ ?_ ?_
  · intro h
    rw [h] at hout
    exact hne hout.symm
  · rw [evalS.eq_8, he]
    simp only [evalCs, Option.map_some]
    rw [mapO_some_map (g := fun a => ([], a)) fun a _ => rfl]
    simp only [CExprs.cols, List.isEmpty_nil, grouped, if_true, List.map_map, Function.comp_def, mapO]
    simp only [List.map_id', hv, List.nil_append, hps]
  · rw [hout]
    show mapO (fun a => pick aggs.cols a aggs.cols) [vs] = _
    simp only [mapO, hps]

/-- `SELECT COUNT(*) FROM e`, where `e` has no rows: one row with 0. -/
example : ∃ t, fmtQuery [(cd, ['d'])] (.agg E .nil (.cons cd 1 .nil .nil) [cd]) = some t ∧ Yields S0 db0 t ([.raw ['d']], [[some 0]]) :=
  C153 S0 db0 [(cd, ['d'])] E (.cons cd 1 .nil .nil) [] [some 0] ⟨by decide, by simp [E, scopedS, scopedEs, scopedCs, scopedAs], rfl⟩
    (by simp [E, okS, okEs, okCs, okAs, ownAs, fmtEs, owned, nmEs, CExprs.cols, Aggs.cols, leftOk]) (by simp [Aggs.cols]) rfl (by decide +kernel) (by decide +kernel)

end Verif.Query
