import Verif.Lemmas.QueryAgg

/-!
# Grouping sets
-/

namespace Verif.Query

set_option linter.unusedSectionVars false

section
variable {V : Type} [DecidableEq V] {S : Sem V} {db : Db V} {nm : Col → Nm}
variable {w : WMap} {we : WEnv V} {cte : CTE V} {envr : Env V} {envs : SEnv V}

theorem lk_fn {α : Type} [DecidableEq α] (f : α → V) : ∀ {l : List α} {c : α}, c ∈ l → lk l (l.map f) c = some (f c)
  | [], c, h => by simp at h
  | x :: xs, c, h => by
    by_cases hx : x = c
    · subst hx
      simp [lk]
    · simp only [List.map_cons, lk, if_neg hx]
      exact lk_fn f (by simpa [Ne.symm hx] using h)

theorem mapO_fn {α β : Type} {f : α → Option β} {g : α → β} : ∀ {l : List α}, (∀ c ∈ l, f c = some (g c)) →
    mapO f l = some (l.map g)
  | [], _ => rfl
  | c :: _, h => mapO_cons' (h c (List.mem_cons_self ..)) (mapO_fn fun d hd => h d (List.mem_cons_of_mem _ hd))

theorem find_mask (set : List Col) : ∀ (its : List (Col × Item)) (c : Col), findItem (maskItems nm set its) c =
    (findItem its c).map fun i => if c ∈ set then i else .ex .null (some (nm c))
  | [], c => rfl
  | (d, i) :: its, c => by
    by_cases hd : d = c
    · subst hd
      simp [maskItems, findItem]
    · have := find_mask set its c
      simp only [maskItems] at this
      simp [maskItems, findItem, hd, this]

theorem mask_mem {set : List Col} {its : List (Col × Item)} {x : Col × Item} (h : x ∈ maskItems nm set its) :
    ∃ y ∈ its, x.1 = y.1 ∧ (x.2 = y.2 ∨ x.2 = .ex .null (some (nm y.1))) := by
  simp only [maskItems, List.mem_map] at h
  obtain ⟨y, hy, rfl⟩ := h
  refine ⟨y, hy, rfl, ?_⟩
  by_cases hs : y.1 ∈ set <;> simp [hs]

/-- The rows of one grouping set. -/
theorem gset_rows {q : SEnv V → List Tok → Option (Rel V)} {h : List Nm} {gcols acols cols set : List Col} {xs : List SExpr}
    {ys : List (Nat × List SExpr)} {KEY : List V → Option (List V)} {AGG : List (List V) → Option (List V)}
    {L : List (List V)} {keyed : List (List V × List V)} (hxl : xs.length = gcols.length) (hyl : ys.length = acols.length)
    (hk : mapO (fun a => (KEY a).map fun k => (k, a)) L = some keyed)
    (hrow : ∀ a k, KEY a = some k → evalXs S q (bindR h a envs) xs = some k)
    (hagg : ∀ rows vs, AGG rows = some vs → mapO (aggVal S q (rows.map fun a => bindR h a envs)) ys = some vs)
    (hnot : ∀ c ∈ gcols, nm c ∉ h) (hcinj : ∀ c ∈ cols, ∀ d ∈ cols, nm c = nm d → c = d)
    (hset : ∀ c ∈ set, c ∈ gcols) (hgc : ∀ c ∈ gcols, c ∈ cols) (hdisj : ∀ c ∈ acols, c ∉ gcols)
    (hempty : set = [] → ∃ c ∈ cols, c ∈ acols) (hown : ∀ x ∈ shapeA nm acols ys, ownedI h x.2 = true)
    {rs : List (List V × List V)}
    (he : mapO (fun g : List V × List (List V) => ((match AGG g.2 with
        | none => none
        | some vs => pick (gcols ++ acols) (fullKey S gcols set g.1 ++ vs) cols).map fun r => (fullKey S gcols set g.1, r)))
      (grouped set.isEmpty (keyed.map fun x => (setKey S gcols set x.1, x.2))) = some rs) :
    evalRows S q envs (selList nm (maskItems nm set (shapeC nm gcols xs) ++ shapeA nm acols ys) cols) (set.map nm) h L =
      some (cols.map nm, (rs.map (·.2)).map fun r => (r, fun _ : Nm => (none : Option V))) := by
  generalize hits : maskItems nm set (shapeC nm gcols xs) ++ shapeA nm acols ys = its
  have hitsC : ∀ x ∈ its, ∀ e n, x.2 = .ex e (some n) → n = nm x.1 := by
    intro x hx e n hxe
    rw [← hits] at hx
    rcases List.mem_append.1 hx with hx | hx
    · obtain ⟨y, hy, h1, h2⟩ := mask_mem hx
      obtain ⟨h3, z, h4⟩ := shapeC_mem hy
      rw [h4, hxe] at h2
      rw [h1]
      rcases h2 with h2 | h2 <;> cases h2 <;> rfl
    · obtain ⟨h1, y, h2⟩ := shapeA_mem hx
      rw [h2] at hxe
      cases hxe
  have hhd : (selList nm its cols).flatMap (itemHdr h) = cols.map nm := by
    refine selList_hdr h (fun x hx => ?_) cols
    rw [← hits] at hx
    rcases List.mem_append.1 hx with hx | hx
    · obtain ⟨y, hy, h1, h2⟩ := mask_mem hx
      rcases h2 with h2 | h2
      · rw [h1, h2]
        exact shapeC_hdr h _ _ y hy
      · rw [h1, h2]
        rfl
    · exact shapeA_hdr h _ _ x hx
  have hfind : ∀ c ∈ gcols, ∀ i, findItem (shapeC nm gcols xs) c = some i →
      findItem its c = some (if c ∈ set then i else .ex .null (some (nm c))) := by
    intro c _ i hi
    rw [← hits, findItem_append, find_mask, hi]
    rfl
  have hfindA : ∀ c, c ∉ gcols → findItem its c = findItem (shapeA nm acols ys) c := by
    intro c hcc
    have : findItem (shapeC nm gcols xs) c = none := by
      cases hfo : findItem (shapeC nm gcols xs) c with
      | none => rfl
      | some i => exact absurd (shapeC_mem (findItem_mem hfo)).1 hcc
    rw [← hits, findItem_append, find_mask, this]
    rfl
  have hscope : ∀ a k, KEY a = some k → ∀ c ∈ set, ∃ x v, findItem its c = some (.ex x (some (nm c))) ∧
      evalX S q (bindR h a envs) x = some v ∧ lk gcols k c = some v := by
    intro a k hak c hcc
    rcases shapeC_find (nm := nm) hxl (hrow a k hak) c with ⟨h1, _⟩ | ⟨x, v, h1, h2, h3⟩
    · exact absurd (hset c hcc) h1
    · refine ⟨x, v, ?_, h2, h3⟩
      rw [hfind c (hset c hcc) _ h1, if_pos hcc]
  have hkeyed : mapO (fun vs => (mapO (Query.scope S q (selList nm its cols) envs h vs) (set.map nm)).map fun k => (k, vs)) L =
      some (keyed.map fun x => (setKey S gcols set x.1, x.2)) := by
    refine mapO_out hk fun a ha b hb => ?_
    cases hev : KEY a with
    | none => simp [hev] at hb
    | some k =>
      simp only [hev, Option.map_some, Option.some.injEq] at hb
      subst hb
      have : mapO (Query.scope S q (selList nm its cols) envs h a) (set.map nm) = some (setKey S gcols set k) := by
        rw [mapO_map]
        refine mapO_fn fun c hcc => ?_
        obtain ⟨x, v, h1, h2, h3⟩ := hscope a k hev c hcc
        have := alias_sel hitsC hcinj (hgc c (hset c hcc)) h1
        simp only [Query.scope, lk_none a (hnot c (hset c hcc)), this, h2, h3, Option.getD_some]
      rw [this]
      rfl
  have hall : (set.map nm).isEmpty = set.isEmpty := by cases set <;> rfl
  have hkeys : ∀ k a, (k, a) ∈ keyed → KEY a = some k := by
    intro k a hka
    obtain ⟨b, _, hb⟩ := mapO_mem hk _ hka
    cases hev : KEY b with
    | none => simp [hev] at hb
    | some k' =>
      simp only [hev, Option.map_some, Option.some.injEq, Prod.mk.injEq] at hb
      obtain ⟨rfl, rfl⟩ := hb
      exact hev
  have hrows : mapO (fun x : List V × List (List V) =>
      (mapO (itemAgg S q envs h x.2) (selList nm its cols)).map
        fun o => (o.flatten, fun _ => none)) (grouped set.isEmpty (keyed.map fun x => (setKey S gcols set x.1, x.2))) =
      some (rs.map fun r => (r.2, fun _ : Nm => (none : Option V))) := by
    refine mapO_out he fun g hg r hr => ?_
    cases hvs : AGG g.2 with
    | none => simp [hvs] at hr
    | some vs =>
    simp only [hvs, Option.map_eq_some_iff] at hr
    obtain ⟨r', hr, rfl⟩ := hr
    have hgm := grouped_mem hg
    have hav := hagg _ _ hvs
    have hfl : (fullKey S gcols set g.1).length = gcols.length := by simp [fullKey]
    have hitem : ∀ cs : List Col, (∀ c ∈ cs, c ∈ cols) → ∀ r,
        pick (gcols ++ acols) (fullKey S gcols set g.1 ++ vs) cs = some r →
        mapO (itemAgg S q envs h g.2) (selList nm its cs) = some (r.map fun v => [v]) := by
      intro cs
      induction cs with
      | nil =>
        intro _ r hr
        simp only [pick, mapO, Option.some.injEq] at hr
        subst hr
        rfl
      | cons c cs ih =>
        intro hcs' r hr
        obtain ⟨v, vs', h1, h2, rfl⟩ := mapO_cons hr
        refine mapO_cons' (b := [v]) ?_ (ih (fun d hd => hcs' d (List.mem_cons_of_mem _ hd)) vs' h2)
        show itemAgg S q envs h g.2 ((findItem its c).getD (.ex (.name (nm c)) none)) = _
        by_cases hcg : c ∈ gcols
        · have hfk : lk gcols (fullKey S gcols set g.1) c = some ((lk set g.1 c).getD S.null) :=
            lk_fn (fun c => (lk set g.1 c).getD S.null) hcg
          rw [lk_append_left hfk] at h1
          cases h1
          by_cases hcs : c ∈ set
          · rcases hgm with ⟨h3, _, _⟩ | ⟨_, ⟨a0, ha0⟩, h5⟩
            · cases set with
              | nil => simp at hcs
              | cons d ds => simp at h3
            · match hg2 : g.2 with
              | [] => rw [hg2] at ha0; simp at ha0
              | a :: rest =>
                have hma := h5 a (by rw [hg2]; exact List.mem_cons_self ..)
                obtain ⟨⟨k, a'⟩, hka, hkk⟩ := List.mem_map.1 hma
                simp only [Prod.mk.injEq] at hkk
                obtain ⟨hkk, rfl⟩ := hkk
                obtain ⟨x, u, h6, h7, h8⟩ := hscope a' k (hkeys k a' hka) c hcs
                have : lk set g.1 c = some u := by
                  rw [← hkk, setKey, lk_fn (fun c => (lk gcols k c).getD S.null) hcs, h8]
                  rfl
                simp only [h6, Option.getD_some, itemAgg, h7, Option.map_some, this]
          · obtain ⟨y, hy⟩ := findItem_shapeC_some (nm := nm) hxl hcg
            rw [hfind c hcg _ hy, if_neg hcs, lk_none g.1 hcs]
            cases hg2 : g.2 with
            | nil => simp [itemAgg]
            | cons a as => simp [itemAgg, evalX]
        · rw [lk_append_right hfl hcg] at h1
          rcases shapeA_find (nm := nm) hyl hav c with ⟨h6, _⟩ | ⟨y, v', h6, h7, h8⟩
          · exact absurd (lk_mem h1) h6
          · rw [h1] at h8
            cases h8
            simp only [aggVal, mapO_map, Option.map_eq_some_iff] at h7
            obtain ⟨args, h9, h10⟩ := h7
            simp only [hfindA c hcg, h6, Option.getD_some, itemAgg, h9, Option.map_some, h10]
    show (mapO _ _).map _ = _
    rw [hitem cols (fun _ h => h) r' hr, Option.map_some, flatten_single]
  have hnotplain : ((set.map nm).isEmpty && !(selList nm its cols).any isAgg) = false := by
    rw [hall]
    cases hsc : set with
    | cons c cs => rfl
    | nil =>
      obtain ⟨c, hcc, hca⟩ := hempty hsc
      obtain ⟨y, hy⟩ := findItem_shapeA_some (nm := nm) hyl hca
      have hany : (selList nm its cols).any isAgg = true := by
        rw [List.any_eq_true]
        refine ⟨.agg y.1 y.2 (some (nm c)), ?_, rfl⟩
        simp only [selList, List.mem_map]
        exact ⟨c, hcc, by rw [hfindA c (hdisj c hca), hy]; rfl⟩
      simp [hany]
  rw [hall] at hnotplain
  have hall2 : (selList nm its cols).all (ownedI h) = true := by
    refine selList_owned (fun x hx => ?_) cols
    rw [← hits] at hx
    rcases List.mem_append.1 hx with hx | hx
    · obtain ⟨y, hy, h1, h2⟩ := mask_mem hx
      rcases h2 with h2 | h2
      · rw [h2]
        exact shapeC_owned y hy
      · rw [h2]
        rfl
    · exact hown x hx
  simp only [evalRows, hall, hnotplain, hall2, Bool.not_true, Bool.false_eq_true, if_false, hkeyed, hrows, Option.map_some,
    hhd, List.map_map, Function.comp_def]
theorem evalMore_fold {q : SEnv V → List Tok → Option (Rel V)} {o : SetOp} : ∀ {cs : List Core}
    {Ls : List (List (List V))} (R : List (List V)),
    mapO (fun c => (evalCore S db q cte envs c).map fun x => x.2.map (·.1)) cs = some Ls →
    evalMore S db q cte envs (cs.map fun c => (o, c)) R = some (Ls.foldl (setRows o) R)
  | [], Ls, R, h => by
    simp only [mapO, Option.some.injEq] at h
    subst h
    rfl
  | c :: cs, Ls, R, h => by
    obtain ⟨M, Ms, h1, h2, rfl⟩ := mapO_cons h
    cases he : evalCore S db q cte envs c with
    | none => simp [he] at h1
    | some x =>
      simp only [he, Option.map_some, Option.some.injEq] at h1
      subst h1
      simp only [List.map_cons, evalMore, he, List.foldl_cons]
      exact evalMore_fold _ h2

/-- The rest of a chain of grouping sets: the ORDER BY clause is last. -/
theorem sets_core {gs as : List (Col × Item)} {cols : List Col} {t0 : List Tok} {wh : Option SExpr} {pt : PT} {ts : List OTerm}
    (hcols : cols ≠ []) (hp : ∀ rest, (∀ e r, rest ≠ .on e :: r) → pChain (t0 ++ rest) = pLoop pt rest) (set : List Col)
    {q : List Tok} (hq : (∃ r, q = .setop .unionAll :: r) ∨ q = [.orderBy ts]) :
    pCore (.sel (selList nm (maskItems nm set gs ++ as) cols) :: ((.from :: (t0 ++ (wh.map Tok.whr).toList)) ++ ((match set with
      | [] => []
      | g => [.groupBy (g.map nm)]) ++ q))) =
      some (⟨selList nm (maskItems nm set gs ++ as) cols, some pt, wh, set.map nm⟩, q) := by
  have hstop : Stop ((match set with
      | [] => []
      | g => [.groupBy (g.map nm)]) ++ q) := by
    cases set with
    | cons c cs => exact ⟨by simp, by simp, by simp⟩
    | nil =>
      rcases hq with ⟨r, rfl⟩ | rfl <;> exact ⟨by simp, by simp, by simp⟩
  have := pCore_from (items := selList nm (maskItems nm set gs ++ as) cols) (selList_ne hcols) wh hp hstop
  rw [List.cons_append, this]
  cases set with
  | cons c cs => rfl
  | nil =>
    rcases hq with ⟨r, rfl⟩ | rfl <;> rfl

theorem sets_append {gs as : List (Col × Item)} {cols : List Col} {t : List Tok} (set : List Col) (sets : List (List Col))
    (z : List Tok) : fmtGSets nm gs as cols t (set :: sets) ++ z =
    .sel (selList nm (maskItems nm set gs ++ as) cols) :: (t ++ ((match set with
      | [] => []
      | g => [.groupBy (g.map nm)]) ++ ((match fmtGSets nm gs as cols t sets with
        | [] => []
        | q => .setop .unionAll :: q) ++ z))) := by
  cases set <;> cases h : fmtGSets nm gs as cols t sets <;> simp [fmtGSets, h]

theorem sets_tail {gs as : List (Col × Item)} {cols : List Col} {t : List Tok} {ts : List OTerm} (sets : List (List Col)) :
    (∃ r, ((match fmtGSets nm gs as cols t sets with
        | [] => []
        | q => .setop .unionAll :: q) ++ [.orderBy ts] : List Tok) = .setop .unionAll :: r) ∨
    ((match fmtGSets nm gs as cols t sets with
        | [] => []
        | q => .setop .unionAll :: q) ++ [.orderBy ts] : List Tok) = [.orderBy ts] := by
  cases fmtGSets nm gs as cols t sets with
  | nil => exact Or.inr rfl
  | cons x xs => exact Or.inl ⟨_, rfl⟩

theorem sets_more {gs as : List (Col × Item)} {cols : List Col} {t0 : List Tok} {wh : Option SExpr} {pt : PT} {ts : List OTerm}
    (hcols : cols ≠ []) (hp : ∀ rest, (∀ e r, rest ≠ .on e :: r) → pChain (t0 ++ rest) = pLoop pt rest) :
    ∀ (sets : List (List Col)) (k : Nat), ((match fmtGSets nm gs as cols (.from :: (t0 ++ (wh.map Tok.whr).toList)) sets with
        | [] => []
        | q => .setop .unionAll :: q) ++ [.orderBy ts] : List Tok).length ≤ k →
    pMore k ((match fmtGSets nm gs as cols (.from :: (t0 ++ (wh.map Tok.whr).toList)) sets with
        | [] => []
        | q => .setop .unionAll :: q) ++ [.orderBy ts]) =
      some ((sets.map fun set => Core.mk (selList nm (maskItems nm set gs ++ as) cols) (some pt) wh (set.map nm)).map
        fun c => (.unionAll, c), [.orderBy ts])
  | [], k, _ => by cases k <;> rfl
  | set :: sets, k, hk => by
    have hne : ∃ x xs, fmtGSets nm gs as cols (.from :: (t0 ++ (wh.map Tok.whr).toList)) (set :: sets) = x :: xs :=
      ⟨_, _, rfl⟩
    obtain ⟨x, xs, hx⟩ := hne
    have htext : (match fmtGSets nm gs as cols (.from :: (t0 ++ (wh.map Tok.whr).toList)) (set :: sets) with
        | [] => []
        | q => .setop .unionAll :: q) ++ [.orderBy ts] =
        .setop .unionAll :: (fmtGSets nm gs as cols (.from :: (t0 ++ (wh.map Tok.whr).toList)) (set :: sets) ++ [.orderBy ts]) := by
      rw [hx]
      rfl
    rw [htext] at hk ⊢
    obtain ⟨k', rfl⟩ : ∃ k', k = k' + 1 := ⟨k - 1, by simp at hk; omega⟩
    rw [sets_append] at hk ⊢
    have hk' := sets_more (gs := gs) (as := as) (wh := wh) (ts := ts) hcols hp sets k' (by
      simp only [List.length_cons, List.length_append] at hk ⊢
      omega)
    simp only [pMore, sqliteHas, if_true, sets_core hcols hp set (sets_tail sets), hk', Option.map_some, List.map_cons]

theorem foldl_union : ∀ (Ls : List (List (List V))) (R : List (List V)), Ls.foldl (setRows .unionAll) R = R ++ Ls.flatten
  | [], R => by simp
  | L :: Ls, R => by
    rw [List.foldl_cons, foldl_union]
    simp [setRows]

theorem gs_gsets {s : Scan} {groups : CExprs} {aggs : Aggs} {set : List Col} {sets : List (List Col)} {cols : List Col}
    (hs : GS S db nm s) (hgs : GCs S db nm groups) (has : GAs S db nm aggs) :
    GS S db nm (.gsets s groups aggs set sets cols) := by
  intro w tx ht hok
  have hok0 := hok
  simp only [okS] at hok
  obtain ⟨hoks, hokg, hoka, hok3, hok4, hok5, hown, hgne, hsets, hempty⟩ := hok
  simp only [fmtS] at ht
  split at ht
  case h_2 => simp at ht
  rename_i as t gs hasf htt hgsf
  obtain ⟨xs, hxl, rfl, N1, hN1⟩ := hgs w gs hgsf hokg
  have howned := fmtAs_owned hasf hown
  obtain ⟨ys, hyl, rfl, N2, hN2⟩ := has w as hasf hoka
  obtain ⟨N3, hN3⟩ := hs w t htt hoks
  cases ht
  refine ⟨N1 + N2 + N3 + 1, fun n hn we cte envr envs hc rows he => ?_⟩
  obtain ⟨m, rfl⟩ : ∃ m, n = m + 1 := ⟨n - 1, by omega⟩
  simp only [evalS] at he
  split at he
  · simp at he
  rename_i L hL
  split at he
  · simp at he
  rename_i keyed hk
  simp only [setRowsOf, Option.map_map, Option.map_eq_some_iff, Function.comp_def] at he
  obtain ⟨rss, hrss, rfl⟩ := he
  have hcs : Ctx nm w we cte envr envs (intS s ++ (intCs groups ++ intAs aggs)) (tabS s ++ (tabCs groups ++ tabAs aggs)) :=
    hc
  have hsub := cols_sub nm w s hoks
  have hfin := hN3 m (by omega) we cte envr envs hcs.l L hL
  obtain ⟨wh, _, pt, t0, htj, hpc, hev⟩ := hfin.den.from
  rw [hfin.den.formatInput, htj]
  have hcinj : ∀ c ∈ cols, ∀ d ∈ cols, nm c = nm d → c = d :=
    hc.inj fun c hcc => cols_sub nm w (.gsets s groups aggs set sets cols) hok0 c hcc
  have hgd := Dist.append hcs.r.dist
  have hnd : groups.cols.Nodup := by
    have : Dist nm groups.cols := List.Nodup.sublist ((ccols_sublist groups).map nm) hcs.r.l.dist
    exact List.Pairwise.of_map nm (fun a b h e => h (by rw [e])) this
  have hal : ∀ set, AlFree nm envr (selList nm (maskItems nm set (shapeC nm groups.cols xs) ++ shapeA nm aggs.cols ys) cols) := by
    intro set
    refine (selList_alIn (cs := groups.cols) ?_ cols).free (hcs.r.l.away.mono (ccols_sub groups))
    intro x hx e n hxe
    rcases List.mem_append.1 hx with hx | hx
    · obtain ⟨y, hy, h1, h2⟩ := mask_mem hx
      obtain ⟨h3, z, h4⟩ := shapeC_mem hy
      rw [h4, hxe] at h2
      rw [h1]
      refine ⟨h3, ?_⟩
      rcases h2 with h2 | h2 <;> cases h2 <;> rfl
    · obtain ⟨h1, y, h2⟩ := shapeA_mem hx
      rw [h2] at hxe
      cases hxe
  have hone : ∀ st ∈ set :: sets, ∀ rs, mapO (fun g : List V × List (List V) =>
      ((match evalAs S db we (g.2.map fun a => bindR s.cols a envr) aggs with
        | none => none
        | some vs => pick (groups.cols ++ aggs.cols) (fullKey S groups.cols st g.1 ++ vs) cols).map
          fun r => (fullKey S groups.cols st g.1, r)))
      (grouped st.isEmpty (keyed.map fun x => (setKey S groups.cols st x.1, x.2))) = some rs →
      evalCore S db (evalQ S db m cte) cte envs ⟨selList nm (maskItems nm st (shapeC nm groups.cols xs) ++
        shapeA nm aggs.cols ys) cols, some pt, wh, st.map nm⟩ =
        some (cols.map nm, (rs.map (·.2)).map fun r => (r, fun _ : Nm => (none : Option V))) := by
    intro st hst rs hrs
    simp only [evalCore, hev _ (hal st)]
    refine gset_rows (KEY := fun a => evalCs S db we (bindR s.cols a envr) groups)
      (AGG := fun rows => evalAs S db we (rows.map fun a => bindR s.cols a envr) aggs) hxl hyl hk ?_ ?_ ?_ hcinj
      (hsets st hst) hok5 ?_ ?_ howned hrs
    · intro a k hak
      exact hN1 m (by omega) we cte _ _ (hcs.bind hsub a).l k hak
    · intro rows vs hvs
      have := hN2 m (by omega) we cte (rows.map fun a => (bindR s.cols a envr, bindR (s.cols.map nm) a envs)) (by
        intro p hp
        obtain ⟨a, _, rfl⟩ := List.mem_map.1 hp
        exact (hcs.bind hsub a).r) vs (by rw [List.map_map]; exact hvs)
      rw [List.map_map] at this
      exact this
    · intro c hcc hmm
      obtain ⟨d, hd, hdn⟩ := List.mem_map.1 hmm
      exact (Dist.append hcs.dist).2.2 d (hsub d hd) c (List.mem_append_left _ (ccols_sub groups c hcc)) hdn
    · intro c hca hcg
      exact hgd.2.2 c (ccols_sub groups c hcg) c (acols_sub aggs c hca) rfl
    · intro h0
      subst h0
      exact hempty hst
  obtain ⟨rs, rss', h1, h2, rfl⟩ := mapO_cons hrss
  have hc1 := hone set (List.mem_cons_self ..) rs h1
  have hmore : mapO (fun c => (evalCore S db (evalQ S db m cte) cte envs c).map fun x => x.2.map (·.1))
      (sets.map fun st => Core.mk (selList nm (maskItems nm st (shapeC nm groups.cols xs) ++
        shapeA nm aggs.cols ys) cols) (some pt) wh (st.map nm)) = some (rss'.map fun rs => rs.map (·.2)) := by
    rw [mapO_map]
    refine mapO_out h2 fun st hst rs hrs => ?_
    rw [hone st (List.mem_cons_of_mem _ hst) rs hrs]
    simp [List.map_map, Function.comp_def]
  have hrow : ∀ x ∈ (rs :: rss').flatten, x.1.length = groups.cols.length ∧
      ∃ vs, pick (groups.cols ++ aggs.cols) (x.1 ++ vs) cols = some x.2 := by
    intro x hx
    obtain ⟨l, hl, hxl⟩ := List.mem_flatten.1 hx
    obtain ⟨st, _, hst⟩ := mapO_mem hrss l hl
    obtain ⟨g, _, hg⟩ := mapO_mem hst x hxl
    simp only [Option.map_eq_some_iff] at hg
    obtain ⟨r, hr, rfl⟩ := hg
    split at hr
    · simp at hr
    · rename_i vs _
      exact ⟨by simp [fullKey], vs, hr⟩
  have hkey : mapO (fun r : List V × SEnv V =>
      (mapO (fun t : OTerm => bindR (cols.map nm) r.1 r.2 t.nm) ((ascending groups.cols).flatMap (ordTerms nm))).map
        fun k => (k, r.1)) (((rs :: rss').flatten.map (·.2)).map fun r => (r, fun _ : Nm => (none : Option V))) =
      some ((rs :: rss').flatten.map fun x => (expand (ascending groups.cols) x.1, x.2)) := by
    rw [List.map_map, mapO_map]
    refine mapO_fn fun x hx => ?_
    obtain ⟨hxl, vs, hvs⟩ := hrow x hx
    have hself := pick_self hnd hxl
    have : mapO (fun c => bindR (cols.map nm) x.2 (fun _ : Nm => (none : Option V)) (nm c))
        ((ascending groups.cols).map (·.col)) = some x.1 := by
      have hid : (ascending groups.cols).map (·.col) = groups.cols := by simp [ascending, Function.comp_def]
      rw [hid]
      refine mapO_mono hself fun c hcc v hv => ?_
      obtain ⟨u, hu⟩ := lk_isSome (mapO_length hvs) (hok5 c hcc)
      have h3 := pick_lk hvs hu
      rw [lk_append_left hv] at h3
      cases h3
      simp only [bindR, lk_map hu hcinj]
    have hx := expand_terms this
    simp only [Function.comp_def]
    rw [hx]
    rfl
  have hne : ((ascending groups.cols).flatMap (ordTerms nm)).isEmpty = false := by
    cases hg : groups.cols with
    | nil => exact absurd hg hgne
    | cons c cs => simp [ascending, ordTerms]
  have hord : evalOrder S ((ascending groups.cols).flatMap (ordTerms nm)) (cols.map nm)
      (((rs :: rss').flatten.map (·.2)).map fun r => (r, fun _ : Nm => (none : Option V))) =
      some (sortBy (cmpItems S (ascending groups.cols)) (rs :: rss').flatten) := by
    simp only [evalOrder, hne, Bool.false_eq_true, if_false, hkey, Option.some.injEq]
    refine sortBy_expand S nm _ _ fun x hx => ?_
    rw [(hrow x hx).1]
    simp [ascending]
  have hb : pQuery (fmtGSets nm (shapeC nm groups.cols xs) (shapeA nm aggs.cols ys) cols
      (.from :: (t0 ++ (wh.map Tok.whr).toList)) (set :: sets) ++
      [.orderBy ((ascending groups.cols).flatMap (ordTerms nm))]) =
      some ⟨[], ⟨selList nm (maskItems nm set (shapeC nm groups.cols xs) ++ shapeA nm aggs.cols ys) cols, some pt, wh,
        set.map nm⟩, (sets.map fun st => Core.mk (selList nm (maskItems nm st (shapeC nm groups.cols xs) ++
        shapeA nm aggs.cols ys) cols) (some pt) wh (st.map nm)).map fun c => (.unionAll, c),
        (ascending groups.cols).flatMap (ordTerms nm), none, none⟩ := by
    rw [sets_append]
    simp only [pQuery, pBody, sets_core hok3 hpc set (sets_tail sets), sets_more hok3 hpc sets _ (Nat.le_refl _), pOrder, pLimit]
  have hq : evalQ S db (m + 1) cte envs (fmtGSets nm (shapeC nm groups.cols xs) (shapeA nm aggs.cols ys) cols
      (.from :: (t0 ++ (wh.map Tok.whr).toList)) (set :: sets) ++
      [.orderBy ((ascending groups.cols).flatMap (ordTerms nm))]) =
      some (cols.map nm, sortBy (cmpItems S (ascending groups.cols)) (rs :: rss').flatten) := by
    simp only [evalQ, evalBody, hb, List.foldl_nil, evalCtes, hc1]
    cases sets with
    | nil =>
      simp only [mapO, Option.some.injEq] at h2
      subst h2
      simp only [List.map_nil, List.flatten_cons, List.flatten_nil, List.append_nil] at hord ⊢
      simp only [hord, Option.map_none]
      simp [limited]
    | cons st sts =>
      have := evalMore_fold (o := .unionAll) (rs.map (·.2)) hmore
      rw [foldl_union] at this
      have hR : (((rs.map (·.2)).map fun r => (r, fun _ : Nm => (none : Option V))).map (·.1)) = rs.map (·.2) := by
        simp [List.map_map, Function.comp_def]
      have hF : rs.map (·.2) ++ (rss'.map fun rs => rs.map (·.2)).flatten = (rs :: rss').flatten.map (·.2) := by
        simp [List.map_flatten]
      simp only [List.map_cons] at this ⊢
      rw [hR, this, hF]
      simp only [hord, Option.map_none]
      simp [limited]
  refine Fin.ofQuery rfl hq (fun h => by simp [bare] at h) fun r hr => ?_
  simp only [sortBy, List.mem_map, List.mem_mergeSort] at hr
  obtain ⟨x, hx, rfl⟩ := hr
  obtain ⟨_, vs, hvs⟩ := hrow x hx
  exact mapO_length hvs
end

end Verif.Query
