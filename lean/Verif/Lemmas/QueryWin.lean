import Verif.Lemmas.QueryGsets

/-!
# Analytic scans
-/

namespace Verif.Query

set_option linter.unusedSectionVars false

section
variable {V : Type} [DecidableEq V] {S : Sem V} {db : Db V} {nm : Col → Nm}
variable {w : WMap} {we : WEnv V} {cte : CTE V} {envr : Env V} {envs : SEnv V}

theorem evalXs_append {q : SEnv V → List Tok → Option (Rel V)} {env : SEnv V} : ∀ {xs ys : List SExpr} {us vs : List V},
    evalXs S q env xs = some us → evalXs S q env ys = some vs → evalXs S q env (xs ++ ys) = some (us ++ vs)
  | [], ys, us, vs, h1, h2 => by
    simp only [evalXs, Option.some.injEq] at h1
    subst h1
    exact h2
  | x :: xs, ys, us, vs, h1, h2 => by
    obtain ⟨v, vs', h3, h4, rfl⟩ := evalXs_cons h1
    exact evalXs_cons' h3 (evalXs_append h4 h2)

theorem evalXs_opts {q : SEnv V → List Tok → Option (Rel V)} {env : SEnv V} {α : Type} {f : α → Nm} :
    ∀ {cs : List α} {vs : List V}, mapO (fun c => env (f c)) cs = some vs →
    evalXs S q env (cs.map fun c => .opt (.name (f c))) = some vs
  | [], vs, h => by
    simp only [mapO, Option.some.injEq] at h
    subst h
    rfl
  | c :: cs, vs, h => by
    obtain ⟨v, vs', h1, h2, rfl⟩ := mapO_cons h
    exact evalXs_cons' (by simpa [evalX] using h1) (evalXs_opts h2)

theorem nmEs_append : ∀ (xs ys : List SExpr), nmEs (xs ++ ys) = nmEs xs ++ nmEs ys
  | [], ys => by simp [nmEs]
  | x :: xs, ys => by simp [nmEs, nmEs_append xs ys]

theorem nmEs_opts {α : Type} (f : α → Nm) : ∀ cs : List α, nmEs (cs.map fun c => .opt (.name (f c))) = cs.map f
  | [] => by simp [nmEs]
  | c :: cs => by simp [nmEs, nmE, nmEs_opts f cs]

/-- The texts of the analytic functions of a scan with the columns `h`, the rows `L` and the FROM clause `ft`, in the scope
of a row whose number is `i`. -/
def GFs (S : Sem V) (db : Db V) (nm : Col → Nm) (ws : Wins) : Prop :=
  ∀ w h t its, fmtFs nm w t ws = some its → okFs nm w h ws →
    ∃ xs, xs.length = ws.cols.length ∧ its = shapeC nm ws.cols xs ∧
    ∃ N, ∀ n, N ≤ n → ∀ we cte envr env wh L i ft, t = .from :: ft →
    FromF S db nm (evalQ S db n cte) cte envr env wh ft (h.map nm) L →
    (∀ b ∈ L, Ctx nm w we cte (bindR h b envr) (bindR (h.map nm) b env) (intFs ws) (tabFs ws)) →
    env rowId = some (S.ofNat (i + 1)) → rowId ∉ h.map nm →
    ∀ v, evalFs S db we (L.map fun b => bindR h b envr) i ws = some v →
    evalXs S (evalQ S db (n + 1) cte) env xs = some v

theorem gfs_nil : GFs S db nm .nil := by
  intro w h t its ht _
  simp only [fmtFs, Option.some.injEq] at ht
  subst ht
  refine ⟨[], rfl, rfl, 0, fun n _ we cte envr env wh L i ft _ _ _ _ _ v hv => ?_⟩
  simpa [evalFs, evalXs] using hv

theorem gfs_cons {c : Col} {f : Nat} {args : Exprs} {parts : List Col} {ords : List OrdItem} {ws : Wins}
    (ha : GEs S db nm args) (hws : GFs S db nm ws) : GFs S db nm (.cons c f args parts ords ws) := by
  intro w h t its ht hok
  simp only [fmtFs] at ht
  split at ht
  case h_2 => simp at ht
  rename_i xs ys hxs hys
  cases ht
  simp only [okFs] at hok
  obtain ⟨hoka, hokp, hoko, hokr, hokw⟩ := hok
  obtain ⟨zs, hzl, rfl, N1, hN1⟩ := hws w h t _ hys hokw
  obtain ⟨N2, hN2⟩ := ha w xs hxs hoka
  refine ⟨_ :: zs, by simp [Wins.cols, hzl], rfl, N1 + N2, fun n hn we cte envr env wh L i ft htf hf hctx
    hrow hno v hv => ?_⟩
  simp only [evalFs] at hv
  split at hv
  case h_2 => simp at hv
  rename_i rows vs hrows hvs
  cases hv
  have hctx' : ∀ b ∈ L, Ctx nm w we cte (bindR h b envr) (bindR (h.map nm) b env) ((c :: intEs args) ++ intFs ws)
      (tabEs args ++ tabFs ws) := hctx
  subst htf
  refine evalXs_cons' ?_ (hN1 n (by omega) we cte envr env wh L i ft rfl hf (fun b hb => (hctx' b hb).r) hrow hno vs hvs)
  have hq := evalQ_sel hf (items := [.agg (.win f parts.length (ords.map fun o => (o.desc, !o.desc)))
        (xs ++ (parts.map (fun p => .opt (.name (nm p))) ++ (ords.map (fun o => .opt (.name (nm o.col))) ++
          [.opt (.name rowId)]))) none]) (by simp) (fun d _ => rfl) [] [] none
  have hargs : mapO (fun b => evalXs S (evalQ S db n cte) (bindR (h.map nm) b env)
      (xs ++ (parts.map (fun p => .opt (.name (nm p))) ++ (ords.map (fun o => .opt (.name (nm o.col))) ++
          [.opt (.name rowId)])))) L = some rows := by
    rw [mapO_map] at hrows
    refine mapO_mono hrows fun b hb r hr => ?_
    split at hr
    case h_2 => simp at hr
    rename_i as ps os h1 h2 h3
    cases hr
    have hcb := hctx' b hb
    have href := hcb.ref
    refine evalXs_append (hN2 n (by omega) we cte _ _ (hcb.l.sub (List.sublist_cons_self ..) fun t ht => ht) as h1)
      (evalXs_append (evalXs_opts (mapO_mono h2 fun p _ v hv => href p v hv)) (evalXs_append ?_ ?_))
    · refine evalXs_opts ?_
      rw [mapO_map] at h3
      exact mapO_mono h3 fun o _ v hv => href o.col v hv
    · refine evalXs_cons' ?_ rfl
      simp only [evalX, bindR, lk_none b hno, hrow]
  have hwin : (ords.map fun o => (o.desc, o.nullsFirst)) = ords.map fun o => (o.desc, !o.desc) :=
    List.map_congr_left fun o ho => by rw [(hoko o ho).2]
  have hown : owned (h.map nm) (xs ++ (parts.map (fun p => .opt (.name (nm p))) ++
      (ords.map (fun o => .opt (.name (nm o.col))) ++ [.opt (.name rowId)]))) = true := by
    simp only [owned, Bool.or_eq_true, List.any_eq_true, decide_eq_true_eq]
    refine Or.inr ?_
    simp only [nmEs_append, nmEs_opts, List.mem_append]
    rcases hokr with hp | ho | hx
    · obtain ⟨p, hp⟩ := List.exists_mem_of_ne_nil _ hp
      exact ⟨nm p, Or.inr (Or.inl (List.mem_map.2 ⟨p, hp, rfl⟩)), List.mem_map.2 ⟨p, hokp p hp, rfl⟩⟩
    · obtain ⟨o, ho⟩ := List.exists_mem_of_ne_nil _ ho
      refine ⟨nm o.col, Or.inr (Or.inr (Or.inl ?_)), List.mem_map.2 ⟨o.col, (hoko o ho).1, rfl⟩⟩
      exact List.mem_map.2 ⟨o, ho, rfl⟩
    · obtain ⟨x, h1, h2⟩ := hx xs hxs
      exact ⟨x, Or.inl h1, h2⟩
  have hkeyed : ∀ M : List (List V), mapO (fun a : List V => (some ([] : List V)).map fun k => (k, a)) M =
      some (M.map fun a => ([], a)) := by
    intro M
    induction M with
    | nil => rfl
    | cons a as ih => exact mapO_cons' rfl ih
  have hev : evalRows S (evalQ S db n cte) env [.agg (.win f parts.length (ords.map fun o => (o.desc, !o.desc)))
        (xs ++ (parts.map (fun p => .opt (.name (nm p))) ++ (ords.map (fun o => .opt (.name (nm o.col))) ++
          [.opt (.name rowId)]))) none] [] (h.map nm) L =
      some ([.raw []], [([S.agg (.win f parts.length (ords.map fun o => (o.desc, !o.desc))) rows], fun _ => none)]) := by
    simp only [evalRows, List.any_cons, isAgg, Bool.true_or, Bool.not_true, Bool.and_false, Bool.false_eq_true, if_false,
      List.all_cons, List.all_nil, ownedI, hown, Bool.and_true,
      mapO, hkeyed, List.isEmpty_nil, grouped, if_true, List.map_map, Function.comp_def, List.map_id', itemAgg, hargs]
    rfl
  rw [hev, tail_none] at hq
  simp only [List.append_nil] at hq
  rw [hwin]
  simp only [evalX, hq]
  simp [finish, evalOrder, limited]

/-- The SELECT list of an analytic scan has the values of its columns. -/
theorem selList_val_num {q : SEnv V → List Tok → Option (Rel V)} {envs : SEnv V} {h' : List Nm} {a' : List V} {h : List Col}
    {a : List V} (hl' : ∀ c v, lk h a c = some v → bindR h' a' envs (nm c) = some v) {cs : List Col} {xs : List SExpr}
    {vs : List V} (hl : xs.length = cs.length) (he : evalXs S q (bindR h' a' envs) xs = some vs) :
    ∀ {cols : List Col} {r : List V}, pick (cs ++ h) (vs ++ a) cols = some r →
      mapO (itemVal S q envs h' a') (selList nm (shapeC nm cs xs) cols) = some (r.map fun v => [v])
  | [], r, hp => by
    simp only [pick, mapO, Option.some.injEq] at hp
    subst hp
    rfl
  | c :: cols, r, hp => by
    obtain ⟨v, vs', h1, h2, rfl⟩ := mapO_cons hp
    have ih := selList_val_num hl' hl he h2
    refine mapO_cons' (b := [v]) ?_ ih
    show itemVal S q envs h' a' ((findItem (shapeC nm cs xs) c).getD (.ex (.name (nm c)) none)) = _
    rcases shapeC_find (nm := nm) hl he c with ⟨hc, hf⟩ | ⟨x, u, hf, hx, hu⟩
    · rw [hf]
      rw [lk_append_right (by rw [evalXs_length he, hl]) hc] at h1
      simp only [Option.getD_none, itemVal, evalX, hl' c v h1, Option.map_some]
    · rw [hf]
      rw [lk_append_left hu] at h1
      cases h1
      simp only [Option.getD_some, itemVal, hx, Option.map_some]

theorem star_rows (hst : ∀ c, starred (nm c) = true) {q : SEnv V → List Tok → Option (Rel V)} {h : List Col} :
    ∀ {L : List (List V)}, (∀ a ∈ L, a.length = h.length) →
    mapO (fun a => (mapO (itemVal S q envs (h.map nm) a) [.star]).map List.flatten) L = some L
  | [], _ => rfl
  | a :: L, hl => by
    refine mapO_cons' ?_ (star_rows hst fun b hb => hl b (List.mem_cons_of_mem _ hb))
    simp only [mapO, itemVal, star_val hst (hl a (List.mem_cons_self ..)), Option.map_some]
    simp

theorem sortBy_nil (S : Sem V) {α : Type} (keyed : List (List V × α)) : sortBy (cmpItems S []) keyed = keyed.map (·.2) := by
  simp only [sortBy]
  rw [List.mergeSort_of_pairwise]
  exact List.pairwise_of_forall (by simp [cmpItems])

theorem gs_win (hst : ∀ c, starred (nm c) = true) {s : Scan} {ws : Wins} {cols : List Col} (hs : GS S db nm s)
    (hws : GFs S db nm ws) : GS S db nm (.win s ws cols) := by
  intro w tx ht hok
  have hok0 := hok
  simp only [okS] at hok
  obtain ⟨hoks, hokw, hok3, hok4, hok5, hrid⟩ := hok
  simp only [fmtS] at ht
  split at ht
  · simp at ht
  rename_i t htt
  split at ht
  · simp at ht
  rename_i its hits
  cases ht
  obtain ⟨N2, hN2⟩ := hs w t htt hoks
  obtain ⟨xs, hlen, rfl, N1, hN1⟩ := hws w s.cols _ its hits hokw
  refine ⟨N1 + N2 + 2, fun n hn we cte envr envs hc rows he => ?_⟩
  obtain ⟨m, rfl⟩ : ∃ m, n = m + 2 := ⟨n - 2, by omega⟩
  simp only [evalS] at he
  split at he
  · simp at he
  rename_i L hL
  simp only [Option.map_eq_some_iff] at he
  obtain ⟨keyed, hk, rfl⟩ := he
  have hcs : Ctx nm w we cte envr envs (intS s ++ intFs ws) (tabS s ++ tabFs ws) := hc
  have hsub := cols_sub nm w s hoks
  have hinj := hcs.l.inj hsub
  have hfin := hN2 m (by omega) we cte envr envs hcs.l L hL
  have hfi := hfin.den.formatInput
  have hnot : rowId ∉ s.cols.map nm := by
    intro hm
    obtain ⟨c, _, hcn⟩ := List.mem_map.1 hm
    exact hrid c hcn
  -- the rows and their numbers
  have hnum : evalQ S db (m + 1) cte envs (.sel [.star] :: formatInput t) = some (s.cols.map nm, L) := by
    obtain ⟨wh, _, hf⟩ := hfin.den.from
    have hq := sel_query hf (items := [.star]) (by simp) (fun d _ => rfl) rfl (star_rows hst hfin.len) none
    rw [tail_none, limited_none, List.append_nil] at hq
    simp only [List.flatMap_cons, List.flatMap_nil, itemHdr, star_hdr hst, List.append_nil] at hq
    rw [hfi]
    exact hq
  have hf : FromF S db nm (evalQ S db (m + 1) cte) cte envr envs none [.num (formatInput t)] (s.cols.map nm ++ [rowId])
      (L.zipIdx.map fun x => x.1 ++ [S.ofNat (x.2 + 1)]) := by
    refine ⟨.leaf (.num (formatInput t)), [.num (formatInput t)], rfl, fun rest _ => by simp [pChain, trefOf], fun its _ => ?_⟩
    simp only [evalFW, evalPT, hnum]
  -- the scope of a row
  have hzl : ∀ x ∈ L.zipIdx, x.1.length = s.cols.length := fun x hx =>
    hfin.len x.1 (by obtain ⟨a, i⟩ := x; exact (List.mem_zipIdx' hx).2 ▸ List.getElem_mem _)
  have hlk : ∀ x ∈ L.zipIdx, ∀ c v, lk s.cols x.1 c = some v →
      bindR (s.cols.map nm ++ [rowId]) (x.1 ++ [S.ofNat (x.2 + 1)]) envs (nm c) = some v := by
    intro x _ c v hv
    simp only [bindR, lk_append_left (lk_map hv hinj)]
  have hctx : ∀ x ∈ L.zipIdx, Ctx nm w we cte envr
      (bindR (s.cols.map nm ++ [rowId]) (x.1 ++ [S.ofNat (x.2 + 1)]) envs) (intS s ++ intFs ws) (tabS s ++ tabFs ws) := by
    intro x _
    refine ⟨hcs.rw, hcs.no, fun c v hv => ?_, hcs.away, hcs.dist⟩
    have hn : nm c ∉ s.cols.map nm ++ [rowId] := by
      intro hm
      rcases List.mem_append.1 hm with hm | hm
      · obtain ⟨d, hd, hdn⟩ := List.mem_map.1 hm
        exact hcs.l.away c (by rw [hv]; simp) d (hsub d hd) hdn
      · exact hrid c (by simpa using hm)
    simp only [bindR, lk_none _ hn]
    exact hcs.ref c v hv
  have hval : ∀ x ∈ L.zipIdx, ∀ vs, evalFs S db we (L.map fun a => bindR s.cols a envr) x.2 ws = some vs →
      evalXs S (evalQ S db (m + 1) cte) (bindR (s.cols.map nm ++ [rowId]) (x.1 ++ [S.ofNat (x.2 + 1)]) envs) xs = some vs := by
    intro x hx vs hvs
    have hcx := hctx x hx
    have hfx := hN2 m (by omega) we cte envr _ hcx.l L hL
    obtain ⟨wh, _, hfx⟩ := hfx.den.from
    refine hN1 m (by omega) we cte envr _ wh L x.2 _ hfi hfx (fun b _ => hcx.bind hsub b) ?_ hnot vs hvs
    have : lk (s.cols.map nm ++ [rowId]) (x.1 ++ [S.ofNat (x.2 + 1)]) rowId = some (S.ofNat (x.2 + 1)) := by
      rw [lk_append_right (by rw [List.length_map]; exact hzl x hx) hnot]
      simp [lk]
    simp only [bindR, this]
  have hm : mapO (fun a => (mapO (itemVal S (evalQ S db (m + 1) cte) envs (s.cols.map nm ++ [rowId]) a)
      (selList nm (shapeC nm ws.cols xs) cols)).map List.flatten) (L.zipIdx.map fun x => x.1 ++ [S.ofNat (x.2 + 1)]) =
      some (keyed.map (·.2)) := by
    rw [mapO_map]
    refine mapO_out hk fun x hx b hb => ?_
    split at hb
    case h_2 => simp at hb
    rename_i vs k hvs hpk
    simp only [Option.map_eq_some_iff] at hb
    obtain ⟨r, hr, rfl⟩ := hb
    exact map_flatten (selList_val_num (hlk x hx) hlen (hval x hx vs hvs) hr)
  have hrow : ∀ x ∈ keyed, x.1.length = ws.order.length ∧ x.2.length = cols.length := by
    intro x hx
    obtain ⟨a, _, ha⟩ := mapO_mem hk x hx
    split at ha
    case h_2 => simp at ha
    rename_i vs k hvs hpk
    simp only [Option.map_eq_some_iff] at ha
    obtain ⟨r, hr, rfl⟩ := ha
    exact ⟨by simpa using mapO_length hpk, mapO_length hr⟩
  have hal : AlFree nm envr (selList nm (shapeC nm ws.cols xs) cols) :=
    (shapeC_alIn ws.cols xs cols).free (hcs.r.away.mono (wcols_sub ws))
  have hq := evalQ_sel hf (selList_ne hok3) hal [] (ws.order.flatMap (ordTerms nm)) none
  rw [evalRows_sel (selList_noAgg (shapeC_noAgg _ _) cols) hm, selList_hdr _ (shapeC_hdr _ _ _) cols] at hq
  have hev : evalOrder S (ws.order.flatMap (ordTerms nm)) (cols.map nm)
      (((keyed.map (·.2)).zip (L.zipIdx.map fun x => x.1 ++ [S.ofNat (x.2 + 1)])).map fun x =>
        (x.1, bindR (s.cols.map nm ++ [rowId]) x.2 envs)) = some (sortBy (cmpItems S ws.order) keyed) := by
    by_cases hno : ws.order = []
    · rw [hno, sortBy_nil]
      simp only [evalOrder, List.flatMap_nil, List.isEmpty_nil, if_true, List.map_map, Function.comp_def, Option.some.injEq]
      refine zip_fst ?_
      rw [List.length_map, List.length_map]
      exact mapO_length hk
    · have hemp : (ws.order.flatMap (ordTerms nm)).isEmpty = false := by
        cases ho : ws.order with
        | nil => exact absurd ho hno
        | cons i is => simp [ordTerms]
      have hke : mapO (fun x : List V × List V =>
          (mapO (fun t : OTerm => bindR (cols.map nm) x.1 (bindR (s.cols.map nm ++ [rowId]) x.2 envs) t.nm)
            (ws.order.flatMap (ordTerms nm))).map fun k => (k, x.1))
          ((keyed.map (·.2)).zip (L.zipIdx.map fun x => x.1 ++ [S.ofNat (x.2 + 1)])) =
          some (keyed.map fun x => (expand ws.order x.1, x.2)) := by
        rw [List.zip_map_right, mapO_map]
        refine mapO_zip hk fun x hx b hb => ?_
        split at hb
        case h_2 => simp at hb
        rename_i vs k hvs hpk
        simp only [Option.map_eq_some_iff] at hb
        obtain ⟨r, hr, rfl⟩ := hb
        have hvl : vs.length = ws.cols.length := by rw [evalXs_length (hval x hx vs hvs), hlen]
        have : mapO (fun c => bindR (cols.map nm) r
            (bindR (s.cols.map nm ++ [rowId]) (x.1 ++ [S.ofNat (x.2 + 1)]) envs) (nm c)) (ws.order.map (·.col)) = some k := by
          refine mapO_mono hpk fun c hcm v hv => ?_
          have hcc : c ∈ s.cols := lk_mem hv
          show (match lk (cols.map nm) r (nm c) with
            | some v => some v
            | none => bindR (s.cols.map nm ++ [rowId]) (x.1 ++ [S.ofNat (x.2 + 1)]) envs (nm c)) = some v
          have hall : ∀ d ∈ cols, d ∈ intS s ++ intFs ws := cols_sub nm w (.win s ws cols) hok0
          cases ho : lk (cols.map nm) r (nm c) with
          | some u =>
            have h1 := lk_unmap ho fun d hd he =>
              hcs.dist.inj d (hall d hd) c (List.mem_append_left _ (hsub c hcc)) he
            have h2 := pick_lk hr h1
            have hcw : c ∉ ws.cols := fun hw =>
              (Dist.append hcs.dist).2.2 c (hsub c hcc) c (wcols_sub ws c hw) rfl
            rw [lk_append_right hvl hcw, hv] at h2
            cases h2
            rfl
          | none => exact hlk x hx c v hv
        have hx := expand_terms this
        simp only [Prod.map, id]
        rw [hx]
        rfl
      simp only [evalOrder, hemp, Bool.false_eq_true, if_false, mapO_map]
      rw [hke]
      simp only [Option.some.injEq]
      exact sortBy_expand S nm ws.order keyed fun x hx => (hrow x hx).1
  simp only [finish, hev] at hq
  rw [limited_none] at hq
  have htl : tail [] (ws.order.flatMap (ordTerms nm)) none = (match ws.order with
      | [] => []
      | o => [.orderBy (o.flatMap (ordTerms nm))]) := by
    cases ho : ws.order with
    | nil => simp [tail]
    | cons i is => simp [tail, ordTerms]
  rw [htl] at hq
  refine Fin.ofQuery rfl hq (fun h => by simp [bare] at h) fun r hr => ?_
  simp only [sortBy, List.mem_map, List.mem_mergeSort] at hr
  obtain ⟨x, hx, rfl⟩ := hr
  exact (hrow x hx).2
end

end Verif.Query
