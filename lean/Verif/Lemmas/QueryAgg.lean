import Verif.Lemmas.QueryArray

/-!
# GROUP BY
-/

namespace Verif.Query

set_option linter.unusedSectionVars false

section
variable {V : Type} [DecidableEq V] {S : Sem V} {db : Db V} {nm : Col → Nm}
variable {w : WMap} {we : WEnv V} {cte : CTE V} {envr : Env V} {envs : SEnv V}

/-- An aggregate's entry has the aggregate's value. -/
theorem shapeA_find {F : Nat × List SExpr → Option V} : ∀ {cs : List Col} {ys : List (Nat × List SExpr)}
    {vs : List V}, ys.length = cs.length → mapO F ys = some vs → ∀ c,
    (c ∉ cs ∧ findItem (shapeA nm cs ys) c = none) ∨
    (∃ y v, findItem (shapeA nm cs ys) c = some (.agg y.1 y.2 (some (nm c))) ∧ F y = some v ∧ lk cs vs c = some v)
  | [], ys, vs, _, _, c => Or.inl ⟨by simp, by cases ys <;> rfl⟩
  | d :: cs, [], vs, hl, _, c => by simp at hl
  | d :: cs, y :: ys, vs, hl, he, c => by
    obtain ⟨v, vs', h1, h2, rfl⟩ := mapO_cons he
    by_cases hd : d = c
    · subst hd
      exact Or.inr ⟨y, v, by simp [shapeA, findItem], h1, by simp [lk]⟩
    · rcases shapeA_find (cs := cs) (ys := ys) (by simpa using hl) h2 c with h | ⟨x, u, h3, h4, h5⟩
      · exact Or.inl ⟨by simp [Ne.symm hd, h.1], by simp [shapeA, findItem, hd, h.2]⟩
      · exact Or.inr ⟨x, u, by simp [shapeA, findItem, hd, h3], h4, by simp [lk, hd, h5]⟩

theorem findItem_shapeA_some : ∀ {cs : List Col} {ys : List (Nat × List SExpr)} {c : Col}, ys.length = cs.length → c ∈ cs →
    ∃ y : Nat × List SExpr, findItem (shapeA nm cs ys) c = some (.agg y.1 y.2 (some (nm c)))
  | [], _, _, _, hc => by simp at hc
  | _ :: _, [], _, hl, _ => by simp at hl
  | d :: cs, y :: ys, c, hl, hc => by
    by_cases hd : d = c
    · subst hd
      exact ⟨y, by simp [shapeA, findItem]⟩
    · obtain ⟨x, hx⟩ := findItem_shapeA_some (ys := ys) (by simpa using hl) (by simpa [Ne.symm hd] using hc : c ∈ cs)
      exact ⟨x, by simp [shapeA, findItem, hd, hx]⟩

theorem findItem_shapeC_some : ∀ {cs : List Col} {ys : List SExpr} {c : Col}, ys.length = cs.length → c ∈ cs →
    ∃ y, findItem (shapeC nm cs ys) c = some (.ex y (some (nm c)))
  | [], _, _, _, hc => by simp at hc
  | _ :: _, [], _, hl, _ => by simp at hl
  | d :: cs, y :: ys, c, hl, hc => by
    by_cases hd : d = c
    · subst hd
      exact ⟨y, by simp [shapeC, findItem]⟩
    · obtain ⟨x, hx⟩ := findItem_shapeC_some (ys := ys) (by simpa using hl) (by simpa [Ne.symm hd] using hc : c ∈ cs)
      exact ⟨x, by simp [shapeC, findItem, hd, hx]⟩

theorem alias_isSome {items : List Item} {n : Nm} {e : SExpr} (h : .ex e (some n) ∈ items) : ∃ e', alias items n = some e' := by
  induction items with
  | nil => simp at h
  | cons i is ih =>
    rcases List.mem_cons.1 h with rfl | h
    · exact ⟨e, by simp [alias]⟩
    · obtain ⟨e', he⟩ := ih h
      cases i with
      | star => exact ⟨e', by simpa [alias] using he⟩
      | agg f args m => exact ⟨e', by simpa [alias] using he⟩
      | ex x m =>
        cases m with
        | none => exact ⟨e', by simpa [alias] using he⟩
        | some m =>
          by_cases hm : m = n
          · exact ⟨x, by simp [alias, hm]⟩
          · exact ⟨e', by simp [alias, hm, he]⟩

/-- The AS name of a grouping column denotes its expression. -/
theorem alias_sel {its : List (Col × Item)} (hits : ∀ x ∈ its, ∀ e n, x.2 = .ex e (some n) → n = nm x.1) {cols : List Col}
    (hinj : ∀ c ∈ cols, ∀ d ∈ cols, nm c = nm d → c = d) {c : Col} (hc : c ∈ cols) {x : SExpr}
    (hf : findItem its c = some (.ex x (some (nm c)))) : alias (selList nm its cols) (nm c) = some x := by
  have hmem : Item.ex x (some (nm c)) ∈ selList nm its cols := by
    simp only [selList, List.mem_map]
    exact ⟨c, hc, by rw [hf]; rfl⟩
  obtain ⟨e, he⟩ := alias_isSome hmem
  have h1 := alias_mem he
  simp only [selList, List.mem_map] at h1
  obtain ⟨d, hd, hdi⟩ := h1
  cases hfd : findItem its d with
  | none => simp [hfd] at hdi
  | some i =>
    rw [hfd] at hdi
    simp only [Option.getD_some] at hdi
    subst hdi
    have := hits _ (findItem_mem hfd) e (nm c) rfl
    have hdc := hinj c hc d hd this
    subst hdc
    rw [hf] at hfd
    cases hfd
    exact he

theorem grouped_mem {α : Type} {all : Bool} {keyed : List (List V × α)} {g : List V × List α} (h : g ∈ grouped all keyed) :
    (all = true ∧ g.1 = [] ∧ g.2 = keyed.map (·.2)) ∨
    (all = false ∧ (∃ a, a ∈ g.2) ∧ ∀ a ∈ g.2, (g.1, a) ∈ keyed) := by
  unfold grouped at h
  cases all with
  | true =>
    simp only [if_true, List.mem_singleton] at h
    subst h
    exact Or.inl ⟨rfl, rfl, rfl⟩
  | false =>
    simp only [Bool.false_eq_true, if_false, List.mem_map] at h
    obtain ⟨k, hk, rfl⟩ := h
    rw [List.mem_eraseDups] at hk
    obtain ⟨x, hx, hxk⟩ := List.mem_map.1 hk
    refine Or.inr ⟨rfl, ⟨x.2, ?_⟩, ?_⟩
    · simp only [List.mem_map, List.mem_filter, decide_eq_true_eq]
      exact ⟨x, ⟨hx, hxk⟩, rfl⟩
    · intro a ha
      simp only [List.mem_map, List.mem_filter, decide_eq_true_eq] at ha
      obtain ⟨y, ⟨hy, hyk⟩, rfl⟩ := ha
      rw [← hyk]
      exact hy

theorem fmtAs_owned {w : WMap} {h : List Col} : ∀ {aggs : Aggs} {its : List (Col × Item)}, fmtAs nm w aggs = some its →
    ownAs nm w h aggs → ∀ x ∈ its, ownedI (h.map nm) x.2 = true
  | .nil, its, hf, _, x, hx => by
    simp only [fmtAs, Option.some.injEq] at hf
    subst hf
    simp at hx
  | .cons c f args as, its, hf, ho, x, hx => by
    simp only [fmtAs] at hf
    split at hf
    · rename_i xs ys h1 h2
      cases hf
      rcases List.mem_cons.1 hx with rfl | hx
      · exact ho.1 xs h1
      · exact fmtAs_owned h2 ho.2 x hx
    · simp at hf

/-- The aggregates of a SELECT list of grouping columns and aggregates belong to the SELECT. -/
theorem selList_owned {its : List (Col × Item)} {h : List Nm} (hi : ∀ x ∈ its, ownedI h x.2 = true) (cols : List Col) :
    (selList nm its cols).all (ownedI h) = true := by
  rw [List.all_eq_true]
  intro i hm
  simp only [selList, List.mem_map] at hm
  obtain ⟨c, _, rfl⟩ := hm
  cases hf : findItem its c with
  | none => rfl
  | some i => exact hi _ (findItem_mem hf)

theorem shapeC_owned {h : List Nm} {cs : List Col} {xs : List SExpr} : ∀ x ∈ shapeC nm cs xs, ownedI h x.2 = true := by
  intro x hx
  obtain ⟨_, e, he⟩ := shapeC_mem hx
  rw [he]
  rfl

theorem gs_agg {s : Scan} {groups : CExprs} {aggs : Aggs} {cols : List Col} (hs : GS S db nm s) (hgs : GCs S db nm groups)
    (has : GAs S db nm aggs) : GS S db nm (.agg s groups aggs cols) := by
  intro w tx ht hok
  have hok0 := hok
  simp only [okS] at hok
  obtain ⟨hoks, hokg, hoka, hok3, hok4, hok5, hown⟩ := hok
  simp only [fmtS] at ht
  split at ht
  case h_2 => simp at ht
  rename_i as t gs hasf htt hgsf
  obtain ⟨xs, hxl, rfl, N1, hN1⟩ := hgs w gs hgsf hokg
  have howned := fmtAs_owned hasf hown
  obtain ⟨ys, hyl, rfl, N2, hN2⟩ := has w as hasf hoka
  obtain ⟨N3, hN3⟩ := hs w t htt hoks
  cases ht
  refine ⟨N1 + N2 + N3 + 1, fun n hn we cte envr envs hc rows he => ?_⟩
  obtain ⟨m, rfl⟩ : ∃ m, n = m + 1 := ⟨n - 1, by omega⟩
  simp only [evalS] at he
  split at he
  · simp at he
  rename_i L hL
  split at he
  · simp at he
  rename_i keyed hk
  have hcs : Ctx nm w we cte envr envs (intS s ++ (intCs groups ++ intAs aggs)) (tabS s ++ (tabCs groups ++ tabAs aggs)) :=
    hc
  have hsub := cols_sub nm w s hoks
  have hfin := hN3 m (by omega) we cte envr envs hcs.l L hL
  obtain ⟨wh, _, hf⟩ := hfin.den.from
  rw [hfin.den.formatInput]
  generalize hits : shapeC nm groups.cols xs ++ shapeA nm aggs.cols ys = its
  have hitsC : ∀ x ∈ its, ∀ e n, x.2 = .ex e (some n) → x.1 ∈ groups.cols ∧ n = nm x.1 := by
    intro x hx e n hxe
    rw [← hits] at hx
    rcases List.mem_append.1 hx with hx | hx
    · obtain ⟨h1, y, h2⟩ := shapeC_mem hx
      rw [h2] at hxe
      cases hxe
      exact ⟨h1, rfl⟩
    · obtain ⟨h1, y, h2⟩ := shapeA_mem hx
      rw [h2] at hxe
      cases hxe
  have hal : AlFree nm envr (selList nm its cols) :=
    (selList_alIn hitsC cols).free (hcs.r.l.away.mono (ccols_sub groups))
  have hhd : ∀ h, (selList nm its cols).flatMap (itemHdr h) = cols.map nm := by
    intro h
    refine selList_hdr h (fun x hx => ?_) cols
    rw [← hits] at hx
    rcases List.mem_append.1 hx with hx | hx
    · exact shapeC_hdr h _ _ x hx
    · exact shapeA_hdr h _ _ x hx
  have hcinj : ∀ c ∈ cols, ∀ d ∈ cols, nm c = nm d → c = d :=
    hc.inj fun c hcc => cols_sub nm w (.agg s groups aggs cols) hok0 c hcc
  -- the keys
  have hrow : ∀ a k, evalCs S db we (bindR s.cols a envr) groups = some k →
      evalXs S (evalQ S db m cte) (bindR (s.cols.map nm) a envs) xs = some k := fun a k hak =>
    hN1 m (by omega) we cte _ _ (hcs.bind hsub a).l k hak
  have hkeyed : mapO (fun vs => (mapO (Query.scope S (evalQ S db m cte) (selList nm its cols) envs (s.cols.map nm) vs)
      (groups.cols.map nm)).map fun k => (k, vs)) L = some keyed := by
    refine mapO_mono hk fun a ha b hb => ?_
    cases hev : evalCs S db we (bindR s.cols a envr) groups with
    | none => simp [hev] at hb
    | some k =>
      simp only [hev, Option.map_some, Option.some.injEq] at hb
      subst hb
      have hxk := hrow a k hev
      have hkl : k.length = groups.cols.length := by rw [evalXs_length hxk, hxl]
      have hnd : groups.cols.Nodup := by
        have : Dist nm groups.cols := List.Nodup.sublist ((ccols_sublist groups).map nm) hcs.r.l.dist
        exact List.Pairwise.of_map nm (fun a b h e => h (by rw [e])) this
      have : mapO (Query.scope S (evalQ S db m cte) (selList nm its cols) envs (s.cols.map nm) a) (groups.cols.map nm) =
          some k := by
        rw [mapO_map]
        refine mapO_mono (pick_self hnd hkl) fun c hcc v hv => ?_
        have hnot : nm c ∉ s.cols.map nm := by
          intro hmm
          obtain ⟨d, hd, hdn⟩ := List.mem_map.1 hmm
          exact (Dist.append hcs.dist).2.2 d (hsub d hd) c (List.mem_append_left _ (ccols_sub groups c hcc)) hdn
        rcases shapeC_find (nm := nm) hxl hxk c with ⟨h1, _⟩ | ⟨x, v', h1, h2, h3⟩
        · exact absurd hcc h1
        · rw [hv] at h3
          cases h3
          have hfi : findItem its c = some (.ex x (some (nm c))) := by
            rw [← hits, findItem_append, h1]
            rfl
          have := alias_sel (fun y hy e n he => (hitsC y hy e n he).2) hcinj (hok5 c hcc) hfi
          simp only [Query.scope, lk_none a hnot, this, h2]
      rw [this]
      rfl
  -- the groups
  have hall : (groups.cols.map nm).isEmpty = groups.cols.isEmpty := by cases groups.cols <;> rfl
  have hrows : mapO (fun x : List V × List (List V) =>
      (mapO (itemAgg S (evalQ S db m cte) envs (s.cols.map nm) x.2) (selList nm its cols)).map
        fun o => (o.flatten, fun _ => none)) (grouped groups.cols.isEmpty keyed) =
      some (rows.map fun r => (r, fun _ : Nm => (none : Option V))) := by
    refine mapO_out he fun g hg r hr => ?_
    split at hr
    · simp at hr
    rename_i vs hvs
    have hgm := grouped_mem hg
    have hkeys : ∀ k a, (k, a) ∈ keyed → evalCs S db we (bindR s.cols a envr) groups = some k := by
      intro k a hka
      obtain ⟨b, _, hb⟩ := mapO_mem hk _ hka
      cases hev : evalCs S db we (bindR s.cols b envr) groups with
      | none => simp [hev] at hb
      | some k' =>
        simp only [hev, Option.map_some, Option.some.injEq, Prod.mk.injEq] at hb
        obtain ⟨rfl, rfl⟩ := hb
        exact hev
    have hglen : g.1.length = groups.cols.length := by
      rcases hgm with ⟨h1, h2, _⟩ | ⟨_, ⟨a, ha⟩, h3⟩
      · rw [h2]
        cases hgc : groups.cols with
        | nil => rfl
        | cons c cs => simp [hgc] at h1
      · rw [evalXs_length (hrow a g.1 (hkeys g.1 a (h3 a ha))), hxl]
    have hav := hN2 m (by omega) we cte (g.2.map fun a => (bindR s.cols a envr, bindR (s.cols.map nm) a envs)) (by
      intro p hp
      obtain ⟨a, _, rfl⟩ := List.mem_map.1 hp
      exact (hcs.bind hsub a).r) vs (by rw [List.map_map]; exact hvs)
    have hitem : ∀ cs : List Col, (∀ c ∈ cs, c ∈ cols) → ∀ r, pick (groups.cols ++ aggs.cols) (g.1 ++ vs) cs = some r →
        mapO (itemAgg S (evalQ S db m cte) envs (s.cols.map nm) g.2) (selList nm its cs) = some (r.map fun v => [v]) := by
      intro cs
      induction cs with
      | nil =>
        intro _ r hr
        simp only [pick, mapO, Option.some.injEq] at hr
        subst hr
        rfl
      | cons c cs ih =>
        intro hcs' r hr
        obtain ⟨v, vs', h1, h2, rfl⟩ := mapO_cons hr
        refine mapO_cons' (b := [v]) ?_ (ih (fun d hd => hcs' d (List.mem_cons_of_mem _ hd)) vs' h2)
        show itemAgg S (evalQ S db m cte) envs (s.cols.map nm) g.2 ((findItem its c).getD (.ex (.name (nm c)) none)) = _
        by_cases hcg : c ∈ groups.cols
        · rcases hgm with ⟨h3, _, _⟩ | ⟨_, ⟨a0, ha0⟩, h5⟩
          · cases hgc : groups.cols with
            | nil => rw [hgc] at hcg; simp at hcg
            | cons c cs => simp [hgc] at h3
          · match hg2 : g.2 with
            | [] => rw [hg2] at ha0; simp at ha0
            | a :: rest =>
              have hx := hrow a g.1 (hkeys g.1 a (h5 a (by rw [hg2]; exact List.mem_cons_self ..)))
              rcases shapeC_find (nm := nm) hxl hx c with ⟨h6, _⟩ | ⟨x, v', h6, h7, h8⟩
              · exact absurd hcg h6
              · rw [lk_append_left h8] at h1
                cases h1
                have hfi : findItem its c = some (.ex x (some (nm c))) := by
                  rw [← hits, findItem_append, h6]
                  rfl
                simp only [hfi, Option.getD_some, itemAgg, h7, Option.map_some]
        · rw [lk_append_right hglen hcg] at h1
          have hfn : findItem (shapeC nm groups.cols xs) c = none := by
            cases hfo : findItem (shapeC nm groups.cols xs) c with
            | none => rfl
            | some i => exact absurd (shapeC_mem (findItem_mem hfo)).1 hcg
          rcases shapeA_find (nm := nm) hyl hav c with ⟨h6, _⟩ | ⟨y, v', h6, h7, h8⟩
          · exact absurd (lk_mem h1) h6
          · rw [h1] at h8
            cases h8
            have hfi : findItem its c = some (.agg y.1 y.2 (some (nm c))) := by
              rw [← hits, findItem_append, hfn, h6]
              rfl
            simp only [aggVal, List.map_map, mapO_map, Function.comp_def, Option.map_eq_some_iff] at h7
            obtain ⟨args, h9, h10⟩ := h7
            simp only [hfi, Option.getD_some, itemAgg, h9, Option.map_some, h10]
    show (mapO _ _).map _ = _
    rw [hitem cols (fun _ h => h) r hr, Option.map_some, flatten_single]
  have hq := evalQ_sel hf (selList_ne hok3) hal (groups.cols.map nm) [] none
  have hnotplain : ((groups.cols.map nm).isEmpty && !(selList nm its cols).any isAgg) = false := by
    rw [hall]
    cases hgc : groups.cols with
    | cons c cs => rfl
    | nil =>
      obtain ⟨c, hcc⟩ := List.exists_mem_of_ne_nil cols hok3
      have hca : c ∈ aggs.cols := by
        rcases hok4 c hcc with h | h
        · rw [hgc] at h
          simp at h
        · exact h
      obtain ⟨y, hy⟩ := findItem_shapeA_some (nm := nm) hyl hca
      have hany : (selList nm its cols).any isAgg = true := by
        rw [List.any_eq_true]
        refine ⟨.agg y.1 y.2 (some (nm c)), ?_, rfl⟩
        simp only [selList, List.mem_map]
        refine ⟨c, hcc, ?_⟩
        have : findItem (shapeC nm groups.cols xs) c = none := by
          rw [hgc]
          cases xs <;> rfl
        rw [← hits, findItem_append, this, hy]
        rfl
      simp [hany]
  have hev : evalRows S (evalQ S db m cte) envs (selList nm its cols) (groups.cols.map nm) (s.cols.map nm) L =
      some (cols.map nm, rows.map fun r => (r, fun _ : Nm => (none : Option V))) := by
    rw [hall] at hnotplain
    have hall2 : (selList nm its cols).all (ownedI (s.cols.map nm)) = true := by
      refine selList_owned (fun x hx => ?_) cols
      rw [← hits] at hx
      rcases List.mem_append.1 hx with hx | hx
      · exact shapeC_owned x hx
      · exact howned x hx
    simp only [evalRows, hall, hnotplain, hall2, Bool.not_true, Bool.false_eq_true, if_false, hkeyed, hrows, Option.map_some, hhd]
  rw [hev] at hq
  have hfinish : finish S [] none (some (cols.map nm, rows.map fun r => (r, fun _ : Nm => (none : Option V)))) =
      some (cols.map nm, rows) := by
    simp only [finish, evalOrder, List.isEmpty_nil, if_true, List.map_map, Function.comp_def, List.map_id']
    rw [limited_none]
  rw [hfinish] at hq
  have htl : tail (groups.cols.map nm) [] none = (match groups.cols with
      | [] => []
      | g => [.groupBy (g.map nm)]) := by
    cases hgc : groups.cols <;> simp [tail]
  rw [htl] at hq
  refine Fin.ofQuery rfl hq (fun h => by simp [bare] at h) (mapO_length_of he fun g _ b hb => ?_)
  split at hb
  · simp at hb
  · exact mapO_length hb
end

end Verif.Query
