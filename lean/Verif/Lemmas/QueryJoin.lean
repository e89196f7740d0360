import Verif.Lemmas.QueryNode

/-!
# ORDER BY, LIMIT, WHERE, joins and arrays
-/

namespace Verif.Query

set_option linter.unusedSectionVars false

theorem mapO_out {α β γ : Type} {f : α → Option β} {g : α → Option γ} {h : β → γ} : ∀ {as : List α} {bs : List β},
    mapO f as = some bs → (∀ a ∈ as, ∀ b, f a = some b → g a = some (h b)) → mapO g as = some (bs.map h)
  | [], bs, hm, _ => by
    simp only [mapO, Option.some.injEq] at hm
    subst hm
    rfl
  | a :: as, bs, hm, hg => by
    obtain ⟨b, bs', h1, h2, rfl⟩ := mapO_cons hm
    exact mapO_cons' (hg a (List.mem_cons_self ..) b h1) (mapO_out h2 fun a ha => hg a (List.mem_cons_of_mem _ ha))

theorem mapO_zip {α β γ δ : Type} {f : α → Option β} {G : γ × α → Option δ} {h : β → γ} {h' : β → δ} :
    ∀ {as : List α} {bs : List β}, mapO f as = some bs →
    (∀ a ∈ as, ∀ b, f a = some b → G (h b, a) = some (h' b)) → mapO G ((bs.map h).zip as) = some (bs.map h')
  | [], bs, hm, _ => by
    simp only [mapO, Option.some.injEq] at hm
    subst hm
    rfl
  | a :: as, bs, hm, hg => by
    obtain ⟨b, bs', h1, h2, rfl⟩ := mapO_cons hm
    exact mapO_cons' (hg a (List.mem_cons_self ..) b h1) (mapO_zip h2 fun a ha => hg a (List.mem_cons_of_mem _ ha))

section
variable {V : Type} [DecidableEq V] {S : Sem V} {db : Db V} {nm : Col → Nm}
variable {w : WMap} {we : WEnv V} {cte : CTE V} {envr : Env V} {envs : SEnv V}

theorem names_free (cols : List Col) : AlFree nm envr (selList nm [] cols) := by
  refine AlIn.free (cs := []) (selList_alIn (by simp) cols) ?_
  intro d _ c hc
  simp at hc

theorem names_noAgg (cols : List Col) : (selList nm [] cols).any isAgg = false := selList_noAgg (by simp) cols

theorem names_hdr (h : List Nm) (cols : List Col) : (selList nm [] cols).flatMap (itemHdr h) = cols.map nm :=
  selList_hdr h (by simp) cols

theorem gs_order {s : Scan} {items : List OrdItem} {cols : List Col} (hs : GS S db nm s) :
    GS S db nm (.order s items cols) := by
  intro w tx ht hok
  simp only [fmtS] at ht
  split at ht
  · simp at ht
  rename_i t htt
  cases ht
  simp only [okS] at hok
  obtain ⟨hoks, hok2, hok3, hok4, hok5⟩ := hok
  obtain ⟨N, hN⟩ := hs w t htt hoks
  refine ⟨N + 1, fun n hn we cte envr envs hc rows he => ?_⟩
  obtain ⟨m, rfl⟩ : ∃ m, n = m + 1 := ⟨n - 1, by omega⟩
  simp only [evalS] at he
  split at he
  · simp at he
  rename_i L hL
  split at he
  · simp at he
  rename_i keyed hk
  cases he
  have hcs : Ctx nm w we cte envr envs (intS s) (tabS s) := hc
  have hfin := hN m (by omega) we cte envr envs hcs L hL
  have hsub := cols_sub nm w s hoks
  have hinj := hcs.inj hsub
  have hm : mapO (fun a => (mapO (itemVal S (evalQ S db m cte) envs (s.cols.map nm) a)
      (selList nm [] cols)).map List.flatten) L = some (keyed.map (·.2)) := by
    refine mapO_out hk fun a ha b hb => ?_
    split at hb
    · rename_i k r hk1 hr1
      cases hb
      exact map_flatten (names_val hinj hr1)
    · simp at hb
  have hot : (items.flatMap (ordTerms nm)) ≠ [] := by
    cases items with
    | nil => exact absurd rfl hok2
    | cons i is => simp [ordTerms]
  have hke : mapO (fun x : List V × List V =>
      (mapO (fun t : OTerm => bindR (cols.map nm) x.1 (bindR (s.cols.map nm) x.2 envs) t.nm)
        (items.flatMap (ordTerms nm))).map fun k => (k, x.1)) ((keyed.map (·.2)).zip L) =
      some (keyed.map fun x => (expand items x.1, x.2)) := by
    refine mapO_zip hk fun a ha b hb => ?_
    split at hb
    · rename_i k r hk1 hr1
      cases hb
      have : mapO (fun c => bindR (cols.map nm) r (bindR (s.cols.map nm) a envs) (nm c)) (items.map (·.col)) = some k := by
        refine mapO_mono hk1 fun c hcm v hv => ?_
        have hcc : c ∈ s.cols := lk_mem hv
        simp only [bindR]
        cases ho : lk (cols.map nm) r (nm c) with
        | some u =>
          have h1 := lk_unmap ho fun d hd he => hinj d (hok4 d hd) c hcc he
          have h2 := pick_lk hr1 h1
          rw [hv] at h2
          cases h2
          rfl
        | none =>
          simp only [lk_map hv hinj]
      have hx := expand_terms this
      rw [show (mapO (fun t : OTerm => bindR (cols.map nm) (k, r).2 (bindR (s.cols.map nm) a envs) t.nm)
        (items.flatMap (ordTerms nm))) = some (expand items k) from hx]
      rfl
    · simp at hb
  obtain ⟨wh, _, hf⟩ := hfin.den.from
  rw [hfin.den.formatInput]
  have hq := evalQ_sel hf (selList_ne hok3) (names_free cols) [] (items.flatMap (ordTerms nm)) none
  rw [evalRows_sel (names_noAgg cols) hm, names_hdr] at hq
  have hev : evalOrder S (items.flatMap (ordTerms nm)) (cols.map nm)
      (((keyed.map (·.2)).zip L).map fun x => (x.1, bindR (s.cols.map nm) x.2 envs)) =
      some (sortBy (cmpItems S items) keyed) := by
    have hemp : (items.flatMap (ordTerms nm)).isEmpty = false := by simpa using hot
    simp only [evalOrder, hemp, Bool.false_eq_true, if_false, mapO_map]
    rw [hke]
    simp only [Option.some.injEq]
    refine sortBy_expand S nm items keyed fun x hx => ?_
    obtain ⟨a, _, ha⟩ := mapO_mem hk x hx
    split at ha
    · rename_i k r hk1 hr1
      cases ha
      simpa using mapO_length hk1
    · simp at ha
  simp only [finish, hev] at hq
  rw [limited_none] at hq
  have htl : tail [] (items.flatMap (ordTerms nm)) none = [.orderBy (items.flatMap (ordTerms nm))] := by
    simp only [tail, if_true, List.nil_append, if_neg hot, List.append_nil]
  rw [htl] at hq
  refine Fin.ofQuery rfl hq (fun h => by simp [bare] at h) fun r hr => ?_
  simp only [sortBy, List.mem_map, List.mem_mergeSort] at hr
  obtain ⟨x, hx, rfl⟩ := hr
  obtain ⟨a, _, ha⟩ := mapO_mem hk x hx
  split at ha
  · rename_i k r hk1 hr1
    cases ha
    exact mapO_length hr1
  · simp at ha

theorem gs_limit {s : Scan} {k : Nat} {off : Option Nat} {cols : List Col} (hs : GS S db nm s) :
    GS S db nm (.limit s k off cols) := by
  intro w tx ht hok
  simp only [fmtS] at ht
  split at ht
  · simp at ht
  rename_i t htt
  cases ht
  simp only [okS] at hok
  obtain ⟨hoks, hok3, hok4⟩ := hok
  obtain ⟨N, hN⟩ := hs w t htt hoks
  refine ⟨N + 1, fun n hn we cte envr envs hc rows he => ?_⟩
  obtain ⟨m, rfl⟩ : ∃ m, n = m + 1 := ⟨n - 1, by omega⟩
  simp only [evalS] at he
  split at he
  · simp at he
  rename_i L hL
  cases hp : mapO (fun a => pick s.cols a cols) L with
  | none => simp [hp] at he
  | some out =>
  simp only [hp, Option.map_some, Option.some.injEq] at he
  subst he
  have hcs : Ctx nm w we cte envr envs (intS s) (tabS s) := hc
  have hfin := hN m (by omega) we cte envr envs hcs L hL
  have hinj := hcs.inj (cols_sub nm w s hoks)
  have hm : mapO (fun a => (mapO (itemVal S (evalQ S db m cte) envs (s.cols.map nm) a)
      (selList nm [] cols)).map List.flatten) L = some out :=
    mapO_mono hp fun a ha b hb => map_flatten (names_val hinj hb)
  obtain ⟨wh, _, hf⟩ := hfin.den.from
  rw [hfin.den.formatInput]
  have hq := sel_query hf (selList_ne hok3) (names_free cols) (names_noAgg cols) hm (some (k, off))
  rw [names_hdr] at hq
  refine Fin.ofQuery rfl hq (fun h => by simp [bare] at h) fun r hr => ?_
  have hr' : r ∈ out := by
    simp only [limited] at hr
    exact List.drop_subset _ _ (List.take_subset _ _ hr)
  exact mapO_length_of hp (fun a _ b hb => mapO_length hb) r hr'

/-! ## WHERE -/

theorem evalFW_none {q : SEnv V → List Tok → Option (Rel V)} {items : List Item} {pt : PT} {r : Rel V}
    (h : evalFW S db q cte envs items (some pt) none = some r) :
    evalPT S db q cte envs (Query.scope S q items envs) pt = some r := by
  simp only [evalFW] at h
  split at h
  · simp at h
  · rename_i he
    rw [he]
    exact h

theorem FromF.filter {q : SEnv V → List Tok → Option (Rel V)} {t : List Tok} {h : List Nm} {rows out : List (List V)}
    (hf : FromF S db nm q cte envr envs none t h rows) {x : SExpr} {p : List V → Option Bool}
    (hp : filtO p rows = some out)
    (hx : ∀ items, AlFree nm envr items → ∀ r ∈ rows, ∀ b, p r = some b →
      (evalX S q (Query.scope S q items envs h r) x).map S.truth = some b) :
    FromF S db nm q cte envr envs (some x) (t ++ [.whr x]) h out := by
  obtain ⟨pt, t0, rfl, hpc, he⟩ := hf
  refine ⟨pt, t0, by simp, hpc, fun items hal => ?_⟩
  have h1 := he items hal
  have h2 := filtO_mono hp fun r hr b hb => hx items hal r hr b hb
  simp only [evalFW, evalFW_none h1, h2, Option.map_some]

/-- All the columns of a row. -/
theorem star_val (hst : ∀ c, starred (nm c) = true) : ∀ {h : List Col} {a : List V}, a.length = h.length →
    starVals (h.map nm) a = a
  | [], [], _ => rfl
  | [], _ :: _, hl => by simp at hl
  | _ :: _, [], hl => by simp at hl
  | c :: cs, v :: vs, hl => by
    simp only [List.map_cons, starVals, hst, if_true]
    rw [star_val hst (by simpa using hl)]

theorem star_hdr (hst : ∀ c, starred (nm c) = true) (h : List Col) : (h.map nm).filter starred = h.map nm := by
  rw [List.filter_eq_self]
  intro n hn
  obtain ⟨c, _, rfl⟩ := List.mem_map.1 hn
  exact hst c

theorem gs_filter (hst : ∀ c, starred (nm c) = true) {s : Scan} {e : Expr} (hs : GS S db nm s) (hge : GE S db nm e) :
    GS S db nm (.filter s e) := by
  intro w tx ht hok
  simp only [fmtS] at ht
  split at ht
  · rename_i t x htt hxx
    simp only [okS] at hok
    obtain ⟨hoks, hlo, hoke, hwr⟩ := hok
    obtain ⟨N1, hN1⟩ := hs w t htt hoks
    obtain ⟨N2, hN2⟩ := hge w x hxx hoke
    refine ⟨N1 + N2 + 1, fun n hn we cte envr envs hc rows he => ?_⟩
    simp only [evalS] at he
    split at he
    · simp at he
    rename_i L hL
    have hcs : Ctx nm w we cte envr envs (intS s ++ intE e) (tabS s ++ tabE e) := hc
    have hfin := hN1 n (by omega) we cte envr envs hcs.l L hL
    have hsub := cols_sub nm w s hoks
    have hlen : ∀ r ∈ rows, r.length = s.cols.length := fun r hr => hfin.len r (filtO_sub he r hr)
    have hx : ∀ items, AlFree nm envr items → ∀ r ∈ L, ∀ b,
        (evalE S db we (bindR s.cols r envr) e).map S.truth = some b →
        (evalX S (evalQ S db n cte) (Query.scope S (evalQ S db n cte) items envs (s.cols.map nm) r) x).map S.truth =
          some b := by
      intro items hal r hr b hb
      cases hev : evalE S db we (bindR s.cols r envr) e with
      | none => simp [hev] at hb
      | some v =>
        rw [hN2 n (by omega) we cte _ _ (hcs.scope hsub hal _ r) v hev, ← hev]
        exact hb
    have hbs : ∀ {t' : List Tok}, startsSel t' = false → (∃ w', FromF S db nm (evalQ S db n cte) cte envr envs w' t'
        (s.cols.map nm) rows) → Fin S db nm n cte envr envs (.filter s e) t' rows := by
      intro t' hss ⟨w', hf⟩
      refine ⟨⟨fun h => by rw [hss] at h; exact absurd h (by simp), fun _ => ⟨w', fun h => by simp [leftOk] at h, hf⟩⟩,
        fun h => by simp [bare] at h, fun h => by simp [rightOk] at h, hlen⟩
    by_cases hw : wraps t = true
    · rw [if_pos hw] at ht
      cases ht
      refine hbs rfl ⟨some x, ?_⟩
      refine FromF.filter (t := [.grp t]) ⟨.leaf (.grp t), [.grp t], rfl, fun rest _ => by simp [pChain, trefOf],
        fun items _ => ?_⟩ he hx
      cases hss : startsSel t with
      | true => simp only [evalFW, evalPT, evalTref, hss, if_true, hfin.den.1 hss]
      | false =>
        obtain ⟨m, rfl⟩ : ∃ m, n = m + 1 := ⟨n - 1, by omega⟩
        have hfin' := hN1 m (by omega) we cte envr envs hcs.l L hL
        obtain ⟨w', hw', hf⟩ := hfin'.den.2 hss
        have := hw' hlo
        subst this
        have hm : mapO (fun a => (mapO (itemVal S (evalQ S db m cte) envs (s.cols.map nm) a) [.star]).map
            List.flatten) L = some L := by
          have : ∀ M : List (List V), (∀ a ∈ M, a ∈ L) → mapO (fun a => (mapO (itemVal S (evalQ S db m cte) envs
              (s.cols.map nm) a) [.star]).map List.flatten) M = some M := by
            intro M
            induction M with
            | nil => intro _; rfl
            | cons a as ih =>
              intro hM
              refine mapO_cons' ?_ (ih fun x hx => hM x (List.mem_cons_of_mem _ hx))
              simp [mapO, itemVal, star_val hst (hfin'.len a (hM a (List.mem_cons_self ..)))]
          exact this L fun _ h => h
        have hq := sel_query hf (items := [.star]) (by simp) (fun d _ => rfl) rfl hm none
        rw [tail_none, limited_none, List.append_nil] at hq
        simp only [List.flatMap_cons, List.flatMap_nil, itemHdr, star_hdr hst, List.append_nil] at hq
        obtain ⟨pt, t0, ht0, hpc, _⟩ := hf
        simp only [Option.map_none, Option.toList_none, List.append_nil] at ht0
        subst ht0
        have hpt : pChain t = some (pt, []) := by
          have := hpc [] (by simp)
          rw [List.append_nil] at this
          rw [this]
          simp [pLoop]
        simp only [evalFW, evalPT, evalTref, hss, Bool.false_eq_true, if_false, hpt, hq]
    · rw [if_neg hw] at ht
      cases ht
      cases hss : startsSel t with
      | false =>
        obtain ⟨w', hw', hf⟩ := hfin.den.2 hss
        have := hw' hlo
        subst this
        obtain ⟨y, r, hyr, _⟩ := hf.cons
        refine hbs ?_ ⟨some x, hf.filter he hx⟩
        rw [hyr] at hss ⊢
        cases y <;> first | rfl | simp [startsSel] at hss
      | true =>
        have hiq := sel_isQuery htt hlo hss
        have hba : bare s = true := by
          rcases hwr hiq with h | h
          · exact h
          · exact absurd (h t htt) hw
        obtain ⟨m, rfl, hbf⟩ := hfin.bareF hba
        have hq := hbf.filter he (x := x) (fun r env hr href b hb => by
          cases hev : evalE S db we (bindR s.cols r envr) e with
          | none => simp [hev] at hb
          | some v =>
            rw [hN2 m (by omega) we cte _ _ (hcs.withRef hsub href) v hev, ← hev]
            exact hb)
        refine ⟨⟨fun _ => hq, fun h => ?_⟩, fun h => by simp [bare] at h, fun h => by simp [rightOk] at h, hlen⟩
        obtain ⟨y, r, hyr, _⟩ := startsSel_cons hss
        rw [hyr] at hss h
        cases y <;> first | (simp [startsSel] at h; done) | simp [startsSel] at hss
  · simp at ht

/-! ## Joins -/

theorem joinRows_pairs_mono {p p' : List V → List V → Option Bool} {L R : List (List V)}
    {pairs : List (List V × List (List V))}
    (h : mapO (fun l => (filtO (p l) R).map fun rs => (l, rs)) L = some pairs)
    (hp : ∀ a ∈ L, ∀ b ∈ R, ∀ x, p a b = some x → p' a b = some x) :
    mapO (fun l => (filtO (p' l) R).map fun rs => (l, rs)) L = some pairs := by
  refine mapO_mono h fun l hl x hx => ?_
  cases hf : filtO (p l) R with
  | none => simp [hf] at hx
  | some rs =>
    rw [filtO_mono hf fun b hb => hp l hl b hb]
    rw [hf] at hx
    exact hx

theorem joinRows_mono {null : V} {k : JK} {wl wr : Nat} {p p' : List V → List V → Option Bool} {L R rows : List (List V)}
    (h : joinRows null k wl wr p L R = some rows)
    (hp : ∀ a ∈ L, ∀ b ∈ R, ∀ x, p a b = some x → p' a b = some x) : joinRows null k wl wr p' L R = some rows := by
  unfold joinRows at h ⊢
  split at h
  · simp at h
  · rename_i pairs he
    rw [joinRows_pairs_mono he hp]
    exact h

theorem joinRows_inner {null : V} {wl wr : Nat} {p : List V → List V → Option Bool} {L R : List (List V)} :
    joinRows null .inner wl wr p L R = joinRows null .cross wl wr p L R := rfl

theorem joinRows_len {null : V} {k : JK} {wl wr : Nat} {p : List V → List V → Option Bool} {L R rows : List (List V)}
    (h : joinRows null k wl wr p L R = some rows) (hL : ∀ a ∈ L, a.length = wl) (hR : ∀ b ∈ R, b.length = wr) :
    ∀ r ∈ rows, r.length = wl + wr := by
  unfold joinRows at h
  split at h
  · simp at h
  rename_i pairs he
  have hpairs : ∀ x ∈ pairs, x.1 ∈ L ∧ ∀ b ∈ x.2, b ∈ R := by
    intro x hx
    obtain ⟨a, ha, hax⟩ := mapO_mem he x hx
    cases hf : filtO (p a) R with
    | none => simp [hf] at hax
    | some rs =>
      simp only [hf, Option.map_some, Option.some.injEq] at hax
      subst hax
      exact ⟨ha, fun b hb => filtO_sub hf b hb⟩
  have h1 : ∀ r ∈ pairs.flatMap (fun x => x.2.map fun r => x.1 ++ r), r.length = wl + wr := by
    intro r hr
    simp only [List.mem_flatMap, List.mem_map] at hr
    obtain ⟨x, hx, b, hb, rfl⟩ := hr
    simp [hL _ (hpairs x hx).1, hR _ ((hpairs x hx).2 b hb)]
  have h2 : ∀ r ∈ pairs.flatMap (fun x => if x.2 = [] then [x.1 ++ List.replicate wr null] else
      x.2.map fun r => x.1 ++ r), r.length = wl + wr := by
    intro r hr
    simp only [List.mem_flatMap] at hr
    obtain ⟨x, hx, hr⟩ := hr
    split at hr
    · simp only [List.mem_singleton] at hr
      subst hr
      simp [hL _ (hpairs x hx).1]
    · obtain ⟨b, hb, rfl⟩ := List.mem_map.1 hr
      simp [hL _ (hpairs x hx).1, hR _ ((hpairs x hx).2 b hb)]
  have h3 : ∀ r ∈ (R.filter fun r => !(pairs.any fun x => decide (r ∈ x.2))).map fun r => List.replicate wl null ++ r,
      r.length = wl + wr := by
    intro r hr
    obtain ⟨b, hb, rfl⟩ := List.mem_map.1 hr
    simp [hR _ (List.mem_filter.1 hb).1]
  intro r hr
  cases k <;> cases h
  · exact h1 r hr
  · exact h1 r hr
  · exact h2 r hr
  · rcases List.mem_append.1 hr with hr | hr
    · exact h1 r hr
    · exact h3 r hr
  · rcases List.mem_append.1 hr with hr | hr
    · exact h2 r hr
    · exact h3 r hr

theorem pLoop_noOn (acc : PT) (k : JK) {x : Tok} {t : Tref} (hx : trefOf x = some t) {rest : List Tok}
    (hr : ∀ e r, rest ≠ .on e :: r) : pLoop acc (.join k :: x :: rest) = pLoop (.join k acc t none) rest := by
  rw [pLoop]
  · rw [hx]
  · exact hr

theorem pLoop_on (acc : PT) (k : JK) {x : Tok} {t : Tref} (hx : trefOf x = some t) (e : SExpr) (rest : List Tok) :
    pLoop acc (.join k :: x :: .on e :: rest) = pLoop (.join k acc t (some e)) rest := by
  rw [pLoop, hx]

/-- The text of a join: its right input is a table, its left input any FROM clause. -/
theorem FromF.join {q : SEnv V → List Tok → Option (Rel V)} {t : List Tok} {h h' : List Nm} {L R rows : List (List V)}
    (hf : FromF S db nm q cte envr envs none t h L) {x : Tok} {tr : Tref} (hx : trefOf x = some tr)
    (hne : ∀ e, tr ≠ .each e) (hr : evalTref db q cte envs tr = some (h', R)) {k : JK} {on : Option SExpr}
    (hj : ∀ items, AlFree nm envr items → joinRows S.null k h.length h'.length
      (fun a b => evalOn S q (Query.scope S q items envs (h ++ h') (a ++ b)) on) L R = some rows) :
    FromF S db nm q cte envr envs none (t ++ .join k :: x :: (on.map Tok.on).toList) (h ++ h') rows := by
  obtain ⟨pt, t0, ht, hp, he⟩ := hf
  simp only [Option.map_none, Option.toList_none, List.append_nil] at ht
  subst ht
  refine ⟨.join k pt tr on, _, (List.append_nil _).symm, fun rest hrest => ?_, fun items hal => ?_⟩
  · rw [List.append_assoc, hp _ (by simp)]
    cases on with
    | none => exact pLoop_noOn pt k hx hrest
    | some e => exact pLoop_on pt k hx e rest
  · have h1 := evalFW_none (he items hal)
    have h2 := hj items hal
    cases tr with
    | each e => exact absurd rfl (hne e)
    | tbl n => simp only [evalFW, evalPT, h1, hr, h2, Option.map_some]
    | grp ts => simp only [evalFW, evalPT, h1, hr, h2, Option.map_some]
    | num ts => simp [evalTref] at hr

theorem gs_join {k : JK} {l r : Scan} {on : OExpr} (hl : GS S db nm l) (hr : GS S db nm r) (ho : GO S db nm on) :
    GS S db nm (.join k l r on) := by
  intro w tx ht hok
  have hok0 := hok
  simp only [okS] at hok
  obtain ⟨hokl, hokr, hlo, hro, hoko, hkon⟩ := hok
  have key : ∀ tl tr x k', fmtS nm w l = some tl → fmtS nm w r = some tr → fmtO nm w on = some x →
      tx = joinInput tl ++ .join k' :: (joinInput tr ++ (x.map Tok.on).toList) →
      (∀ p L R, joinRows S.null k l.cols.length r.cols.length p L R =
        joinRows S.null k' l.cols.length r.cols.length p L R) →
      ∃ N, ∀ n, N ≤ n → ∀ we cte envr envs,
        Ctx nm w we cte envr envs (intS (.join k l r on)) (tabS (.join k l r on)) →
        ∀ rows, evalS S db we envr (.join k l r on) = some rows →
        Fin S db nm n cte envr envs (.join k l r on) tx rows := by
    intro tl tr x k' htl htr hxo htx hkk
    obtain ⟨N1, hN1⟩ := hl w tl htl hokl
    obtain ⟨N2, hN2⟩ := hr w tr htr hokr
    obtain ⟨N3, hN3⟩ := ho w x hxo hoko
    refine ⟨N1 + N2 + N3, fun n hn we cte envr envs hc rows he => ?_⟩
    simp only [evalS] at he
    split at he
    · rename_i L R hL hR
      have hcs : Ctx nm w we cte envr envs (intS l ++ (intS r ++ intO on)) (tabS l ++ (tabS r ++ tabO on)) := hc
      have hfl := hN1 n (by omega) we cte envr envs hcs.l L hL
      have hfr := hN2 n (by omega) we cte envr envs hcs.r.l R hR
      obtain ⟨wh, hwh, hff⟩ := hfl.den.from
      have := hwh hlo
      subst this
      obtain ⟨ts, h1, h2, h3⟩ := hfr.one hro
      have hc2 : Ctx nm w we cte envr envs ((intS l ++ intS r) ++ intO on) ((tabS l ++ tabS r) ++ tabO on) := by
        rw [List.append_assoc, List.append_assoc]
        exact hcs
      have hsub : ∀ c ∈ l.cols ++ r.cols, c ∈ intS l ++ intS r := by
        intro c hcc
        rcases List.mem_append.1 hcc with hcc | hcc
        · exact List.mem_append_left _ (cols_sub nm w l hokl c hcc)
        · exact List.mem_append_right _ (cols_sub nm w r hokr c hcc)
      have hff' := hff.join (x := .grp ts) (tr := .grp ts) rfl (by simp) (h' := r.cols.map nm) (R := R) (rows := rows)
        (by simp only [evalTref, h2, if_true, h3]) (k := k') (on := x) (fun items hal => by
          rw [List.length_map, List.length_map, ← hkk]
          refine joinRows_mono he fun a ha b hb y hy => ?_
          rw [← List.map_append]
          exact hN3 n (by omega) we cte _ _ (hc2.scope hsub hal _ (a ++ b)) y hy)
      have hlen : ∀ r' ∈ rows, r'.length = (Scan.join k l r on).cols.length := by
        intro r' hr'
        simp only [Scan.cols, List.length_append]
        exact joinRows_len he hfl.len hfr.len r' hr'
      have htx' : tx = joinInput tl ++ .join k' :: .grp ts :: (x.map Tok.on).toList := by
        rw [htx, h1]
        rfl
      rw [← htx', ← List.map_append] at hff'
      refine ⟨⟨fun h => ?_, fun _ => ⟨none, fun _ => rfl, hff'⟩⟩, fun h => by simp [bare] at h, fun h => by simp [rightOk] at h,
        hlen⟩
      rw [htx', joinInput_nosel _ _ _ rfl] at h
      exact absurd h (by simp)
    · simp at he
  simp only [fmtS] at ht
  split at ht
  · rename_i tl tr htl htr hon
    cases ht
    refine key tl tr none .cross htl htr hon (by simp) fun p L R => ?_
    have hnone : on.isNone = true := by
      cases on with
      | none => rfl
      | some e =>
        simp only [fmtO] at hon
        cases hf : fmtE nm w e <;> simp [hf] at hon
    rcases hkon hnone with rfl | rfl
    · rfl
    · rfl
  · rename_i tl tr x htl htr hon
    split at ht
    · simp at ht
    · cases ht
      exact key tl tr (some x) _ htl htr hon (by simp) fun p L R => rfl
  · simp at ht
end

end Verif.Query
