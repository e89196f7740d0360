import Verif.Lemmas.QueryJoin

/-!
# UNNEST
-/

namespace Verif.Query

set_option linter.unusedSectionVars false

theorem mapO_append {α β : Type} {f : α → Option β} : ∀ {as bs : List α} {xs ys : List β}, mapO f as = some xs →
    mapO f bs = some ys → mapO f (as ++ bs) = some (xs ++ ys)
  | [], bs, xs, ys, h1, h2 => by
    simp only [mapO, Option.some.injEq] at h1
    subst h1
    exact h2
  | a :: as, bs, xs, ys, h1, h2 => by
    obtain ⟨x, xs', h3, h4, rfl⟩ := mapO_cons h1
    exact mapO_cons' h3 (mapO_append h4 h2)

theorem mapO_flatMap {α β γ : Type} {f : β → Option γ} {g : α → List β} {g' : α → List γ} : ∀ {as : List α},
    (∀ a ∈ as, mapO f (g a) = some (g' a)) → mapO f (as.flatMap g) = some (as.flatMap g')
  | [], _ => rfl
  | a :: as, h => by
    simp only [List.flatMap_cons]
    exact mapO_append (h a (List.mem_cons_self ..)) (mapO_flatMap fun a ha => h a (List.mem_cons_of_mem _ ha))

theorem mapO_lift {α β γ : Type} {f : α → Option β} {g : α → Option γ} {h : γ → β} {Q : γ → Prop} :
    ∀ {as : List α} {bs : List β}, mapO f as = some bs →
    (∀ a ∈ as, ∀ b, f a = some b → ∃ b', g a = some b' ∧ h b' = b ∧ Q b') →
    ∃ bs', mapO g as = some bs' ∧ bs'.map h = bs ∧ ∀ b ∈ bs', Q b
  | [], bs, hm, _ => by
    simp only [mapO, Option.some.injEq] at hm
    subst hm
    exact ⟨[], rfl, rfl, by simp⟩
  | a :: as, bs, hm, hg => by
    obtain ⟨b, bs', h1, h2, rfl⟩ := mapO_cons hm
    obtain ⟨c, h3, h4, h5⟩ := hg a (List.mem_cons_self ..) b h1
    obtain ⟨cs, h6, h7, h8⟩ := mapO_lift h2 fun a ha => hg a (List.mem_cons_of_mem _ ha)
    refine ⟨c :: cs, mapO_cons' h3 h6, by simp [h4, h7], ?_⟩
    intro x hx
    rcases List.mem_cons.1 hx with rfl | hx
    · exact h5
    · exact h8 x hx

theorem filtO_lift {α β : Type} {p : β → Option Bool} {p' : α → Option Bool} {h : α → β} : ∀ {as : List α} {bs : List β},
    filtO p (as.map h) = some bs → (∀ a ∈ as, ∀ x, p (h a) = some x → p' a = some x) →
    ∃ cs, filtO p' as = some cs ∧ cs.map h = bs
  | [], bs, hm, _ => by
    simp only [List.map_nil, filtO, Option.some.injEq] at hm
    subst hm
    exact ⟨[], rfl, rfl⟩
  | a :: as, bs, hm, hp => by
    obtain ⟨x, bs', h1, h2, rfl⟩ := filtO_cons hm
    obtain ⟨cs, h3, h4⟩ := filtO_lift h2 fun a ha => hp a (List.mem_cons_of_mem _ ha)
    refine ⟨_, filtO_cons' (hp a (List.mem_cons_self ..) x h1) h3, ?_⟩
    cases x <;> simp [h4]

section
variable {V : Type} [DecidableEq V] {S : Sem V} {db : Db V} {nm : Col → Nm}
variable {w : WMap} {we : WEnv V} {cte : CTE V} {envr : Env V} {envs : SEnv V}

/-- The columns of `json_each` which a scan uses. -/
def cut (off : Bool) (r : List V) : List V := if off then r else r.take 1

theorem elemRows_cut (S : Sem V) (off : Bool) (a : V) : elemRows S off a = (elemRows S true a).map (cut off) := by
  cases off <;> simp [elemRows, cut, List.map_map, Function.comp_def]

theorem elemRows_two {a : V} : ∀ r ∈ elemRows S true a, ∃ v k, r = [v, k] := by
  intro r hr
  simp only [elemRows, List.mem_map] at hr
  obtain ⟨x, _, rfl⟩ := hr
  exact ⟨_, _, rfl⟩

/-- The entries for the element and its position. -/
def eachItems (nm : Col → Nm) (elem : Col) (off : Option Col) : List Item :=
  .ex (.name .eachValue) (some (nm elem)) :: off.toList.map fun o => .ex (.name .eachKey) (some (nm o))

theorem eachItems_hdr (h : List Nm) (elem : Col) (off : Option Col) :
    (eachItems nm elem off).flatMap (itemHdr h) = (elem :: off.toList).map nm := by
  cases off <;> rfl

theorem eachItems_noAgg (elem : Col) (off : Option Col) : (eachItems nm elem off).any isAgg = false := by
  cases off <;> rfl

theorem eachItems_alIn (elem : Col) (off : Option Col) : AlIn nm (elem :: off.toList) (eachItems nm elem off) := by
  intro e n hm
  cases off with
  | none =>
    simp only [eachItems, Option.toList_none, List.map_nil, List.mem_singleton] at hm
    cases hm
    exact ⟨elem, List.mem_cons_self .., rfl⟩
  | some o =>
    simp only [eachItems, Option.toList_some, List.map_cons, List.map_nil, List.mem_cons, List.not_mem_nil, or_false] at hm
    rcases hm with hm | hm
    · cases hm
      exact ⟨elem, List.mem_cons_self .., rfl⟩
    · cases hm
      exact ⟨o, by simp, rfl⟩

theorem each_notMem (hst : ∀ c, starred (nm c) = true) (h : List Col) :
    Nm.eachValue ∉ h.map nm ∧ Nm.eachKey ∉ h.map nm := by
  constructor <;>
  · intro hm
    obtain ⟨c, _, hc⟩ := List.mem_map.1 hm
    have := hst c
    rw [hc] at this
    simp [starred] at this

theorem starred_ne (hst : ∀ c, starred (nm c) = true) (c : Col) : nm c ≠ .eachValue ∧ nm c ≠ .eachKey := by
  constructor <;>
  · intro hc
    have := hst c
    rw [hc] at this
    simp [starred] at this

theorem each_val (hst : ∀ c, starred (nm c) = true) {q : SEnv V → List Tok → Option (Rel V)} {h : List Col} {a : List V}
    (hl : a.length = h.length) (v k : V) (elem : Col) (off : Option Col) :
    mapO (itemVal S q envs (h.map nm ++ [.eachValue, .eachKey]) (a ++ [v, k])) (eachItems nm elem off) =
      some ((cut off.isSome [v, k]).map fun v => [v]) := by
  have h1 : lk (h.map nm ++ [.eachValue, .eachKey]) (a ++ [v, k]) .eachValue = some v := by
    rw [lk_append_right (by simpa using hl) (each_notMem hst h).1]
    simp [lk]
  have h2 : lk (h.map nm ++ [.eachValue, .eachKey]) (a ++ [v, k]) .eachKey = some k := by
    rw [lk_append_right (by simpa using hl) (each_notMem hst h).2]
    simp [lk]
  cases off with
  | none => simp [eachItems, mapO, itemVal, evalX, bindR, h1, cut]
  | some o => simp [eachItems, mapO, itemVal, evalX, bindR, h1, h2, cut]

theorem starVals_append : ∀ {h1 h2 : List Nm} {a b : List V}, a.length = h1.length →
    starVals (h1 ++ h2) (a ++ b) = starVals h1 a ++ starVals h2 b
  | [], h2, [], b, _ => by simp [starVals]
  | [], _, _ :: _, _, hl => by simp at hl
  | _ :: _, _, [], _, hl => by simp at hl
  | x :: xs, h2, v :: vs, b, hl => by
    have ih := starVals_append (h1 := xs) (h2 := h2) (a := vs) (b := b) (by simpa using hl)
    simp only [List.cons_append, starVals, ih]
    split <;> simp

theorem starEach_val (hst : ∀ c, starred (nm c) = true) {q : SEnv V → List Tok → Option (Rel V)} {h : List Col}
    {a : List V} (hl : a.length = h.length) (v k : V) (elem : Col) (off : Option Col) :
    mapO (itemVal S q envs (h.map nm ++ [.eachValue, .eachKey]) (a ++ [v, k])) (.star :: eachItems nm elem off) =
      some (a :: (cut off.isSome [v, k]).map fun v => [v]) := by
  refine mapO_cons' ?_ (each_val hst hl v k elem off)
  simp only [itemVal]
  rw [starVals_append (by simpa using hl), star_val hst hl]
  simp [starVals, starred]

theorem bare_of_pt {m : Nat} {s : Scan} {t0 : List Tok} {pt : PT} {h : List Nm} {L rows : List (List V)} {items : List Item}
    (hp : ∀ rest, (∀ e r, rest ≠ .on e :: r) → pChain (t0 ++ rest) = pLoop pt rest)
    (he : evalFW S db (evalQ S db m cte) cte envs items (some pt) none = some (h, L)) (hi : items ≠ [])
    (hal : AlFree nm envr items) (hn : items.any isAgg = false) (hlen : ∀ a ∈ L, a.length = h.length)
    (hok : ∀ i ∈ items, ItemOk h i) (hh : items.flatMap (itemHdr h) = s.cols.map nm)
    (hinj : ∀ c ∈ s.cols, ∀ d ∈ s.cols, nm c = nm d → c = d) (hr : Ref nm envr envs)
    (hfree : ∀ d, envr d ≠ none → nm d ∉ h)
    (hm : mapO (fun a => (mapO (itemVal S (evalQ S db m cte) envs h a) items).map List.flatten) L = some rows) :
    BareF S db nm (evalQ S db m cte) cte envr envs s (.sel items :: .from :: t0) rows := by
  refine ⟨items, some pt, h, L, hn, fun w => ?_, ⟨_, rfl⟩, he, hh, hm, fun a ha o ho => ?_⟩
  · have := pCore_from hi w hp (tl := []) ⟨by simp, by simp, by simp⟩
    rw [List.append_nil] at this
    exact this
  · cases hv : mapO (itemVal S (evalQ S db m cte) envs h a) items with
    | none => simp [hv] at ho
    | some os =>
      simp only [hv, Option.map_some, Option.some.injEq] at ho
      subst ho
      exact bare_ref (hlen a ha) hok hh hinj hr hal hfree hv

theorem eachItems_ok (hst : ∀ c, starred (nm c) = true) {h : List Col} {elem : Col} {off : Option Col}
    (hd : ∀ c ∈ elem :: off.toList, nm c ∉ h.map nm) :
    ∀ i ∈ eachItems nm elem off, ItemOk (h.map nm ++ [.eachValue, .eachKey]) i := by
  intro i hi
  have : ∃ e c, i = .ex e (some (nm c)) ∧ c ∈ elem :: off.toList := by
    cases off with
    | none =>
      simp only [eachItems, Option.toList_none, List.map_nil, List.mem_singleton] at hi
      exact ⟨_, elem, hi, List.mem_cons_self ..⟩
    | some o =>
      simp only [eachItems, Option.toList_some, List.map_cons, List.map_nil, List.mem_cons, List.not_mem_nil,
        or_false] at hi
      rcases hi with hi | hi
      · exact ⟨_, elem, hi, List.mem_cons_self ..⟩
      · exact ⟨_, o, hi, by simp⟩
  obtain ⟨e, c, rfl, hc⟩ := this
  simp only [ItemOk, List.mem_append, List.mem_cons, List.not_mem_nil, or_false, not_or]
  exact ⟨hd c hc, (starred_ne hst c).1, (starred_ne hst c).2⟩

theorem gs_unnest (hst : ∀ c, starred (nm c) = true) {e : Expr} {elem : Col} {off : Option Col} (hge : GE S db nm e) :
    GS S db nm (.unnest e elem off) := by
  intro w tx ht hok
  simp only [fmtS] at ht
  split at ht
  · simp at ht
  rename_i x hx
  cases ht
  simp only [okS] at hok
  obtain ⟨N, hN⟩ := hge w x hx hok
  refine ⟨N + 1, fun n hn we cte envr envs hc rows he => ?_⟩
  obtain ⟨m, rfl⟩ : ∃ m, n = m + 1 := ⟨n - 1, by omega⟩
  simp only [evalS, Option.map_eq_some_iff] at he
  obtain ⟨v, hv, rfl⟩ := he
  have hcs : Ctx nm w we cte envr envs (intE e ++ elem :: off.toList) (tabE e ++ []) :=
    hc.sub (List.Sublist.refl _) (by simp [tabS])
  have hxv := hN m (by omega) we cte envr envs hcs.l v hv
  have hal : AlFree nm envr (eachItems nm elem off) := (eachItems_alIn elem off).free hcs.r.away
  have hm : mapO (fun a => (mapO (itemVal S (evalQ S db m cte) envs [.eachValue, .eachKey] a)
      (eachItems nm elem off)).map List.flatten) (elemRows S true v) = some (elemRows S off.isSome v) := by
    rw [elemRows_cut S off.isSome v]
    have : ∀ L : List (List V), (∀ r ∈ L, ∃ v k, r = [v, k]) →
        mapO (fun a => (mapO (itemVal S (evalQ S db m cte) envs [.eachValue, .eachKey] a)
          (eachItems nm elem off)).map List.flatten) L = some (L.map (cut off.isSome)) := by
      intro L
      induction L with
      | nil => intro _; rfl
      | cons a as ih =>
        intro hL
        obtain ⟨u, k, rfl⟩ := hL a (List.mem_cons_self ..)
        exact mapO_cons' (map_flatten (each_val (V := V) hst (h := []) (a := []) rfl u k elem off))
          (ih fun r hr => hL r (List.mem_cons_of_mem _ hr))
    exact this _ elemRows_two
  refine Fin.ofBare (bare_of_pt (t0 := [.each x]) (pt := .leaf (.each x)) (h := [.eachValue, .eachKey])
    (L := elemRows S true v) (items := eachItems nm elem off) (fun rest _ => by simp [pChain, trefOf]) ?_ (by simp [eachItems])
    hal (eachItems_noAgg elem off) ?_ ?_ (eachItems_hdr _ elem off) (hcs.r.inj fun c h => h) hc.ref ?_ hm) ?_
  · simp only [evalFW, evalPT, hxv, Option.map_some]
  · intro a ha
    obtain ⟨u, k, rfl⟩ := elemRows_two a ha
    rfl
  · exact eachItems_ok hst (h := []) (by simp)
  · intro d _
    simp only [List.mem_cons, List.not_mem_nil, or_false, not_or]
    exact starred_ne hst d
  · intro r hr
    simp only [elemRows, List.mem_map] at hr
    obtain ⟨y, _, rfl⟩ := hr
    cases off <;> simp [Scan.cols]

theorem gs_array (hst : ∀ c, starred (nm c) = true) {s : Scan} {e : Expr} {elem : Col} {off : Option Col} {on : OExpr}
    {outer : Bool} (hs : GS S db nm s) (hge : GE S db nm e) (hgo : GO S db nm on) :
    GS S db nm (.array s e elem off on outer) := by
  intro w tx ht hok
  simp only [okS] at hok
  obtain ⟨hoks, hlo, hoke, hoko, hout⟩ := hok
  simp only [fmtS] at ht
  split at ht
  case h_2 => simp at ht
  rename_i x t j hx htt hj
  have hj' : ∃ k, tx = .sel (.star :: eachItems nm elem off) :: (formatInput t ++ .join k :: .each x :: (j.map Tok.on).toList) ∧
      ((k = .cross ∨ k = .inner) ∧ outer = false ∨ k = .left ∧ outer = true) := by
    cases j with
    | none =>
      have hou : outer = false := by
        cases outer with
        | false => rfl
        | true =>
          have := hout rfl
          cases on with
          | none => simp [OExpr.isNone] at this
          | some y =>
            simp only [fmtO] at hj
            cases hf : fmtE nm w y <;> simp [hf] at hj
      cases ht
      exact ⟨.cross, rfl, Or.inl ⟨Or.inl rfl, hou⟩⟩
    | some y =>
      cases ht
      cases outer with
      | false => exact ⟨.inner, rfl, Or.inl ⟨Or.inr rfl, rfl⟩⟩
      | true => exact ⟨.left, rfl, Or.inr ⟨rfl, rfl⟩⟩
  clear ht
  obtain ⟨k, rfl, hk⟩ := hj'
  obtain ⟨N1, hN1⟩ := hs w t htt hoks
  obtain ⟨N2, hN2⟩ := hge w x hx hoke
  obtain ⟨N3, hN3⟩ := hgo w j hj hoko
  refine ⟨N1 + N2 + N3 + 1, fun n hn we cte envr envs hc rows he => ?_⟩
  obtain ⟨m, rfl⟩ : ∃ m, n = m + 1 := ⟨n - 1, by omega⟩
  simp only [evalS] at he
  split at he
  · simp at he
  rename_i L hL
  have hcs : Ctx nm w we cte envr envs (intS s ++ (intE e ++ (elem :: off.toList ++ intO on)))
    (tabS s ++ (tabE e ++ tabO on)) := hc
  have hsub := cols_sub nm w s hoks
  have hfin := hN1 m (by omega) we cte envr envs hcs.l L hL
  -- the AS names
  have hmemc : ∀ c ∈ elem :: off.toList, c ∈ intS s ++ (intE e ++ (elem :: off.toList ++ intO on)) := fun c hcc =>
    List.mem_append_right _ (List.mem_append_right _ (List.mem_append_left _ hcc))
  have hal : AlFree nm envr (.star :: eachItems nm elem off) := by
    intro d hd
    have := (eachItems_alIn elem off).free (hcs.away.mono hmemc) d hd
    simpa [alias] using this
  have hdisj : ∀ c ∈ elem :: off.toList, nm c ∉ s.cols.map nm := by
    intro c hcc hmm
    obtain ⟨d, hd, hdn⟩ := List.mem_map.1 hmm
    exact (Dist.append hcs.dist).2.2 d (hsub d hd) c
      (List.mem_append_right _ (List.mem_append_left _ hcc)) hdn
  have hiok : ∀ i ∈ Item.star :: eachItems nm elem off, ItemOk (s.cols.map nm ++ [.eachValue, .eachKey]) i := by
    intro i hi
    rcases List.mem_cons.1 hi with rfl | hi
    · trivial
    · exact eachItems_ok hst hdisj i hi
  have hhd : (Item.star :: eachItems nm elem off).flatMap (itemHdr (s.cols.map nm ++ [.eachValue, .eachKey])) =
      (s.cols ++ elem :: off.toList).map nm := by
    simp only [List.flatMap_cons, eachItems_hdr, itemHdr, List.filter_append, star_hdr hst, List.map_append]
    simp [starred]
  have hcsub : ∀ c ∈ s.cols ++ elem :: off.toList, c ∈ intS s ++ (intE e ++ (elem :: off.toList)) := by
    intro c hcc
    rcases List.mem_append.1 hcc with hcc | hcc
    · exact List.mem_append_left _ (hsub c hcc)
    · exact List.mem_append_right _ (List.mem_append_right _ hcc)
  have hc2 : Ctx nm w we cte envr envs ((intS s ++ (intE e ++ (elem :: off.toList))) ++ intO on)
      ((tabS s ++ tabE e) ++ tabO on) := by
    simp only [List.append_assoc]
    exact hcs
  have hfree : ∀ d, envr d ≠ none → nm d ∉ s.cols.map nm ++ [Nm.eachValue, .eachKey] := by
    intro d hd
    simp only [List.mem_append, List.mem_cons, List.not_mem_nil, or_false, not_or]
    refine ⟨fun hmm => ?_, starred_ne hst d⟩
    obtain ⟨c, hcc, hcn⟩ := List.mem_map.1 hmm
    exact hcs.l.away d hd c (hsub c hcc) hcn
  have hflat : ∀ (a : List V) (v k : V), (a :: (cut off.isSome [v, k]).map fun v => [v]).flatten =
      a ++ cut off.isSome [v, k] := by
    intro a v k
    rw [List.flatten_cons, flatten_single]
  -- the pairs of rows and elements
  simp only [eachRows] at he
  split at he
  · simp at he
  rename_i P hP
  cases he
  obtain ⟨P', hP', hPm, hPQ⟩ := mapO_lift (h := fun x : List V × List (List V) => (x.1, x.2.map (cut off.isSome)))
    (Q := fun x => x.1 ∈ L ∧ ∀ r ∈ x.2, ∃ v k, r = [v, k])
    (g := fun l => match (evalX S (evalQ S db m cte) (bindR (s.cols.map nm) l envs) x).map (elemRows S true) with
      | none => none
      | some es => (filtO (fun b => evalOn S (evalQ S db m cte)
          (Query.scope S (evalQ S db m cte) (.star :: eachItems nm elem off) envs
            (s.cols.map nm ++ [.eachValue, .eachKey]) (l ++ b)) j) es).map fun rs => (l, rs)) hP (by
      intro a ha b hb
      cases hev : evalE S db we (bindR s.cols a envr) e with
      | none => simp [hev] at hb
      | some v =>
        have hxv := hN2 m (by omega) we cte _ _ (hcs.bind hsub a).l v hev
        simp only [hev, Option.map_some] at hb
        simp only [hxv, Option.map_some]
        rw [elemRows_cut] at hb
        cases hfo : filtO (fun b => evalO S db we (bindR (s.cols ++ elem :: off.toList) (a ++ b) envr) on)
            ((elemRows S true v).map (cut off.isSome)) with
        | none => simp [hfo] at hb
        | some rs =>
          simp only [hfo, Option.map_some, Option.some.injEq] at hb
          subst hb
          obtain ⟨cs, h1, h2⟩ := filtO_lift (p' := fun b => evalOn S (evalQ S db m cte)
            (Query.scope S (evalQ S db m cte) (.star :: eachItems nm elem off) envs
              (s.cols.map nm ++ [.eachValue, .eachKey]) (a ++ b)) j) hfo (by
            intro b hb y hy
            obtain ⟨u, k', rfl⟩ := elemRows_two b hb
            have href := bare_ref (S := S) (q := evalQ S db m cte) (envs := envs) (envr := envr)
              (h := s.cols.map nm ++ [.eachValue, .eachKey]) (a := a ++ [u, k'])
              (by simp [hfin.len a ha]) hiok hhd (hc2.l.inj hcsub) hc.ref hal hfree
              (starEach_val hst (hfin.len a ha) u k' elem off)
            rw [hflat] at href
            exact hN3 m (by omega) we cte _ _ (hc2.withRef hcsub href) y hy)
          refine ⟨(a, cs), by rw [h1]; rfl, by rw [h2], ha, fun r hr => ?_⟩
          exact elemRows_two r (filtO_sub h1 r hr))
  -- the rows
  have hwid : List.replicate (elem :: off.toList).length S.null = cut off.isSome [S.null, S.null] := by
    cases off <;> rfl
  have hP2 : eachRows S.null outer 2 (fun a b => evalOn S (evalQ S db m cte)
          (Query.scope S (evalQ S db m cte) (.star :: eachItems nm elem off) envs
            (s.cols.map nm ++ [.eachValue, .eachKey]) (a ++ b)) j)
      (fun a => (evalX S (evalQ S db m cte) (bindR (s.cols.map nm) a envs) x).map (elemRows S true)) L =
      some (P'.flatMap fun x => if outer && decide (x.2 = []) then [x.1 ++ [S.null, S.null]] else
        x.2.map fun r => x.1 ++ r) := by
    unfold eachRows
    split
    · rename_i hnone
      exact absurd (hnone.symm.trans hP') (by simp)
    · rename_i pairs hpairs
      have := hpairs.symm.trans hP'
      cases this
      rfl
  have hm : mapO (fun a => (mapO (itemVal S (evalQ S db m cte) envs (s.cols.map nm ++ [.eachValue, .eachKey]) a)
      (.star :: eachItems nm elem off)).map List.flatten)
      (P'.flatMap fun x => if outer && decide (x.2 = []) then [x.1 ++ [S.null, S.null]] else x.2.map fun r => x.1 ++ r) =
      some (P.flatMap fun x =>
        if outer && decide (x.2 = []) then [x.1 ++ List.replicate (elem :: off.toList).length S.null] else
          x.2.map fun r => x.1 ++ r) := by
    rw [← hPm, List.flatMap_map]
    refine mapO_flatMap fun y hy => ?_
    obtain ⟨h1, h2⟩ := hPQ y hy
    have hl1 := hfin.len y.1 h1
    by_cases hb : (outer && decide (y.2 = [])) = true
    · have hb' : (outer && decide (y.2.map (cut off.isSome) = [])) = true := by simpa using hb
      rw [if_pos hb, if_pos hb', hwid]
      refine mapO_cons' ?_ rfl
      show (mapO _ _).map List.flatten = _
      rw [starEach_val hst hl1, Option.map_some, hflat]
    · have hb' : ¬(outer && decide (y.2.map (cut off.isSome) = [])) = true := by simpa using hb
      rw [if_neg hb, if_neg hb', mapO_map, List.map_map]
      have : ∀ M : List (List V), (∀ r ∈ M, ∃ v k, r = [v, k]) →
          mapO (fun r => (mapO (itemVal S (evalQ S db m cte) envs (s.cols.map nm ++ [.eachValue, .eachKey]) (y.1 ++ r))
            (.star :: eachItems nm elem off)).map List.flatten) M =
          some (M.map ((fun r => y.1 ++ r) ∘ cut off.isSome)) := by
        intro M
        induction M with
        | nil => intro _; rfl
        | cons r rs ih =>
          intro hM
          obtain ⟨u, k', rfl⟩ := hM r (List.mem_cons_self ..)
          refine mapO_cons' ?_ (ih fun r hr => hM r (List.mem_cons_of_mem _ hr))
          show (mapO _ _).map List.flatten = _
          rw [starEach_val hst hl1, Option.map_some, hflat]
          rfl
      exact this y.2 h2
  obtain ⟨wh, hwh, pt, t0, ht0, hpc, hev⟩ := hfin.den.from
  have := hwh hlo
  subst this
  simp only [Option.map_none, Option.toList_none, List.append_nil] at ht0
  have hpt := evalFW_none (hev _ hal)
  rw [hfin.den.formatInput, ht0]
  have hlen2 : ∀ a ∈ (P'.flatMap fun x => if outer && decide (x.2 = []) then [x.1 ++ [S.null, S.null]] else
      x.2.map fun r => x.1 ++ r), ∃ b v k', a = b ++ [v, k'] ∧ b.length = s.cols.length := by
    intro a ha
    obtain ⟨y, hy, ha⟩ := List.mem_flatMap.1 ha
    obtain ⟨h1, h2⟩ := hPQ y hy
    split at ha
    · simp only [List.mem_singleton] at ha
      exact ⟨y.1, _, _, ha, hfin.len y.1 h1⟩
    · obtain ⟨r, hr, rfl⟩ := List.mem_map.1 ha
      obtain ⟨u, k', rfl⟩ := h2 r hr
      exact ⟨y.1, u, k', rfl, hfin.len y.1 h1⟩
  refine Fin.ofBare (bare_of_pt (t0 := t0 ++ .join k :: .each x :: (j.map Tok.on).toList) (pt := .join k pt (.each x) j)
    (h := s.cols.map nm ++ [.eachValue, .eachKey]) (items := .star :: eachItems nm elem off)
    (fun rest hrest => ?_) ?_ (by simp) hal ?_ ?_ hiok hhd (hc2.l.inj hcsub) hc.ref hfree hm) ?_
  · rw [List.append_assoc, hpc _ (by simp)]
    cases j with
    | none => exact pLoop_noOn pt k rfl hrest
    | some y => exact pLoop_on pt k rfl y rest
  · rcases hk with ⟨rfl | rfl, rfl⟩ | ⟨rfl, rfl⟩
    · simp only [evalFW, evalPT, hpt, hP2, Option.map_some]
    · simp only [evalFW, evalPT, hpt, hP2, Option.map_some]
    · simp only [evalFW, evalPT, hpt, hP2, Option.map_some]
  · simp only [List.any_cons, eachItems_noAgg, Bool.or_false, isAgg]
  · intro a ha
    obtain ⟨b, v, k', rfl, hb⟩ := hlen2 a ha
    simp [hb]
  · intro r hr
    obtain ⟨a, ha, har⟩ := mapO_mem hm r hr
    obtain ⟨b, v, k', rfl, hb⟩ := hlen2 a ha
    rw [starEach_val hst hb, Option.map_some, hflat] at har
    cases har
    cases off <;> simp [Scan.cols, cut, hb]
end

end Verif.Query
