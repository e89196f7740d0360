import Verif.Lemmas.QueryWin

/-!
# Set operations, WITH, expressions, and all of it together
-/

namespace Verif.Query

set_option linter.unusedSectionVars false

section
variable {V : Type} [DecidableEq V] {S : Sem V} {db : Db V} {nm : Col → Nm}
variable {w : WMap} {we : WEnv V} {cte : CTE V} {envr : Env V} {envs : SEnv V}

/-! ## Set operations -/

/-- A chain of queries, from its second on. -/
def setTail (o : SetOp) : List Tok → List Tok
  | [] => []
  | q => .setop o :: q

theorem setTail_stop (o : SetOp) (q : List Tok) : Stop (setTail o q) := by
  cases q <;> exact ⟨by simp [setTail], by simp [setTail], by simp [setTail]⟩

theorem setTail_group (o : SetOp) (q : List Tok) : pGroup (setTail o q) = ([], setTail o q) := by
  cases q <;> simp [setTail, pGroup]

/-- The text is a chain of these queries. -/
inductive Comp (o : SetOp) : List Tok → List Core → Prop
  | nil : Comp o [] []
  | cons {its r q c cs} : pCore (.sel its :: (r ++ setTail o q)) = some (c, setTail o q) → Comp o q cs →
      Comp o (.sel its :: (r ++ setTail o q)) (c :: cs)

theorem Comp.more {o : SetOp} (ho : sqliteHas o = true) {q : List Tok} {cs : List Core} (h : Comp o q cs) :
    ∀ k, (setTail o q).length ≤ k → pMore k (setTail o q) = some (cs.map fun c => (o, c), []) := by
  induction h with
  | nil => intro k _; cases k <;> rfl
  | @cons its r q c cs hc _ ih =>
    intro k hk
    have hst : setTail o (.sel its :: (r ++ setTail o q)) = .setop o :: .sel its :: (r ++ setTail o q) := rfl
    rw [hst] at hk ⊢
    obtain ⟨k', rfl⟩ : ∃ k', k = k' + 1 := ⟨k - 1, by simp at hk; omega⟩
    have h2 := ih k' (by simp at hk; omega)
    simp only [pMore, ho, if_true, hc, h2, Option.map_some, List.map_cons]

/-- The value of a chain of queries. -/
theorem evalQ_comp {n : Nat} {o : SetOp} (ho : sqliteHas o = true) {q : List Tok} {c : Core} {cs : List Core}
    (h : Comp o q (c :: cs)) {Ls : List (List (List V))}
    (hm : mapO (fun c => (evalCore S db (evalQ S db n cte) cte envs c).map fun x => x.2.map (·.1)) (c :: cs) = some Ls)
    {hd : List Nm} {R : List (List V × SEnv V)} (hc : evalCore S db (evalQ S db n cte) cte envs c = some (hd, R)) :
    evalQ S db (n + 1) cte envs q = some (hd, foldSet o Ls) := by
  obtain ⟨L, Ls', h1, h2, rfl⟩ := mapO_cons hm
  simp only [hc, Option.map_some, Option.some.injEq] at h1
  subst h1
  cases h with
  | @cons its r q' _ _ hp hcs =>
    have hmore := hcs.more ho _ (Nat.le_refl _)
    have hb : pQuery (.sel its :: (r ++ setTail o q')) = some ⟨[], c, cs.map fun c => (o, c), [], none, none⟩ := by
      simp only [pQuery, pBody, hp, hmore, pOrder, pLimit]
    simp only [evalQ, evalBody, hb, List.foldl_nil, evalCtes, hc]
    cases cs with
    | nil =>
      simp only [mapO, Option.some.injEq] at h2
      subst h2
      simp [evalOrder, limited, foldSet]
    | cons d ds =>
      have := evalMore_fold (o := o) (R.map (·.1)) h2
      simp only [List.map_cons] at this ⊢
      simp only [this]
      simp [evalOrder, limited, foldSet, List.map_map, Function.comp_def]

theorem setRows_mem {o : SetOp} (ho : sqliteHas o = true) {a b : List (List V)} {r : List V} (h : r ∈ setRows o a b) :
    r ∈ a ∨ r ∈ b := by
  cases o with
  | unionAll => exact List.mem_append.1 h
  | union => exact List.mem_append.1 (by simpa [setRows, List.mem_eraseDups] using h)
  | intersect =>
    simp only [setRows, List.mem_eraseDups, List.mem_filter] at h
    exact Or.inl h.1
  | except =>
    simp only [setRows, List.mem_eraseDups, List.mem_filter] at h
    exact Or.inl h.1
  | intersectAll => simp [sqliteHas] at ho
  | exceptAll => simp [sqliteHas] at ho

theorem foldSet_mem {o : SetOp} (ho : sqliteHas o = true) {Ls : List (List (List V))} {r : List V} (h : r ∈ foldSet o Ls) :
    ∃ L ∈ Ls, r ∈ L := by
  have hf : ∀ (Ls : List (List (List V))) (R : List (List V)), r ∈ Ls.foldl (setRows o) R → r ∈ R ∨ ∃ L ∈ Ls, r ∈ L := by
    intro Ls
    induction Ls with
    | nil => intro R h; exact Or.inl h
    | cons L Ls ih =>
      intro R h
      rcases ih _ h with h | ⟨M, hM, h⟩
      · rcases setRows_mem ho h with h | h
        · exact Or.inl h
        · exact Or.inr ⟨L, List.mem_cons_self .., h⟩
      · exact Or.inr ⟨M, List.mem_cons_of_mem _ hM, h⟩
  cases Ls with
  | nil => simp [foldSet] at h
  | cons L Ls =>
    rcases hf Ls L h with h | ⟨M, hM, h⟩
    · exact ⟨L, List.mem_cons_self .., h⟩
    · exact ⟨M, List.mem_cons_of_mem _ hM, h⟩

def GIs (S : Sem V) (db : Db V) (nm : Col → Nm) (is : Items) : Prop :=
  ∀ w o outs q, fmtIs nm w o is = some (outs, q) → okIs nm w is → ∀ k, is.outsLen k → k ≠ 0 →
    outs = is.firstOuts ∧ (is.isNil = false → startsSel q = true) ∧
    ∃ N, ∀ n, N ≤ n → ∀ we cte envr envs, Ctx nm w we cte envr envs (intIs is) (tabIs is) →
    ∀ Ls, evalIs S db we envr is = some Ls →
    ∃ cs, Comp o q cs ∧
      mapO (fun c => (evalCore S db (evalQ S db n cte) cte envs c).map fun x => x.2.map (·.1)) cs = some Ls ∧
      (is.isNil = false → ∃ c cs' R, cs = c :: cs' ∧
        evalCore S db (evalQ S db n cte) cte envs c = some (is.firstOuts.map nm, R)) ∧
      ∀ L ∈ Ls, ∀ r ∈ L, r.length = k

theorem gis_nil : GIs S db nm .nil := by
  intro w o outs q ht hok k hk hk0
  simp only [fmtIs, Option.some.injEq, Prod.mk.injEq] at ht
  obtain ⟨rfl, rfl⟩ := ht
  refine ⟨rfl, by simp [Items.isNil], 0, fun n _ we cte envr envs _ Ls he => ?_⟩
  simp only [evalIs, Option.some.injEq] at he
  subst he
  exact ⟨[], .nil, rfl, by simp [Items.isNil], by simp⟩

theorem chain_text {o : SetOp} {s : Scan} {is : Items} {outs outs1 : List Col} {t q1 : List Tok}
    (htt : fmtS nm w s = some t) (hq1 : fmtIs nm w o is = some (outs1, q1)) (h : formatInput t = .from :: joinInput t) :
    fmtIs nm w o (.cons s outs is) =
      some (outs, .sel (selList nm [] outs) :: ((.from :: joinInput t) ++ setTail o q1)) := by
  simp only [fmtIs, htt, hq1, h, selList_nil]
  cases q1 <;> rfl

theorem gis_cons {s : Scan} {outs0 : List Col} {is : Items} (hs : GS S db nm s) (his : GIs S db nm is) :
    GIs S db nm (.cons s outs0 is) := by
  intro w o outs q ht hok k hk hk0
  have ht0 := ht
  simp only [fmtIs] at ht
  split at ht
  case h_2 => simp at ht
  rename_i t outs1 q1 htt hq1
  simp only [Option.some.injEq, Prod.mk.injEq] at ht
  obtain ⟨rfl, hq0⟩ := ht
  simp only [okIs] at hok
  obtain ⟨hoks, hok1, hok2⟩ := hok
  simp only [Items.outsLen] at hk
  obtain ⟨hk1, hk2⟩ := hk
  obtain ⟨_, _, N1, hN1⟩ := his w o _ _ hq1 hok2 k hk2 hk0
  obtain ⟨N2, hN2⟩ := hs w t htt hoks
  refine ⟨rfl, fun _ => by rw [← hq0]; rfl, N1 + N2, fun n hn we cte envr envs hc Ls he => ?_⟩
  clear hq0
  simp only [evalIs] at he
  split at he
  case h_2 => simp at he
  rename_i L Ls' hL hLs
  cases hp : mapO (fun a => pick s.cols a outs0) L with
  | none => simp [hp] at he
  | some R =>
  simp only [hp, Option.map_some, Option.some.injEq] at he
  subst he
  have hcs : Ctx nm w we cte envr envs (intS s ++ intIs is) (tabS s ++ tabIs is) := hc
  have hfin := hN2 n (by omega) we cte envr envs hcs.l L hL
  obtain ⟨cs, h1, h2, _, h4⟩ := hN1 n (by omega) we cte envr envs hcs.r Ls' hLs
  have hinj := hcs.l.inj (cols_sub nm w s hoks)
  have hm : mapO (fun a => (mapO (itemVal S (evalQ S db n cte) envs (s.cols.map nm) a)
      (selList nm [] outs0)).map List.flatten) L = some R :=
    mapO_mono hp fun a ha b hb => map_flatten (names_val hinj hb)
  have hne : outs0 ≠ [] := by
    intro h
    rw [h] at hk1
    exact hk0 hk1.symm
  obtain ⟨wh, _, pt, t0, htj, hpc, hev⟩ := hfin.den.from
  have hpcore := pCore_from (items := selList nm [] outs0) (selList_ne hne) wh hpc (setTail_stop o q1)
  rw [setTail_group, ← htj] at hpcore
  have hcore : evalCore S db (evalQ S db n cte) cte envs ⟨selList nm [] outs0, some pt, wh, []⟩ =
      some (outs0.map nm, (R.zip L).map fun x => (x.1, bindR (s.cols.map nm) x.2 envs)) := by
    simp only [evalCore, hev _ (names_free outs0), evalRows_sel (names_noAgg outs0) hm, names_hdr]
  have hR : ((R.zip L).map fun x => (x.1, bindR (s.cols.map nm) x.2 envs)).map (·.1) = R := by
    rw [List.map_map]
    exact zip_fst (mapO_length hm)
  rw [chain_text htt hq1 hfin.den.formatInput, Option.some.injEq, Prod.mk.injEq] at ht0
  rw [← ht0.2]
  refine ⟨_ :: cs, .cons hpcore h1, mapO_cons' ?_ h2, fun _ => ⟨_, _, _, rfl, hcore⟩, ?_⟩
  · show (evalCore _ _ _ _ _ _).map _ = _
    rw [hcore, Option.map_some, hR]
  · intro M hM r hr
    rcases List.mem_cons.1 hM with rfl | hM
    · rw [← hk1]
      exact mapO_length_of hp (fun a _ b hb => mapO_length hb) r hr
    · exact h4 M hM r hr

theorem firstOuts_sub : ∀ (is : Items), okIs nm w is → ∀ c ∈ is.firstOuts, c ∈ intIs is
  | .nil, _, c, hc => by simp [Items.firstOuts] at hc
  | .cons s outs is, h, c, hc => by
    simp only [okIs] at h
    exact List.mem_append_left _ (cols_sub nm w s h.1 c (h.2.1 c hc))

theorem gs_setop {o : SetOp} {items : Items} {cols : List Col} (his : GIs S db nm items) :
    GS S db nm (.setop o items cols) := by
  intro w tx ht hok
  have hok0 := hok
  simp only [okS] at hok
  obtain ⟨ho, hnil, hoki, hcols, hlen, hnd⟩ := hok
  simp only [fmtS] at ht
  split at ht
  · simp at ht
  rename_i outs q hq
  cases ht
  have hk0 : cols.length ≠ 0 := by simpa using hcols
  obtain ⟨rfl, hsel, N, hN⟩ := his w o outs q hq hoki cols.length hlen hk0
  refine ⟨N + 2, fun n hn we cte envr envs hc rows he => ?_⟩
  obtain ⟨m, rfl⟩ : ∃ m, n = m + 2 := ⟨n - 2, by omega⟩
  simp only [evalS, Option.map_eq_some_iff] at he
  obtain ⟨Ls, hLs, rfl⟩ := he
  have hcs : Ctx nm w we cte envr envs (intIs items ++ cols) (tabIs items ++ []) :=
    hc.sub (List.Sublist.refl _) (by simp [tabS])
  obtain ⟨cs, h1, h2, h3, h4⟩ := hN m (by omega) we cte envr envs hcs.l Ls hLs
  obtain ⟨c, cs', R, rfl, h5⟩ := h3 hnil
  have hqv := evalQ_comp ho h1 h2 h5
  have hrl : ∀ r ∈ foldSet o Ls, r.length = cols.length := by
    intro r hr
    obtain ⟨L, hL, hr⟩ := foldSet_mem ho hr
    exact h4 L hL r hr
  have hol : items.firstOuts.length = cols.length := by
    cases items with
    | nil => simp [Items.isNil] at hnil
    | cons s outs is => exact hlen.1
  have hf : FromF S db nm (evalQ S db (m + 1) cte) cte envr envs none [.grp q] (items.firstOuts.map nm)
      (foldSet o Ls) := by
    refine ⟨.leaf (.grp q), [.grp q], rfl, fun rest _ => by simp [pChain, trefOf], fun its _ => ?_⟩
    simp only [evalFW, evalPT, evalTref, hsel hnil, if_true, hqv]
  have hsub := firstOuts_sub (nm := nm) (w := w) items hoki
  have hdist : (items.firstOuts.map nm).Nodup := by
    have : ∀ l : List Col, l.Nodup → (∀ c ∈ l, c ∈ intIs items) → (l.map nm).Nodup := by
      intro l
      induction l with
      | nil => intro _ _; exact List.nodup_nil
      | cons x xs ih =>
        intro hn hs
        rw [List.nodup_cons] at hn
        rw [List.map_cons, List.nodup_cons]
        refine ⟨fun hm => ?_, ih hn.2 fun c hcc => hs c (List.mem_cons_of_mem _ hcc)⟩
        obtain ⟨y, hy, hyx⟩ := List.mem_map.1 hm
        have := hcs.l.dist.inj y (hs y (List.mem_cons_of_mem _ hy)) x (hs x (List.mem_cons_self ..)) hyx
        subst this
        exact hn.1 hy
    exact this _ hnd hsub
  have hal : AlFree nm envr ((items.firstOuts.zip cols).map fun x => Item.ex (.name (nm x.1)) (some (nm x.2))) := by
    refine (map_alIn (fun x : Col × Col => SExpr.name (nm x.1)) (fun x => x.2) (items.firstOuts.zip cols) cols
      fun x hx => ?_).free hcs.r.away
    exact (List.of_mem_zip hx).2
  have hm : mapO (fun a => (mapO (itemVal S (evalQ S db (m + 1) cte) envs (items.firstOuts.map nm) a)
      ((items.firstOuts.zip cols).map fun x => Item.ex (.name (nm x.1)) (some (nm x.2)))).map List.flatten)
      (foldSet o Ls) = some (foldSet o Ls) := by
    have : ∀ L : List (List V), (∀ a ∈ L, a ∈ foldSet o Ls) → mapO (fun a =>
        (mapO (itemVal S (evalQ S db (m + 1) cte) envs (items.firstOuts.map nm) a)
        ((items.firstOuts.zip cols).map fun x => Item.ex (.name (nm x.1)) (some (nm x.2)))).map List.flatten) L =
        some L := by
      intro L
      induction L with
      | nil => intro _; rfl
      | cons a as ih =>
        intro hL
        refine mapO_cons' (map_flatten (zip_val hol ?_)) (ih fun x hx => hL x (List.mem_cons_of_mem _ hx))
        have hs := pick_self (h := items.firstOuts.map nm) (vs := a) hdist
          (by rw [List.length_map, hol]; exact hrl a (hL a (List.mem_cons_self ..)))
        rw [mapO_map] at hs
        refine mapO_mono hs fun d _ b hb => ?_
        simp only [bindR, hb]
    exact this _ fun _ h => h
  have hne : ((items.firstOuts.zip cols).map fun x => Item.ex (.name (nm x.1)) (some (nm x.2))) ≠ [] := by
    intro h
    have := congrArg List.length h
    simp only [List.length_map, List.length_zip, List.length_nil] at this
    omega
  refine Fin.ofBare (bare_of_from hf hne hal (map_noAgg (fun x : Col × Col => SExpr.name (nm x.1)) _ _)
    (fun a ha => by rw [List.length_map, hol]; exact hrl a ha) ?_ (zip_hdr _ hol) (hcs.r.inj fun c h => h) hc.ref ?_ hm) hrl
  · intro i hi
    obtain ⟨x, hx, rfl⟩ := List.mem_map.1 hi
    show nm x.2 ∉ _
    intro hmm
    obtain ⟨d, hd, hdn⟩ := List.mem_map.1 hmm
    exact (Dist.append hcs.dist).2.2 d (hsub d hd) x.2 (List.of_mem_zip hx).2 hdn
  · intro d hd hmm
    obtain ⟨c, hcc, hcn⟩ := List.mem_map.1 hmm
    exact hcs.l.away d hd c (hsub c hcc) hcn

/-! ## WITH -/

def GWs (S : Sem V) (db : Db V) (nm : Col → Nm) (es : Entries) : Prop :=
  ∀ w qs w', fmtWs nm w es = some (qs, w') → okWs nm w es → w' = wAfter w es ∧ qs.map (·.1) = es.names ∧
    ∃ N, ∀ n, N ≤ n → ∀ we cte envr envs, Ctx nm w we cte envr envs (intWs es) (tabWs es) →
    (∀ m ∈ es.names, m ∉ tabWs es) →
    ∀ we', evalWs S db we envr es = some we' →
    ∃ cte', evalCtes (evalQ S db n) envs qs cte = some cte' ∧ RW nm w' we' cte' ∧ ∀ m, m ∉ es.names → cte' m = cte m

theorem gws_nil : GWs S db nm .nil := by
  intro w qs w' ht hok
  simp only [fmtWs, Option.some.injEq, Prod.mk.injEq] at ht
  obtain ⟨rfl, rfl⟩ := ht
  refine ⟨rfl, rfl, 0, fun n _ we cte envr envs hc _ we' he => ?_⟩
  simp only [evalWs, Option.some.injEq] at he
  subst he
  exact ⟨cte, rfl, hc.rw, fun _ _ => rfl⟩

theorem gws_cons {n0 : TName} {s : Scan} {es : Entries} (hs : GS S db nm s) (hes : GWs S db nm es) :
    GWs S db nm (.cons n0 s es) := by
  intro w qs w' ht hok
  simp only [fmtWs] at ht
  split at ht
  · simp at ht
  rename_i t htt
  split at ht
  · simp at ht
  rename_i qs1 w1 hq1
  simp only [Option.some.injEq, Prod.mk.injEq] at ht
  obtain ⟨rfl, rfl⟩ := ht
  simp only [okWs] at hok
  obtain ⟨hiq, hoks, hnd, hok2⟩ := hok
  obtain ⟨hw', hnames, N1, hN1⟩ := hes (upd w n0 s.cols) qs1 w1 hq1 hok2
  obtain ⟨N2, hN2⟩ := hs w t htt hoks
  refine ⟨hw', by simp [Entries.names, hnames], N1 + N2, fun n hn we cte envr envs hc hdis we' he => ?_⟩
  simp only [evalWs] at he
  split at he
  · simp at he
  rename_i L hL
  have hcs : Ctx nm w we cte envr envs (intS s ++ intWs es) (tabS s ++ tabWs es) := hc
  have hfin := hN2 n (by omega) we cte envr envs hcs.l L hL
  have hq := hfin.den.1 (isQuery_sel htt hiq)
  have hsub := cols_sub nm w s hoks
  have hdist : Dist nm s.cols := by
    have : ∀ l : List Col, l.Nodup → (∀ c ∈ l, c ∈ intS s) → (l.map nm).Nodup := by
      intro l
      induction l with
      | nil => intro _ _; exact List.nodup_nil
      | cons x xs ih =>
        intro hn hs
        rw [List.nodup_cons] at hn
        rw [List.map_cons, List.nodup_cons]
        refine ⟨fun hm => ?_, ih hn.2 fun c hcc => hs c (List.mem_cons_of_mem _ hcc)⟩
        obtain ⟨y, hy, hyx⟩ := List.mem_map.1 hm
        have := hcs.l.dist.inj y (hs y (List.mem_cons_of_mem _ hy)) x (hs x (List.mem_cons_self ..)) hyx
        subst this
        exact hn.1 hy
    exact this _ hnd hsub
  have hrw : RW nm (upd w n0 s.cols) (upd we n0 L) (upd cte n0 (some (s.cols.map nm, L))) := by
    intro m rows hm
    by_cases hmn : m = n0
    · subst hmn
      simp only [upd, if_true, Option.some.injEq] at hm
      subst hm
      exact ⟨s.cols, by simp [upd], by simp [upd], hdist, hfin.len⟩
    · simp only [upd, if_neg hmn] at hm ⊢
      exact hcs.rw m rows hm
  have hno : NoCte (tabWs es) (upd cte n0 (some (s.cols.map nm, L))) := by
    intro t' ht'
    have : t' ≠ n0 := by
      rintro rfl
      exact hdis t' (by simp [Entries.names]) (List.mem_append_right _ ht')
    simp only [upd, if_neg this]
    exact hcs.r.no t' ht'
  obtain ⟨cte', h1, h2, h3⟩ := hN1 n (by omega) (upd we n0 L) (upd cte n0 (some (s.cols.map nm, L))) envr envs
    ⟨hrw, hno, hcs.r.ref, hcs.r.away, hcs.r.dist⟩
    (fun m hm hm' => hdis m (List.mem_cons_of_mem _ hm) (List.mem_append_right _ hm')) we' he
  refine ⟨cte', ?_, h2, fun m hm => ?_⟩
  · simp only [evalCtes, hq]
    exact h1
  · simp only [Entries.names, List.mem_cons, not_or] at hm
    rw [h3 m hm.2]
    simp only [upd, if_neg hm.1]

theorem marks_other {qs : List (TName × List Tok)} : ∀ {cte : CTE V} {m : TName}, m ∉ qs.map (·.1) →
    (qs.foldl (fun c e => upd c e.1 none) cte) m = cte m := by
  induction qs with
  | nil => intro cte m _; rfl
  | cons x xs ih =>
    intro cte m hm
    simp only [List.map_cons, List.mem_cons, not_or] at hm
    rw [List.foldl_cons, ih hm.2]
    simp only [upd, if_neg hm.1]

theorem evalQ_with {n : Nat} {qs : List (TName × List Tok)} {t : List Tok} (ht : ∀ es r, t ≠ .withs es :: r)
    {cte' : CTE V} (hc : evalCtes (evalQ S db n) envs qs (qs.foldl (fun c e => upd c e.1 none) cte) = some cte')
    {r : Rel V} (hq : evalQ S db (n + 1) cte' envs t = some r) :
    evalQ S db (n + 1) cte envs (.withs qs :: t) = some r := by
  have hpq : pQuery t = pBody [] t := by
    unfold pQuery
    split
    · rename_i es r
      exact absurd rfl (ht es r)
    · rfl
  simp only [evalQ, evalBody, hpq] at hq ⊢
  have hw : pQuery (.withs qs :: t) = pBody qs t := rfl
  rw [hw]
  cases hb : pBody [] t with
  | none => simp [hb] at hq
  | some p =>
    have hp : p.ctes = [] ∧ pBody qs t = some { p with ctes := qs } := by
      unfold pBody at hb ⊢
      split at hb
      · simp at hb
      · split at hb
        · simp at hb
        · split at hb
          · cases hb
            rename_i h1 _ _ _ h2 _ _ _ h3
            simp only [h1, h2, h3, and_self]
          · simp at hb
    simp only [hp.2, hc]
    simp only [hb, hp.1, List.foldl_nil, evalCtes] at hq
    exact hq

theorem gs_with {es : Entries} {body : Scan} (hes : GWs S db nm es) (hs : GS S db nm body) :
    GS S db nm (.with_ es body) := by
  intro w tx ht hok
  simp only [okS] at hok
  obtain ⟨_, hnd, hnames, hokw, hiq, hiw, hokb⟩ := hok
  simp only [fmtS] at ht
  split at ht
  · simp at ht
  rename_i qs w' hq
  split at ht
  · simp at ht
  rename_i t htt
  cases ht
  obtain ⟨rfl, hqn, N1, hN1⟩ := hes w qs w' hq hokw
  obtain ⟨N2, hN2⟩ := hs _ t htt hokb
  refine ⟨N1 + N2 + 1, fun n hn we cte envr envs hc rows he => ?_⟩
  obtain ⟨m, rfl⟩ : ∃ m, n = m + 1 := ⟨n - 1, by omega⟩
  simp only [evalS] at he
  split at he
  · simp at he
  rename_i we' hwe
  have hcs : Ctx nm w we cte envr envs (intWs es ++ intS body) (tabWs es ++ tabS body) := hc
  have hmrw : RW nm w we (qs.foldl (fun c e => upd c e.1 none) cte) := by
    intro m rows hm
    obtain ⟨ds, h1, h2, h3⟩ := hcs.rw m rows hm
    refine ⟨ds, h1, ?_, h3⟩
    rw [marks_other]
    · exact h2
    · rw [hqn]
      intro hmm
      have := (hnames m hmm).2
      rw [h1] at this
      simp at this
  have hmno : NoCte (tabWs es) (qs.foldl (fun c e => upd c e.1 none) cte) := by
    intro t' ht'
    rw [marks_other]
    · exact hcs.l.no t' ht'
    · rw [hqn]
      intro hmm
      exact (hnames t' hmm).1 (List.mem_append_left _ ht')
  obtain ⟨cte', h1, h2, h3⟩ := hN1 m (by omega) we _ envr envs ⟨hmrw, hmno, hcs.l.ref, hcs.l.away, hcs.l.dist⟩
    (fun m hm hm' => (hnames m hm).1 (List.mem_append_left _ hm')) we' hwe
  have hno : NoCte (tabS body) cte' := by
    intro t' ht'
    have hnm' : t' ∉ es.names := fun hmm => (hnames t' hmm).1 (List.mem_append_right _ ht')
    rw [h3 t' hnm', marks_other (by rw [hqn]; exact hnm')]
    exact hcs.r.no t' ht'
  have hfin := hN2 (m + 1) (by omega) we' cte' envr envs ⟨h2, hno, hcs.r.ref, hcs.r.away, hcs.r.dist⟩ rows he
  have hqb := hfin.den.1 (isQuery_sel htt hiq)
  have hnw : ∀ es' r, t ≠ .withs es' :: r := by
    intro es' r hr
    cases body with
    | with_ es b => simp [isWith] at hiw
    | single => simp [isQuery] at hiq
    | table t' cols => simp [isQuery] at hiq
    | ref t' cols => simp [isQuery] at hiq
    | join k l r on => simp [isQuery] at hiq
    | filter s e => simp [isQuery] at hiq
    | unnest e elem off =>
      simp only [fmtS] at htt
      split at htt <;> simp at htt
      rw [hr] at htt
      simp at htt
    | array s e elem off on outer =>
      simp only [fmtS] at htt
      split at htt <;> simp at htt
      rw [hr] at htt
      simp at htt
    | project s exprs cols =>
      simp only [fmtS] at htt
      split at htt <;> simp at htt
      rw [hr] at htt
      simp at htt
    | agg s groups aggs cols =>
      simp only [fmtS] at htt
      split at htt <;> simp at htt
      rw [hr] at htt
      simp at htt
    | setop o items cols =>
      simp only [fmtS] at htt
      split at htt <;> simp at htt
      rw [hr] at htt
      simp at htt
    | order s items cols =>
      simp only [fmtS] at htt
      split at htt <;> simp at htt
      rw [hr] at htt
      simp at htt
    | limit s k off cols =>
      simp only [fmtS] at htt
      split at htt <;> simp at htt
      rw [hr] at htt
      simp at htt
    | gsets s groups aggs set sets cols =>
      simp only [fmtS] at htt
      split at htt <;> simp [fmtGSets] at htt
      rw [hr] at htt
      simp at htt
    | win s ws cols =>
      simp only [fmtS] at htt
      split at htt
      · simp at htt
      split at htt <;> simp at htt
      rw [hr] at htt
      simp at htt
  exact Fin.ofQuery rfl (evalQ_with hnw h1 hqb) (fun h => by simp [bare] at h) hfin.len

/-! ## Expressions -/

theorem ge_col (c : Col) : GE S db nm (.col c) := by
  intro w x hx _
  cases hx
  refine ⟨0, fun n _ we cte envr envs hc v hv => ?_⟩
  exact hc.ref c v hv

theorem ge_lit (k : Nat) : GE S db nm (.lit k) := by
  intro w x hx _
  cases hx
  exact ⟨0, fun n _ we cte envr envs hc v hv => hv⟩

theorem ge_call {f : Nat} {args : Exprs} (ha : GEs S db nm args) : GE S db nm (.call f args) := by
  intro w x hx hok
  simp only [fmtE, Option.map_eq_some_iff] at hx
  obtain ⟨xs, hxs, rfl⟩ := hx
  obtain ⟨N, hN⟩ := ha w xs hxs hok
  refine ⟨N, fun n hn we cte envr envs hc v hv => ?_⟩
  simp only [evalE, Option.map_eq_some_iff] at hv
  obtain ⟨vs, hvs, rfl⟩ := hv
  simp only [evalX, hN n hn we cte envr envs hc vs hvs, Option.map_some]

theorem ge_scalar {s : Scan} (hs : GS S db nm s) : GE S db nm (.scalar s) := by
  intro w x hx hok
  simp only [fmtE, Option.map_eq_some_iff] at hx
  obtain ⟨t, ht, rfl⟩ := hx
  simp only [okE] at hok
  obtain ⟨N, hN⟩ := hs w t ht hok.2
  refine ⟨N, fun n hn we cte envr envs hc v hv => ?_⟩
  simp only [evalE] at hv
  split at hv
  · rename_i he
    cases hv
    have hq := (hN n hn we cte envr envs hc _ he).den.1 (isQuery_sel ht hok.1)
    simp only [evalX, hq]
  · rename_i r he
    have hq := (hN n hn we cte envr envs hc _ he).den.1 (isQuery_sel ht hok.1)
    simp only [evalX, hq]
    exact hv
  · simp at hv

theorem ge_exists {s : Scan} (hs : GS S db nm s) : GE S db nm (.exists_ s) := by
  intro w x hx hok
  simp only [fmtE, Option.map_eq_some_iff] at hx
  obtain ⟨t, ht, rfl⟩ := hx
  simp only [okE] at hok
  obtain ⟨N, hN⟩ := hs w t ht hok.2
  refine ⟨N, fun n hn we cte envr envs hc v hv => ?_⟩
  simp only [evalE] at hv
  split at hv
  · rename_i rows he
    have hq := (hN n hn we cte envr envs hc _ he).den.1 (isQuery_sel ht hok.1)
    simp only [evalX, hq]
    exact hv
  · simp at hv

theorem ge_inq {e : Expr} {s : Scan} (hge : GE S db nm e) (hs : GS S db nm s) : GE S db nm (.inq e s) := by
  intro w x hx hok
  simp only [fmtE] at hx
  split at hx
  case h_2 => simp at hx
  rename_i t y ht hy
  cases hx
  simp only [okE] at hok
  obtain ⟨N1, hN1⟩ := hge w y hy hok.1
  obtain ⟨N2, hN2⟩ := hs w t ht hok.2.2
  refine ⟨N1 + N2, fun n hn we cte envr envs hc v hv => ?_⟩
  have hcs : Ctx nm w we cte envr envs (intE e ++ intS s) (tabE e ++ tabS s) := hc
  simp only [evalE] at hv
  split at hv
  · rename_i u rows he1 he2
    have h1 := hN1 n (by omega) we cte envr envs hcs.l u he1
    have hq := (hN2 n (by omega) we cte envr envs hcs.r _ he2).den.1 (isQuery_sel ht hok.2.1)
    simp only [evalX, h1, hq]
    exact hv
  · simp at hv

theorem ge_arr {s : Scan} (hs : GS S db nm s) : GE S db nm (.arr s) := by
  intro w x hx hok
  simp only [fmtE] at hx
  split at hx
  case h_2 => simp at hx
  rename_i c cs t hcols ht
  cases hx
  simp only [okE] at hok
  obtain ⟨N, hN⟩ := hs w t ht hok.2
  refine ⟨N + 1, fun n hn we cte envr envs hc v hv => ?_⟩
  obtain ⟨m, rfl⟩ : ∃ m, n = m + 1 := ⟨n - 1, by omega⟩
  simp only [evalE] at hv
  split at hv
  case h_2 => simp at hv
  rename_i rows he
  simp only [Option.map_eq_some_iff] at hv
  obtain ⟨vs, hvs, rfl⟩ := hv
  have hfin := hN m (by omega) we cte envr envs hc rows he
  have hss := isQuery_sel ht hok.1
  have hf : FromF S db nm (evalQ S db m cte) cte envr envs none [.grp t] (s.cols.map nm) rows := by
    refine ⟨.leaf (.grp t), [.grp t], rfl, fun rest _ => by simp [pChain, trefOf], fun its _ => ?_⟩
    simp only [evalFW, evalPT, evalTref, hss, if_true, hfin.den.1 hss]
  have hq := evalQ_sel hf (items := [.agg (.fn 0) [.name (nm c)] none]) (by simp) (fun d _ => rfl) [] [] none
  have hargs : mapO (fun a => evalXs S (evalQ S db m cte) (bindR (s.cols.map nm) a envs) [.name (nm c)]) rows =
      some (vs.map fun v => [v]) := by
    refine mapO_out hvs fun a ha b hb => ?_
    cases a with
    | nil => simp at hb
    | cons u us =>
      simp only [List.head?_cons, Option.some.injEq] at hb
      subst hb
      simp [evalXs, evalX, bindR, hcols, lk]
  have hkeyed : mapO (fun a : List V => (some ([] : List V)).map fun k => (k, a)) rows =
      some (rows.map fun a => ([], a)) := by
    clear hargs hvs hq hf hfin he
    induction rows with
    | nil => rfl
    | cons a as ih => exact mapO_cons' rfl ih
  have hev : evalRows S (evalQ S db m cte) envs [.agg (.fn 0) [.name (nm c)] none] [] (s.cols.map nm) rows =
      some ([.raw []], [([S.agg (.fn 0) (vs.map fun v => [v])], fun _ => none)]) := by
    have hown : owned (s.cols.map nm) [.name (nm c)] = true := by simp [owned, nmEs, nmE, hcols]
    simp only [evalRows, List.any_cons, isAgg, Bool.true_or, Bool.not_true, Bool.and_false, Bool.false_eq_true, if_false,
      List.all_cons, List.all_nil, ownedI, hown, Bool.and_true, mapO, hkeyed, List.isEmpty_nil, grouped, if_true, List.map_map, Function.comp_def, List.map_id', mapO, itemAgg, hargs]
    rfl
  rw [hev, tail_none] at hq
  simp only [List.append_nil] at hq
  simp only [evalX, hq]
  simp [finish, evalOrder, limited]

theorem ges_nil : GEs S db nm .nil := by
  intro w x hx _
  cases hx
  exact ⟨0, fun n _ we cte envr envs hc v hv => hv⟩

theorem ges_cons {e : Expr} {es : Exprs} (h1 : GE S db nm e) (h2 : GEs S db nm es) : GEs S db nm (.cons e es) := by
  intro w x hx hok
  simp only [fmtEs] at hx
  split at hx
  case h_2 => simp at hx
  rename_i y ys hy hys
  cases hx
  simp only [okEs] at hok
  obtain ⟨N1, hN1⟩ := h1 w y hy hok.1
  obtain ⟨N2, hN2⟩ := h2 w ys hys hok.2
  refine ⟨N1 + N2, fun n hn we cte envr envs hc v hv => ?_⟩
  have hcs : Ctx nm w we cte envr envs (intE e ++ intEs es) (tabE e ++ tabEs es) := hc
  simp only [evalEs] at hv
  split at hv
  case h_2 => simp at hv
  rename_i u us hu hus
  cases hv
  exact evalXs_cons' (hN1 n (by omega) we cte envr envs hcs.l u hu) (hN2 n (by omega) we cte envr envs hcs.r us hus)

theorem go_none : GO S db nm .none := by
  intro w x hx _
  cases hx
  exact ⟨0, fun n _ we cte envr envs hc v hv => hv⟩

theorem go_some {e : Expr} (h : GE S db nm e) : GO S db nm (.some e) := by
  intro w x hx hok
  simp only [fmtO, Option.map_eq_some_iff] at hx
  obtain ⟨y, hy, rfl⟩ := hx
  obtain ⟨N, hN⟩ := h w y hy hok
  refine ⟨N, fun n hn we cte envr envs hc v hv => ?_⟩
  simp only [evalO, Option.map_eq_some_iff] at hv
  obtain ⟨u, hu, rfl⟩ := hv
  simp only [evalOn, hN n hn we cte envr envs hc u hu, Option.map_some]

theorem gcs_nil : GCs S db nm .nil := by
  intro w its hx _
  cases hx
  exact ⟨[], rfl, rfl, 0, fun n _ we cte envr envs hc v hv => hv⟩

theorem gcs_cons {c : Col} {e : Expr} {es : CExprs} (h1 : GE S db nm e) (h2 : GCs S db nm es) :
    GCs S db nm (.cons c e es) := by
  intro w its hx hok
  simp only [fmtCs] at hx
  split at hx
  case h_2 => simp at hx
  rename_i y its' hy hys
  cases hx
  simp only [okCs] at hok
  obtain ⟨N1, hN1⟩ := h1 w y hy hok.1
  obtain ⟨ys, hl, rfl, N2, hN2⟩ := h2 w its' hys hok.2
  refine ⟨y :: ys, by simp [CExprs.cols, hl], rfl, N1 + N2, fun n hn we cte envr envs hc v hv => ?_⟩
  have hcs : Ctx nm w we cte envr envs (intE e ++ intCs es) (tabE e ++ tabCs es) :=
    hc.sub (List.sublist_cons_self ..) (fun _ h => h)
  simp only [evalCs] at hv
  split at hv
  case h_2 => simp at hv
  rename_i u us hu hus
  cases hv
  exact evalXs_cons' (hN1 n (by omega) we cte envr envs hcs.l u hu) (hN2 n (by omega) we cte envr envs hcs.r us hus)

theorem gas_nil : GAs S db nm .nil := by
  intro w its hx _
  cases hx
  refine ⟨[], rfl, rfl, 0, fun n _ we cte prs _ v hv => ?_⟩
  simp only [evalAs] at hv
  exact hv

theorem gas_cons {c : Col} {f : Nat} {args : Exprs} {as : Aggs} (h1 : GEs S db nm args) (h2 : GAs S db nm as) :
    GAs S db nm (.cons c f args as) := by
  intro w its hx hok
  simp only [fmtAs] at hx
  split at hx
  case h_2 => simp at hx
  rename_i y its' hy hys
  cases hx
  simp only [okAs] at hok
  obtain ⟨N1, hN1⟩ := h1 w y hy hok.1
  obtain ⟨ys, hl, rfl, N2, hN2⟩ := h2 w its' hys hok.2
  refine ⟨(f, y) :: ys, by simp [Aggs.cols, hl], rfl, N1 + N2, fun n hn we cte prs hc v hv => ?_⟩
  have hcs : ∀ p ∈ prs, Ctx nm w we cte p.1 p.2 (intEs args ++ intAs as) (tabEs args ++ tabAs as) := fun p hp =>
    (hc p hp).sub (List.sublist_cons_self ..) (fun _ h => h)
  simp only [evalAs] at hv
  split at hv
  case h_2 => simp at hv
  rename_i rows us hu hus
  cases hv
  refine mapO_cons' ?_ (hN2 n (by omega) we cte prs (fun p hp => (hcs p hp).r) us hus)
  rw [mapO_map] at hu
  simp only [aggVal, mapO_map]
  rw [mapO_mono hu fun p hp b hb => hN1 n (by omega) we cte p.1 p.2 (hcs p hp).l b hb]
  rfl

/-! ## All together -/

section
variable (S db nm) (hst : ∀ c, starred (nm c) = true)
include hst

mutual
theorem soundE : ∀ e : Expr, GE S db nm e
  | .col c => ge_col c
  | .lit k => ge_lit k
  | .call _ args => ge_call (soundEs args)
  | .scalar s => ge_scalar (soundS s)
  | .exists_ s => ge_exists (soundS s)
  | .inq e s => ge_inq (soundE e) (soundS s)
  | .arr s => ge_arr (soundS s)

theorem soundEs : ∀ e : Exprs, GEs S db nm e
  | .nil => ges_nil
  | .cons e es => ges_cons (soundE e) (soundEs es)

theorem soundO : ∀ e : OExpr, GO S db nm e
  | .none => go_none
  | .some e => go_some (soundE e)

theorem soundCs : ∀ e : CExprs, GCs S db nm e
  | .nil => gcs_nil
  | .cons _ e es => gcs_cons (soundE e) (soundCs es)

theorem soundAs : ∀ e : Aggs, GAs S db nm e
  | .nil => gas_nil
  | .cons _ _ args as => gas_cons (soundEs args) (soundAs as)

theorem soundFs : ∀ e : Wins, GFs S db nm e
  | .nil => gfs_nil
  | .cons _ _ args _ _ ws => gfs_cons (soundEs args) (soundFs ws)

/-- The text of a scan denotes the scan's rows. -/
theorem soundS : ∀ s : Scan, GS S db nm s
  | .single => by
    intro w t _ hok
    simp [okS] at hok
  | .table t cols => gs_table t cols
  | .ref n cols => gs_ref n cols
  | .join _ l r on => gs_join (soundS l) (soundS r) (soundO on)
  | .unnest e _ _ => gs_unnest hst (soundE e)
  | .array s e _ _ on _ => gs_array hst (soundS s) (soundE e) (soundO on)
  | .filter s e => gs_filter hst (soundS s) (soundE e)
  | .project s exprs _ => gs_project (soundS s) (soundCs exprs)
  | .agg s groups aggs _ => gs_agg (soundS s) (soundCs groups) (soundAs aggs)
  | .setop _ items _ => gs_setop (soundIs items)
  | .order s _ _ => gs_order (soundS s)
  | .limit s _ _ _ => gs_limit (soundS s)
  | .with_ es body => gs_with (soundWs es) (soundS body)
  | .gsets s groups aggs _ _ _ => gs_gsets (soundS s) (soundCs groups) (soundAs aggs)
  | .win s ws _ => gs_win hst (soundS s) (soundFs ws)

theorem soundIs : ∀ e : Items, GIs S db nm e
  | .nil => gis_nil
  | .cons s _ is => gis_cons (soundS s) (soundIs is)

theorem soundWs : ∀ e : Entries, GWs S db nm e
  | .nil => gws_nil
  | .cons _ s es => gws_cons (soundS s) (soundWs es)
end
end
end

end Verif.Query
