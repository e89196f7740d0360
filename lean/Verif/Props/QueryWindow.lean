import Verif.Props.QueryRows

/-!
# Queries: ROLLUP, analytic functions and aggregates of outer columns
-/

namespace Verif.Query

set_option linter.unusedSectionVars false

/-! ### C176: GROUP BY ROLLUP -/

/-- The parts of an aggregation with grouping sets are right. -/
structure SetsParts (s : Scan) (groups : CExprs) (aggs : Aggs) (set : List Col) (sets : List (List Col)) (cols : List Col) : Prop where
  input : okS uid (fun _ => none) s
  exprs : okCs uid (fun _ => none) groups
  fns : okAs uid (fun _ => none) aggs
  own : ownAs uid (fun _ => none) s.cols aggs
  ne : cols ≠ []
  sub : ∀ c ∈ cols, c ∈ groups.cols ∨ c ∈ aggs.cols
  grp : groups.cols ≠ []
  inSets : ∀ g ∈ set :: sets, ∀ c ∈ g, c ∈ groups.cols

/-- C176: GROUP BY ROLLUP is translated faithfully. -/
def C176_full : Prop := ∀ s groups aggs set sets cols, Resolved (.gsets s groups aggs set sets cols) →
  SetsParts s groups aggs set sets cols → Faithful (.gsets s groups aggs set sets cols)

/-- C176, what is proved: all grouping columns are selected and, if there is an empty grouping set, so is an aggregate. -/
theorem C176_partial (s : Scan) (groups : CExprs) (aggs : Aggs) (set : List Col) (sets : List (List Col)) (cols : List Col)
    (hr : Resolved (.gsets s groups aggs set sets cols)) (hp : SetsParts s groups aggs set sets cols)
    (hsel : ∀ c ∈ groups.cols, c ∈ cols) (hagg : [] ∈ set :: sets → ∃ c ∈ cols, c ∈ aggs.cols) :
    Faithful (.gsets s groups aggs set sets cols) := by
  refine C134_partial _ hr ?_
  simp only [okS]
  exact ⟨hp.input, hp.exprs, hp.fns, hp.ne, hp.sub, hsel, hp.own, hp.grp, hp.inSets, hagg⟩

/-- `SELECT a AS c, COUNT(*) AS d FROM t GROUP BY ROLLUP(c)` -/
def q3 : Scan := .gsets T (.cons cc (.col ca) .nil) (.cons cd 1 .nil .nil) [cc] [[]] [cc, cd]

theorem q3_ok : Resolved q3 ∧ SetsParts T (.cons cc (.col ca) .nil) (.cons cd 1 .nil .nil) [cc] [[]] [cc, cd] := by
  refine ⟨⟨by decide, ?_, rfl⟩, ?_, ?_, ?_, ?_, ?_, ?_, ?_, ?_⟩
  · simp [q3, T, scopedS, scopedE, scopedEs, scopedCs, scopedAs]
  all_goals simp [T, okS, okE, okEs, okCs, okAs, ownAs, fmtEs, owned, nmEs, CExprs.cols, Aggs.cols]

/-- It yields the total and a row for each value. -/
example : ∃ t, fmtQuery [(cc, ['c']), (cd, ['d'])] q3 = some t ∧
    Yields S0 db0 t ([.raw ['c'], .raw ['d']], [[none, some 3], [some 1, some 1], [some 2, some 1], [some 3, some 1]]) :=
  C176_partial _ _ _ _ _ _ q3_ok.1 q3_ok.2 (by simp [CExprs.cols]) (by simp [Aggs.cols]) (Option Int) inferInstance S0 db0 _
    [[none, some 3], [some 1, some 1], [some 2, some 1], [some 3, some 1]] _ (by simp) (by decide_cbv) (by decide +kernel)

/-- `SELECT a AS c FROM t GROUP BY ROLLUP(c)` yields one NULL per row of `t`; it should yield one NULL. -/
theorem C176_full_false : ¬ C176_full := by
  intro h
  have hF := h T (.cons cc (.col ca) .nil) .nil [cc] [[]] [cc]
    ⟨by decide, by simp [T, scopedS, scopedE, scopedCs, scopedAs], rfl⟩
    ⟨by simp [T, okS], by simp [okCs, okE], by simp [okAs], by simp [ownAs], by simp, by simp [CExprs.cols], by simp [CExprs.cols],
      by simp [CExprs.cols]⟩
  obtain ⟨t, h1, h2⟩ := hF (Option Int) inferInstance S0 db0 [(cc, ['c'])] [[none], [some 1], [some 2], [some 3]]
    [[none], [some 1], [some 2], [some 3]] (by simp) (by decide_cbv) (by decide +kernel)
  have h3 : Yields S0 db0 t ([.raw ['c']], [[none], [none], [none], [some 1], [some 2], [some 3]]) := by
    cases h1
    refine ⟨10, fun n hn => ?_⟩
    obtain ⟨m, rfl⟩ : ∃ m, n = m + 10 := ⟨n - 10, by omega⟩
    cbv
  have := h2.unique h3
  simp at this

/-! ### C177: the rows of ROLLUP -/

section
variable {V : Type} [DecidableEq V]

/-- The values of the grouping columns for a grouping set: NULL for those that are not in it. -/
def masked (S : Sem V) (gcols set : List Col) (k : List V) : List V :=
  gcols.map fun c => if c ∈ set then valOf S gcols k c else S.null

theorem full_set (S : Sem V) (gcols set : List Col) (k : List V) : fullKey S gcols set (setKey S gcols set k) = masked S gcols set k := by
  unfold fullKey masked setKey
  refine List.map_congr_left fun c _ => ?_
  by_cases hc : c ∈ set
  · rw [lk_fn _ hc]
    simp [hc, valOf]
  · rw [lk_none _ hc]
    simp [hc]

theorem set_masked (S : Sem V) {gcols set : List Col} (hs : ∀ c ∈ set, c ∈ gcols) (k : List V) :
    setKey S gcols set (masked S gcols set k) = setKey S gcols set k := by
  unfold masked setKey
  refine List.map_congr_left fun c hc => ?_
  rw [lk_fn _ (hs c hc)]
  simp [hc, valOf]

theorem keyed_spec {key : List V → Option (List V)} (f : List V → List V) : ∀ {L : List (List V)} {keyed : List (List V × List V)},
    mapO (fun a => (key a).map fun k => (k, a)) L = some keyed →
    (∀ k, k ∈ keyed.map (fun x => f x.1) ↔ ∃ a ∈ L, (key a).map f = some k) ∧
    ∀ k, (keyed.filter fun x => f x.1 = k).map (·.2) = L.filter fun a => (key a).map f = some k
  | [], keyed, h => by
    simp only [mapO, Option.some.injEq] at h
    subst h
    simp
  | a :: L, keyed, h => by
    obtain ⟨b, bs, h1, h2, rfl⟩ := mapO_cons h
    obtain ⟨i1, i2⟩ := keyed_spec f h2
    cases hka : key a with
    | none => simp [hka] at h1
    | some k' =>
      simp only [hka, Option.map_some, Option.some.injEq] at h1
      subst h1
      refine ⟨fun k => ?_, fun k => ?_⟩
      · rw [List.map_cons, List.mem_cons, i1 k]
        constructor
        · rintro (rfl | ⟨x, hx, hk⟩)
          · exact ⟨a, List.mem_cons_self .., by rw [hka]; rfl⟩
          · exact ⟨x, List.mem_cons_of_mem _ hx, hk⟩
        · rintro ⟨x, hx, hk⟩
          rcases List.mem_cons.1 hx with rfl | hx
          · rw [hka] at hk
            exact Or.inl (Option.some.inj hk).symm
          · exact Or.inr ⟨x, hx, hk⟩
      · by_cases hk : f k' = k
        · simpa [List.filter_cons, hka, hk] using i2 k
        · simpa [List.filter_cons, hka, hk] using i2 k

/-- The rows of one grouping set. -/
structure SetRows (S : Sem V) (gcols : List Col) (agg : List (List V) → Option (List V)) (key : List V → Option (List V))
    (L : List (List V)) (set : List Col) (block : List (List V)) : Prop where
  /-- One row for each combination of values of the columns of the set, NULL for other columns; -/
  once : (block.map (List.take gcols.length)).Nodup
  /-- for those that occur (the empty set has one row in any case), -/
  keys : ∀ k, k ∈ block.map (List.take gcols.length) ↔
    (set = [] ∧ k = gcols.map fun _ => S.null) ∨ ∃ a ∈ L, (key a).map (masked S gcols set) = some k
  /-- with the aggregates of the input rows with these values. -/
  aggs : ∀ r ∈ block, agg (L.filter fun a => (key a).map (masked S gcols set) = some (r.take gcols.length)) = some (r.drop gcols.length)

theorem set_rows {S : Sem V} {gcols set : List Col} (hset : ∀ c ∈ set, c ∈ gcols) {agg : List (List V) → Option (List V)}
    {key : List V → Option (List V)} {L : List (List V)} {keyed : List (List V × List V)}
    (hk : mapO (fun a => (key a).map fun k => (k, a)) L = some keyed) {block : List (List V × List V)}
    {row : List V → List (List V) → Option (List V)}
    (hrow : ∀ k rows r, k.length = gcols.length → row k rows = some r → ∃ vs, agg rows = some vs ∧ r = k ++ vs)
    (hb : mapO (fun g : List V × List (List V) => (row (fullKey S gcols set g.1) g.2).map fun r => (fullKey S gcols set g.1, r))
      (grouped set.isEmpty (keyed.map fun x => (setKey S gcols set x.1, x.2))) = some block) :
    SetRows S gcols agg key L set (block.map (·.2)) := by
  have hlen : ∀ k, (fullKey S gcols set k).length = gcols.length := fun k => by simp [fullKey]
  have htake : ∀ x ∈ grouped set.isEmpty (keyed.map fun x => (setKey S gcols set x.1, x.2)), ∀ b,
      ((row (fullKey S gcols set x.1) x.2).map fun r => (fullKey S gcols set x.1, r)) = some b →
      b.2.take gcols.length = fullKey S gcols set x.1 ∧ agg x.2 = some (b.2.drop gcols.length) := by
    intro x _ b h
    cases hr : row (fullKey S gcols set x.1) x.2 with
    | none => simp [hr] at h
    | some r =>
      simp only [hr, Option.map_some, Option.some.injEq] at h
      subst h
      obtain ⟨vs, h1, rfl⟩ := hrow _ _ _ (hlen _) hr
      have := hlen x.1
      exact ⟨by simp [← this], by simpa [← this] using h1⟩
  have hkeys : (block.map (·.2)).map (List.take gcols.length) =
      (grouped set.isEmpty (keyed.map fun x => (setKey S gcols set x.1, x.2))).map fun x => fullKey S gcols set x.1 := by
    rw [List.map_map]
    exact mapO_map_eq hb fun x hx b h => (htake x hx b h).1
  obtain ⟨k1, k2⟩ := keyed_spec (masked S gcols set) hk
  cases set with
  | nil =>
    have hall : L.filter (fun a => (key a).map (masked S gcols []) = some (gcols.map fun _ => S.null)) = L := by
      refine List.filter_eq_self.2 fun a ha => ?_
      obtain ⟨b, _, hb'⟩ := mapO_some hk a ha
      cases hka : key a with
      | none => simp [hka] at hb'
      | some k => simp [masked]
    have hsnd : keyed.map (·.2) = L := by
      have := mapO_map_eq (h := fun x : List V × List V => x.2) (p := id) hk fun a _ b h => by
        cases hka : key a with
        | none => simp [hka] at h
        | some k =>
          simp only [hka, Option.map_some, Option.some.injEq] at h
          subst h
          rfl
      simpa using this
    refine ⟨?_, fun k => ?_, fun r hr => ?_⟩
    · rw [hkeys]
      simp [grouped]
    · rw [hkeys]
      simp only [grouped, List.isEmpty_nil, if_true, List.map_cons, List.map_nil, List.mem_singleton, true_and]
      constructor
      · intro h
        left
        rw [h]
        simp [fullKey, lk]
      · rintro (h | ⟨a, _, h⟩)
        · rw [h]
          simp [fullKey, lk]
        · cases hka : key a with
          | none => simp [hka] at h
          | some k' =>
            simp only [hka, Option.map_some, Option.some.injEq] at h
            rw [← h]
            simp [masked, fullKey, lk]
    · obtain ⟨b, hb', rfl⟩ := List.mem_map.1 hr
      obtain ⟨x, hx, h⟩ := mapO_mem hb b hb'
      obtain ⟨h1, h2⟩ := htake x hx b h
      simp only [grouped, List.isEmpty_nil, if_true, List.mem_singleton] at hx
      subst hx
      rw [h1]
      have : fullKey S gcols [] ([] : List V) = gcols.map fun _ => S.null := by simp [fullKey, lk]
      rw [this, hall, ← h2]
      simp [Function.comp_def, hsnd]
  | cons c0 cs =>
    have hinj : ∀ k k', k ∈ (keyed.map fun x => setKey S gcols (c0 :: cs) x.1) → k' ∈ (keyed.map fun x => setKey S gcols (c0 :: cs) x.1) →
        fullKey S gcols (c0 :: cs) k = fullKey S gcols (c0 :: cs) k' → k = k' := by
      intro k k' h h' he
      obtain ⟨x, _, rfl⟩ := List.mem_map.1 h
      obtain ⟨y, _, rfl⟩ := List.mem_map.1 h'
      rw [full_set, full_set] at he
      rw [← set_masked S hset x.1, he, set_masked S hset]
    have hgk : (grouped (c0 :: cs).isEmpty (keyed.map fun x => (setKey S gcols (c0 :: cs) x.1, x.2))).map (fun x => fullKey S gcols (c0 :: cs) x.1) =
        (keyed.map fun x => setKey S gcols (c0 :: cs) x.1).eraseDups.map (fullKey S gcols (c0 :: cs)) := by
      simp [grouped, List.map_map, Function.comp_def]
    refine ⟨?_, fun k => ?_, fun r hr => ?_⟩
    · rw [hkeys, hgk]
      have hnd := nodup_eraseDups' _ (keyed.map fun x => setKey S gcols (c0 :: cs) x.1) (Nat.le_refl _)
      refine List.pairwise_map.2 (hnd.imp_of_mem fun {a b} ha hb' hne h => hne (hinj a b ?_ ?_ h))
      · exact List.mem_eraseDups.1 ha
      · exact List.mem_eraseDups.1 hb'
    · rw [hkeys, hgk, ← k1 k]
      simp only [List.mem_map, List.mem_eraseDups, reduceCtorEq, false_and, false_or]
      constructor
      · rintro ⟨_, ⟨x, hx, rfl⟩, rfl⟩
        exact ⟨x, hx, (full_set ..).symm⟩
      · rintro ⟨x, hx, rfl⟩
        exact ⟨_, ⟨x, hx, rfl⟩, full_set ..⟩
    · obtain ⟨b, hb', rfl⟩ := List.mem_map.1 hr
      obtain ⟨x, hx, h⟩ := mapO_mem hb b hb'
      obtain ⟨h1, h2⟩ := htake x hx b h
      simp only [grouped, List.isEmpty_cons, Bool.false_eq_true, if_false, List.map_map] at hx
      obtain ⟨k, hkm, rfl⟩ := List.mem_map.1 hx
      have hkm' := List.mem_eraseDups.1 hkm
      rw [h1, ← k2, ← h2]
      simp only [List.filter_map, List.map_map]
      congr 1
      rw [show ((fun x : List V × List V => x.2) ∘ fun x : List V × List V => (setKey S gcols (c0 :: cs) x.1, x.2)) = fun x => x.2 from rfl]
      congr 1
      refine List.filter_congr fun y hy => ?_
      simp only [Function.comp_def, ← full_set]
      refine decide_eq_decide.2 ⟨fun h => hinj _ _ (List.mem_map.2 ⟨y, hy, rfl⟩) (by simpa [Function.comp_def] using hkm') h, fun h => by rw [h]⟩

theorem blocks_rows {S : Sem V} {gcols : List Col} {agg : List (List V) → Option (List V)} {key : List V → Option (List V)}
    {L : List (List V)} {keyed : List (List V × List V)} (hk : mapO (fun a => (key a).map fun k => (k, a)) L = some keyed)
    {row : List V → List (List V) → Option (List V)}
    (hrow : ∀ k rows r, k.length = gcols.length → row k rows = some r → ∃ vs, agg rows = some vs ∧ r = k ++ vs) :
    ∀ {sets : List (List Col)} {blocks : List (List (List V × List V))}, (∀ g ∈ sets, ∀ c ∈ g, c ∈ gcols) →
    mapO (fun set => mapO (fun g : List V × List (List V) =>
        (row (fullKey S gcols set g.1) g.2).map fun r => (fullKey S gcols set g.1, r))
      (grouped set.isEmpty (keyed.map fun x => (setKey S gcols set x.1, x.2)))) sets = some blocks →
    blocks.length = sets.length ∧
      ∀ (i : Nat) set block, sets[i]? = some set → (blocks.map fun b => b.map (·.2))[i]? = some block → SetRows S gcols agg key L set block
  | [], blocks, _, h => by
    simp only [mapO, Option.some.injEq] at h
    subst h
    exact ⟨rfl, fun i set block h => by simp at h⟩
  | set :: sets, blocks, hs, h => by
    obtain ⟨b, bs, h1, h2, rfl⟩ := mapO_cons h
    obtain ⟨i1, i2⟩ := blocks_rows hk hrow (fun g hg => hs g (List.mem_cons_of_mem _ hg)) h2
    refine ⟨by simp [i1], fun i set' block hi hb => ?_⟩
    cases i with
    | zero =>
      simp only [List.getElem?_cons_zero, Option.some.injEq] at hi
      simp only [List.map_cons, List.getElem?_cons_zero, Option.some.injEq] at hb
      subst hi hb
      exact set_rows (hs set (List.mem_cons_self ..)) hk hrow h1
    | succ i => exact i2 i set' block (by simpa using hi) (by simpa using hb)
end

/-- C177: GROUP BY ROLLUP yields the rows of each grouping set: one row for each combination of values of its columns, with the
other grouping columns NULL and the aggregates of the input rows with these values; the empty grouping set yields one row, with
the aggregates of all rows, also if there are none. -/
theorem C177 {V : Type} [DecidableEq V] (S : Sem V) (db : Db V) (out : List (Col × List Char)) (s : Scan)
    (groups : CExprs) (aggs : Aggs) (set : List Col) (sets : List (List Col)) (L rows : List (List V))
    (hr : Resolved (.gsets s groups aggs set sets (groups.cols ++ aggs.cols)))
    (hp : SetsParts s groups aggs set sets (groups.cols ++ aggs.cols)) (ha : [] ∈ set :: sets → aggs.cols ≠ [])
    (hout : out.map (·.1) = groups.cols ++ aggs.cols)
    (he : evalS S db (fun _ => none) (fun _ => none) s = some L)
    (hev : evalS S db (fun _ => none) (fun _ => none) (.gsets s groups aggs set sets (groups.cols ++ aggs.cols)) = some rows) :
    ∃ (t : List Tok) (R : List (List V)) (blocks : List (List (List V))),
      fmtQuery out (.gsets s groups aggs set sets (groups.cols ++ aggs.cols)) = some t ∧
      Yields S db t (out.map fun x => .raw x.2, R) ∧ R.Perm blocks.flatten ∧ blocks.length = (set :: sets).length ∧
      ∀ (i : Nat) set' block, (set :: sets)[i]? = some set' → blocks[i]? = some block →
        SetRows S groups.cols (fun rows => evalAs S db (fun _ => none) (rows.map fun a => bindR s.cols a fun _ => none) aggs)
          (fun a => evalCs S db (fun _ => none) (bindR s.cols a fun _ => none) groups) L set' block := by
  have hnd : (groups.cols ++ aggs.cols).Nodup := by
    have h1 : (intCs groups ++ intAs aggs).Sublist (intS (.gsets s groups aggs set sets (groups.cols ++ aggs.cols))) := by
      simp only [intS]
      exact List.sublist_append_right ..
    have h2 := ((gcols_sublist groups).append (acols_sublist aggs)).trans h1
    have h3 := (h2.map (·.id)).nodup hr.ids
    exact List.Pairwise.of_map (·.id) (fun a b h e => h (by rw [e])) h3
  have hcols : (Scan.gsets s groups aggs set sets (groups.cols ++ aggs.cols)).cols = groups.cols ++ aggs.cols := rfl
  have hne : out ≠ [] := by
    intro h
    rw [h] at hout
    simp at hout
    exact hp.grp hout.1
  have hev0 := hev
  simp only [evalS, he] at hev
  cases hk : mapO (fun a => (evalCs S db (fun _ => none) (bindR s.cols a fun _ => none) groups).map fun k => (k, a)) L with
  | none => simp [hk] at hev
  | some keyed =>
    rw [hk] at hev
    simp only [setRowsOf] at hev
    have hrow : ∀ (k : List V) (rows : List (List V)) (r : List V), k.length = groups.cols.length →
        (match evalAs S db (fun _ => none) (rows.map fun a => bindR s.cols a fun _ => none) aggs with
          | none => none
          | some vs => pick (groups.cols ++ aggs.cols) (k ++ vs) (groups.cols ++ aggs.cols)) = some r →
        ∃ vs, evalAs S db (fun _ => none) (rows.map fun a => bindR s.cols a fun _ => none) aggs = some vs ∧ r = k ++ vs := by
      intro k rows r hkl h
      cases hvs : evalAs S db (fun _ => none) (rows.map fun a => bindR s.cols a fun _ => none) aggs with
      | none => simp [hvs] at h
      | some vs =>
        rw [hvs] at h
        have hps : pick (groups.cols ++ aggs.cols) (k ++ vs) (groups.cols ++ aggs.cols) = some (k ++ vs) :=
          pick_self hnd (by simp [hkl, evalAs_length hvs])
        simp only [hps, Option.some.injEq] at h
        exact ⟨vs, rfl, h.symm⟩
    obtain ⟨r, hr1, hr2⟩ := Option.map_eq_some_iff.1 hev
    obtain ⟨blocks, hm, rfl⟩ := Option.map_eq_some_iff.1 hr1
    clear hev
    have hev := hr2
    obtain ⟨hl, hB⟩ := blocks_rows hk hrow hp.inSets hm
    have hperm : rows.Perm (blocks.map fun b => b.map (·.2)).flatten := by
      rw [← hev, sortBy, ← List.map_flatten]
      exact (List.mergeSort_perm ..).map _
    have hlen : ∀ r ∈ rows, r.length = (groups.cols ++ aggs.cols).length := by
      intro r hr'
      obtain ⟨block, hb, hrb⟩ := List.mem_flatten.1 (hperm.mem_iff.1 hr')
      obtain ⟨i, hi, rfl⟩ := List.mem_iff_getElem.1 hb
      have hi' : i < (set :: sets).length := by rw [← hl]; simpa using hi
      have hS := hB i _ _ (List.getElem?_eq_getElem hi') (List.getElem?_eq_getElem hi)
      have h1 := hS.aggs r hrb
      have h2 := evalAs_length h1
      have h3 := (hS.keys (r.take groups.cols.length)).1 (List.mem_map.2 ⟨r, hrb, rfl⟩)
      have h4 : (r.take groups.cols.length).length = groups.cols.length := by
        rcases h3 with ⟨_, h3⟩ | ⟨a, _, h3⟩
        · rw [h3]; simp
        · cases hka : evalCs S db (fun _ => none) (bindR s.cols a fun _ => none) groups with
          | none => simp [hka] at h3
          | some k =>
            simp only [hka, Option.map_some, Option.some.injEq] at h3
            rw [← h3]
            simp [masked]
      rw [← List.take_append_drop groups.cols.length r, List.length_append, h4, h2, List.length_append]
    obtain ⟨t, h1, h2⟩ := C176_partial _ _ _ _ _ _ hr hp (fun c hc => List.mem_append_left _ hc) (fun h => by
        obtain ⟨c, hc⟩ := List.exists_mem_of_ne_nil _ (ha h)
        exact ⟨c, List.mem_append_right _ hc, hc⟩) V inferInstance S db out rows rows hne hev0 (by
      rw [hcols, hout]
      have := mapO_some_map (f := fun a => pick (groups.cols ++ aggs.cols) a (groups.cols ++ aggs.cols)) (g := id) (l := rows)
        fun r hr' => pick_self hnd (hlen r hr')
      simpa using this)
    exact ⟨t, rows, _, h1, h2, hperm, by simp [hl], hB⟩

/-- `SELECT a AS c, COUNT(*) AS d FROM t GROUP BY ROLLUP(c)` meets the hypotheses. -/
example : ∃ t R, fmtQuery [(cc, ['c']), (cd, ['d'])] q3 = some t ∧ Yields S0 db0 t ([.raw ['c'], .raw ['d']], R) := by
  obtain ⟨t, R, _, h1, h2, _⟩ := C177 S0 db0 [(cc, ['c']), (cd, ['d'])] T (.cons cc (.col ca) .nil) (.cons cd 1 .nil .nil) [cc] [[]]
    [[some 1], [some 2], [some 3]] [[none, some 3], [some 1, some 1], [some 2, some 1], [some 3, some 1]] q3_ok.1 q3_ok.2
    (by simp [Aggs.cols]) rfl (by decide +kernel) (by decide_cbv)
  exact ⟨t, R, h1, h2⟩

/-! ### C178: analytic functions -/

/-- The parts of an analytic scan are right. -/
def winParts : List Col → Wins → Prop
  | _, .nil => True
  | h, .cons _ _ args parts ords ws => okEs uid (fun _ => none) args ∧ (∀ c ∈ parts, c ∈ h) ∧ (∀ o ∈ ords, o.col ∈ h) ∧ winParts h ws

/-- Every ORDER BY item has its NULLs where they are by default: first if ascending, last if descending. -/
def defaultNulls : Wins → Prop
  | .nil => True
  | .cons _ _ _ _ ords ws => (∀ o ∈ ords, o.nulls = .unspecified ∨ o.nulls = if o.desc then .last else .first) ∧ defaultNulls ws

/-- Every analytic function has a PARTITION BY or ORDER BY, or its arguments refer to a column of the scan. -/
def anchored (h : List Col) : Wins → Prop
  | .nil => True
  | .cons _ _ args parts ords ws =>
    (parts ≠ [] ∨ ords ≠ [] ∨ ∀ xs, fmtEs uid (fun _ => none) args = some xs → ∃ n ∈ nmEs xs, n ∈ h.map uid) ∧ anchored h ws

theorem okFs_of {h : List Col} : ∀ {ws : Wins}, winParts h ws → defaultNulls ws → anchored h ws → okFs uid (fun _ => none) h ws
  | .nil, _, _, _ => trivial
  | .cons _ _ _ _ ords ws, h1, h2, h3 => by
    refine ⟨h1.1, h1.2.1, fun o ho => ⟨h1.2.2.1 o ho, ?_⟩, h3.1, okFs_of h1.2.2.2 h2.2 h3.2⟩
    rcases h2.1 o ho with h | h
    · simp [OrdItem.nullsFirst, h]
    · cases hd : o.desc <;> simp [OrdItem.nullsFirst, h, hd]

theorem order_mem {h : List Col} : ∀ {ws : Wins}, winParts h ws → ∀ i ∈ ws.order, i.col ∈ h
  | .nil, _, i, hi => by simp [Wins.order] at hi
  | .cons _ _ _ parts ords .nil, h1, i, hi => by
    simp only [Wins.order, ascending, List.mem_append, List.mem_map] at hi
    rcases hi with ⟨c, hc, rfl⟩ | ⟨o, ho, rfl⟩
    · exact h1.2.1 c hc
    · exact h1.2.2.1 o ho
  | .cons _ _ _ _ _ (.cons c f a p o ws), h1, i, hi => order_mem (ws := .cons c f a p o ws) h1.2.2.2 i (by simpa [Wins.order] using hi)

/-- C178: analytic functions are translated faithfully. -/
def C178_full : Prop := ∀ s ws cols, Resolved (.win s ws cols) → okS uid (fun _ => none) s → winParts s.cols ws → cols ≠ [] →
  (∀ c ∈ cols, c ∈ ws.cols ∨ c ∈ s.cols) → Faithful (.win s ws cols)

/-- C178, what is proved: no ORDER BY asks for an order of NULLs other than the default, and no analytic function has an empty
OVER clause and no reference to a column. -/
theorem C178_partial (s : Scan) (ws : Wins) (cols : List Col) (hr : Resolved (.win s ws cols)) (hs : okS uid (fun _ => none) s)
    (hw : winParts s.cols ws) (hne : cols ≠ []) (hsub : ∀ c ∈ cols, c ∈ ws.cols ∨ c ∈ s.cols) (hn : defaultNulls ws)
    (ha : anchored s.cols ws) : Faithful (.win s ws cols) := by
  refine C134_partial _ hr ?_
  simp only [okS]
  exact ⟨hs, okFs_of hw hn ha, hne, hsub, order_mem hw, fun c => by simp [uid, rowId]⟩

/-- `SELECT a, COUNT(*) OVER (PARTITION BY a) AS c FROM t` -/
example : Faithful (.win T (.cons cc 1 .nil [ca] [] .nil) [ca, cc]) := by
  refine C178_partial _ _ _ ⟨by decide, ?_, rfl⟩ ?_ ?_ (by simp) ?_ ?_ ?_
  · simp [T, scopedS, scopedEs, scopedFs]
  · simp [T, okS]
  · simp [winParts, okEs, T, Scan.cols]
  · simp [Wins.cols, T, Scan.cols]
  · simp [defaultNulls]
  · simp [anchored]

/-- The order of NULLs that a query asks for in OVER clauses does not matter to the translation. -/
def forgetNulls : Wins → Wins
  | .nil => .nil
  | .cons c f args parts ords ws => .cons c f args parts (ords.map fun o => ⟨o.col, o.desc, .unspecified⟩) (forgetNulls ws)

theorem forget_fmt (w : WMap) (t : List Tok) : ∀ ws : Wins, fmtFs uid w t (forgetNulls ws) = fmtFs uid w t ws
  | .nil => rfl
  | .cons c f args parts ords ws => by simp only [forgetNulls, fmtFs, forget_fmt w t ws, List.map_map, Function.comp_def]

theorem forget_order : ∀ ws : Wins, (forgetNulls ws).order = ws.order
  | .nil => rfl
  | .cons c f args parts ords .nil => by simp [forgetNulls, Wins.order, List.map_map, Function.comp_def]
  | .cons c f args parts ords (.cons c' f' a' p' o' ws) => by
    have := forget_order (.cons c' f' a' p' o' ws)
    simpa [forgetNulls, Wins.order] using this

/-- NULLS FIRST and NULLS LAST in OVER clauses are ignored: the text of a query is the same with and without them, for all
queries. -/
theorem C178_nulls (out : List (Col × List Char)) (s : Scan) (ws : Wins) (cols : List Col) :
    fmtQuery out (.win s (forgetNulls ws) cols) = fmtQuery out (.win s ws cols) := by
  have : fmtS uid (fun _ => none) (.win s (forgetNulls ws) cols) = fmtS uid (fun _ => none) (.win s ws cols) := by
    simp only [fmtS, forget_fmt, forget_order]
  simp only [fmtQuery, this]

/-- `n(a)` with NULL and 1. -/
def db2 : Db (Option Int) := fun n => if n = ['n'] then some ([['a']], [[none], [some 1]]) else none

/-- `SELECT FIRST_VALUE(a) OVER (ORDER BY a NULLS LAST) AS c FROM n` yields NULL; it should yield 1. -/
theorem C178_full_false : ¬ C178_full := by
  intro h
  obtain ⟨t, h1, h2⟩ := h (.table ['n'] [ca]) (.cons cc 2 (.cons (.col ca) .nil) [] [⟨ca, false, .last⟩] .nil) [cc]
    ⟨by decide, by simp [scopedS, scopedE, scopedEs, scopedFs], rfl⟩ (by simp [okS])
    (by simp [winParts, okEs, okE, Scan.cols]) (by simp) (by simp [Wins.cols])
    (Option Int) inferInstance S0 db2 [(cc, ['c'])] [[some 1], [some 1]] [[some 1], [some 1]] (by simp) (by decide_cbv) (by decide +kernel)
  have h3 : Yields S0 db2 t ([.raw ['c']], [[none], [none]]) := by
    cases h1
    refine ⟨10, fun n hn => ?_⟩
    obtain ⟨m, rfl⟩ : ∃ m, n = m + 10 := ⟨n - 10, by omega⟩
    cbv
  have := h2.unique h3
  simp at this

/-- `SELECT COUNT(*) OVER () AS c FROM t` should yield 3 for each of three rows.  To SQLite the count is one of the outer query
(its only reference is to the number of the outer row). -/
theorem C178_empty_over : ¬ Faithful (.win T (.cons cc 1 .nil [] [] .nil) [cc]) := by
  intro h
  obtain ⟨t, h1, N, hN⟩ := h (Option Int) inferInstance S0 db0 [(cc, ['c'])] [[some 3], [some 3], [some 3]] [[some 3], [some 3], [some 3]]
    (by simp) (by decide_cbv) (by decide +kernel)
  have h4 : ∀ m t, fmtQuery [(cc, ['c'])] (.win T (.cons cc 1 .nil [] [] .nil) [cc]) = some t →
      evalQ S0 db0 (m + 10) (fun _ => none) (fun _ => none) t = none := by
    intro m t ht
    cases ht
    cbv
  have h3 := hN (N + 10) (by omega)
  rw [h4 N t h1] at h3
  simp at h3

/-! ### C179: the rows of analytic functions -/

theorem evalFs_length {V : Type} [DecidableEq V] {S : Sem V} {db : Db V} {w : WEnv V} {envs : List (Env V)} {i : Nat} :
    ∀ {ws : Wins} {vs : List V}, evalFs S db w envs i ws = some vs → vs.length = ws.cols.length
  | .nil, vs, h => by
    simp only [evalFs, Option.some.injEq] at h
    subst h
    rfl
  | .cons c f args parts ords ws, vs, h => by
    simp only [evalFs] at h
    split at h
    · rename_i v vs' _ h2
      cases h
      simp [Wins.cols, evalFs_length h2]
    · simp at h

theorem wcols_sublist : ∀ ws : Wins, ws.cols.Sublist (intFs ws)
  | .nil => List.Sublist.slnil
  | .cons c f args parts ords ws => by
    simp only [Wins.cols, intFs]
    exact ((wcols_sublist ws).trans (List.sublist_append_right ..)).cons_cons c

theorem zip_rows {V : Type} [DecidableEq V] {S : Sem V} {db : Db V} {envs : List (Env V)} {ws : Wins} {hs : List Col} {O : List Col}
    (hnd : (ws.cols ++ hs).Nodup) : ∀ {L : List (List V)} {j : Nat} {r : List (List V × List V)}, (∀ a ∈ L, a.length = hs.length) →
    mapO (fun x : List V × Nat =>
        match evalFs S db (fun _ => none) envs x.2 ws, pick hs x.1 O with
        | some vs, some k => (pick (ws.cols ++ hs) (vs ++ x.1) (ws.cols ++ hs)).map fun r => (k, r)
        | _, _ => none) (L.zipIdx j) = some r →
    ∃ vals : List (List V), vals.length = L.length ∧
      (∀ (i : Nat) vs, vals[i]? = some vs → evalFs S db (fun _ => none) envs (j + i) ws = some vs) ∧
      r.map (·.2) = vals.zipWith (· ++ ·) L
  | [], j, r, _, h => by
    simp only [List.zipIdx_nil, mapO, Option.some.injEq] at h
    subst h
    exact ⟨[], rfl, fun i vs h => by simp at h, rfl⟩
  | a :: L, j, r, hl, h => by
    rw [List.zipIdx_cons] at h
    obtain ⟨b, bs, h1, h2, rfl⟩ := mapO_cons h
    obtain ⟨vals, i1, i2, i3⟩ := zip_rows hnd (fun x hx => hl x (List.mem_cons_of_mem _ hx)) h2
    simp only at h1
    split at h1
    · rename_i vs k hvs hk
      have hps : pick (ws.cols ++ hs) (vs ++ a) (ws.cols ++ hs) = some (vs ++ a) :=
        pick_self hnd (by simp [evalFs_length hvs, hl a (List.mem_cons_self ..)])
      rw [hps] at h1
      simp only [Option.map_some, Option.some.injEq] at h1
      subst h1
      refine ⟨vs :: vals, by simp [i1], fun i v hi => ?_, by simp [i3]⟩
      cases i with
      | zero =>
        simp only [List.getElem?_cons_zero, Option.some.injEq] at hi
        subst hi
        exact hvs
      | succ i =>
        have := i2 i v (by simpa using hi)
        rwa [Nat.add_assoc, Nat.add_comm 1 i] at this
    · simp at h1

/-- C179: a query with analytic functions yields one row for each row of its input, with the values of the functions for this row:
every function sees all rows of the input (its arguments, partition columns and ORDER BY columns for each) and the number of the row. -/
theorem C179 {V : Type} [DecidableEq V] (S : Sem V) (db : Db V) (out : List (Col × List Char)) (s : Scan) (ws : Wins)
    (L rows : List (List V)) (hr : Resolved (.win s ws (ws.cols ++ s.cols))) (hs : okS uid (fun _ => none) s)
    (hw : winParts s.cols ws) (hn : defaultNulls ws) (ha : anchored s.cols ws) (hne : out ≠ []) (hcs : s.cols.Nodup)
    (hout : out.map (·.1) = ws.cols ++ s.cols) (he : evalS S db (fun _ => none) (fun _ => none) s = some L)
    (hev : evalS S db (fun _ => none) (fun _ => none) (.win s ws (ws.cols ++ s.cols)) = some rows) :
    ∃ (t : List Tok) (R vals : List (List V)), fmtQuery out (.win s ws (ws.cols ++ s.cols)) = some t ∧
      Yields S db t (out.map fun x => .raw x.2, R) ∧ vals.length = L.length ∧
      (∀ (i : Nat) vs, vals[i]? = some vs →
        evalFs S db (fun _ => none) (L.map fun a => bindR s.cols a fun _ => none) i ws = some vs) ∧
      R.Perm (vals.zipWith (· ++ ·) L) := by
  have hids := hr.ids
  have hint : intS (.win s ws (ws.cols ++ s.cols)) = intS s ++ intFs ws := by simp only [intS]
  have hwnd : (ws.cols.map (·.id)).Nodup := by
    refine List.Sublist.nodup (List.Sublist.map Col.id ?_) hids
    rw [hint]
    exact (wcols_sublist ws).trans (List.sublist_append_right ..)
  have hnd : (ws.cols ++ s.cols).Nodup := by
    refine List.nodup_append.2 ⟨List.Pairwise.of_map (·.id) (fun a b h e => h (by rw [e])) hwnd, hcs, ?_⟩
    rintro a ha' b hb rfl
    rw [hint, List.map_append] at hids
    exact (List.nodup_append.1 hids).2.2 a.id (List.mem_map_of_mem (cols_sub uid _ s hs a hb)) a.id
      (List.mem_map_of_mem ((wcols_sublist ws).subset ha')) rfl
  have hsids : ((intS s).map (·.id)).Nodup := by
    rw [hint, List.map_append] at hids
    exact (List.nodup_append.1 hids).1
  have hscope : scopedS (fun _ => none) s := by
    have := hr.inScope
    simp only [scopedS] at this
    exact this.1
  have hlen := rows_len hsids hscope hs he
  have hev0 := hev
  simp only [evalS, he] at hev
  obtain ⟨r, hm, hev⟩ := Option.map_eq_some_iff.1 hev
  obtain ⟨vals, h1, h2, h3⟩ := zip_rows hnd hlen hm
  have hperm : rows.Perm (vals.zipWith (· ++ ·) L) := by
    rw [← hev, ← h3]
    exact (List.mergeSort_perm ..).map _
  have hrl : ∀ x ∈ rows, x.length = (ws.cols ++ s.cols).length := by
    intro x hx
    have hx' := hperm.mem_iff.1 hx
    obtain ⟨i, hi, rfl⟩ := List.mem_iff_getElem.1 hx'
    simp only [List.length_zipWith] at hi
    have := evalFs_length (h2 i vals[i] (List.getElem?_eq_getElem (by omega)))
    simp [this, hlen L[i] (List.getElem_mem _)]
  have hcols : ws.cols ++ s.cols ≠ [] := by
    rw [← hout]
    simpa using hne
  obtain ⟨t, h4, h5⟩ := C178_partial _ _ _ hr hs hw hcols (fun c hc => List.mem_append.1 hc) hn ha V inferInstance S db out rows rows
    hne hev0 (by
      show mapO (fun a => pick (ws.cols ++ s.cols) a (out.map (·.1))) rows = some rows
      rw [hout]
      have := mapO_some_map (f := fun a => pick (ws.cols ++ s.cols) a (ws.cols ++ s.cols)) (g := id) (l := rows)
        fun r hr' => pick_self hnd (hrl r hr')
      simpa using this)
  exact ⟨t, rows, vals, h4, h5, h1, fun i vs h => by simpa using h2 i vs h, hperm⟩

/-- `SELECT SUM(a) OVER (PARTITION BY a) AS c, a FROM t` meets the hypotheses. -/
example : ∃ t R, fmtQuery [(cc, ['c']), (ca, ['a'])] (.win T (.cons cc 0 (.cons (.col ca) .nil) [ca] [] .nil) [cc, ca]) = some t ∧
    Yields S0 db0 t ([.raw ['c'], .raw ['a']], R) := by
  obtain ⟨t, R, _, h1, h2, _⟩ := C179 S0 db0 [(cc, ['c']), (ca, ['a'])] T (.cons cc 0 (.cons (.col ca) .nil) [ca] [] .nil)
    [[some 1], [some 2], [some 3]] [[some 1, some 1], [some 2, some 2], [some 3, some 3]]
    ⟨by decide, by simp [T, scopedS, scopedE, scopedEs, scopedFs], rfl⟩ (by simp [T, okS])
    (by simp [winParts, okEs, okE, T, Scan.cols]) (by simp [defaultNulls]) (by simp [anchored]) (by simp) (by simp [T, Scan.cols]) rfl
    (by decide +kernel) (by decide_cbv)
  exact ⟨t, R, h1, h2⟩

/-! ### C180: aggregates in subqueries -/

/-- `SELECT (SELECT aggs FROM u) AS c FROM s` -/
def subAgg (s : Scan) (c : Col) (u : Scan) (d : Col) (f : Nat) (args : Exprs) : Scan :=
  .project s (.cons c (.scalar (.agg u .nil (.cons d f args .nil) [d])) .nil) [c]

/-- C180: an aggregate function in a scalar subquery is computed over the rows of the subquery. -/
def C180_full : Prop := ∀ s c u d f args, Resolved (subAgg s c u d f args) → okS uid (fun _ => none) s → okS uid (fun _ => none) u →
  okEs uid (fun _ => none) args → Faithful (subAgg s c u d f args)

/-- C180, what is proved: the arguments refer to no column at all, or to a column of the subquery. -/
theorem C180_partial (s : Scan) (c : Col) (u : Scan) (d : Col) (f : Nat) (args : Exprs) (hr : Resolved (subAgg s c u d f args))
    (hs : okS uid (fun _ => none) s) (hu : okS uid (fun _ => none) u) (ha : okEs uid (fun _ => none) args)
    (ho : ∀ xs, fmtEs uid (fun _ => none) args = some xs → nmEs xs = [] ∨ ∃ n ∈ nmEs xs, n ∈ u.cols.map uid) :
    Faithful (subAgg s c u d f args) := by
  refine C134_partial _ hr ?_
  simp only [subAgg, okS, okE, okCs, okAs, ownAs, isQuery, CExprs.cols, Aggs.cols]
  refine ⟨Or.inr hs, ⟨⟨trivial, hu, trivial, ⟨ha, trivial⟩, by simp, by simp, by simp, fun xs hx => ?_, trivial⟩, trivial⟩, by simp, by simp⟩
  rcases ho xs hx with h | ⟨n, h1, h2⟩
  · simp [owned, h]
  · simp only [owned, Bool.or_eq_true, List.any_eq_true, decide_eq_true_eq]
    exact Or.inr ⟨n, h1, h2⟩

/-- `SELECT (SELECT SUM(b) AS d FROM u) AS c FROM t` meets the hypotheses. -/
example : Faithful (subAgg T cc U cd 0 (.cons (.col cb) .nil)) := by
  refine C180_partial _ _ _ _ _ _ ⟨by decide, ?_, rfl⟩ ?_ ?_ ?_ ?_
  · simp [subAgg, T, U, scopedS, scopedE, scopedEs, scopedCs, scopedAs]
  · simp [T, okS]
  · simp [U, okS]
  · simp [okEs, okE]
  · intro xs hx
    cases hx
    exact Or.inr ⟨uid cb, by simp [nmEs, nmE], by simp [U, Scan.cols]⟩

/-- `SELECT (SELECT SUM(a) AS d FROM u) AS c FROM t` should yield 2a for each row of `t`, as `u` has two rows.  To SQLite the sum
is one of the outer query. -/
theorem C180_full_false : ¬ C180_full := by
  intro h
  obtain ⟨t, h1, N, hN⟩ := h T cc U cd 0 (.cons (.col ca) .nil)
    ⟨by decide, by simp [subAgg, T, U, scopedS, scopedE, scopedEs, scopedCs, scopedAs], rfl⟩ (by simp [T, okS]) (by simp [U, okS])
    (by simp [okEs, okE]) (Option Int) inferInstance S0 db0 [(cc, ['c'])] [[some 2], [some 4], [some 6]] [[some 2], [some 4], [some 6]]
    (by simp) (by decide +kernel) (by decide +kernel)
  have h4 : ∀ m t, fmtQuery [(cc, ['c'])] (subAgg T cc U cd 0 (.cons (.col ca) .nil)) = some t →
      evalQ S0 db0 (m + 10) (fun _ => none) (fun _ => none) t = none := by
    intro m t ht
    cases ht
    cbv
  have h3 := hN (N + 10) (by omega)
  rw [h4 N t h1] at h3
  simp at h3

end Verif.Query
