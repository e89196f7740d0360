import Verif.Model.Approx

/-! # APPROX_TOP_COUNT and APPROX_TOP_SUM -/

namespace Verif.Approx

open Go Verif.Val Verif.Aggregate

/-- The values Go compares by content when they are map keys. -/
def Keyed : Val → Prop
  | .null => True
  | .int _ => True
  | .bool _ => True
  | .str _ => True
  | .time _ _ => True
  | _ => False

theorem sameKey_iff {v w : Val} (hv : Keyed v) : sameKey v w = true ↔ v = w := by
  cases v <;> cases w <;> simp_all [sameKey, Keyed]

theorem not_unhashable {v : Val} (hv : Keyed v) : unhashable v = false := by
  cases v <;> simp_all [unhashable, Keyed]

theorem upsert_new {β : Type} {v : Val} {new : β} {upd : β → Res β} (hv : Keyed v) (s : List (Val × β)) :
    v ∉ s.map (·.1) → upsert v new upd s = .ok (s ++ [(v, new)]) := by
  induction s with
  | nil => intro _; rfl
  | cons e s ih =>
    intro h
    obtain ⟨w, x⟩ := e
    simp only [List.map_cons, List.mem_cons, not_or] at h
    have h1 : sameKey v w = false := by
      cases hs : sameKey v w with
      | false => rfl
      | true => exact absurd ((sameKey_iff hv).1 hs) h.1
    simp [upsert, h1, ih h.2, Res.bind]

theorem upsert_old {β : Type} {v : Val} {new x x' : β} {upd : β → Res β} (hv : Keyed v) (s t : List (Val × β)) (hu : upd x = .ok x') :
    v ∉ s.map (·.1) → upsert v new upd (s ++ (v, x) :: t) = .ok (s ++ (v, x') :: t) := by
  induction s with
  | nil => intro _; simp [upsert, (sameKey_iff hv).2 rfl, hu, Res.bind]
  | cons e s ih =>
    intro h
    obtain ⟨w, y⟩ := e
    simp only [List.map_cons, List.mem_cons, not_or] at h
    have h1 : sameKey v w = false := by
      cases hs : sameKey v w with
      | false => rfl
      | true => exact absurd ((sameKey_iff hv).1 hs) h.1
    simp [upsert, h1, ih h.2, Res.bind]

/-- The map after the rows `done`: one entry per distinct key, its payload `P done`. -/
structure Holds {ρ β : Type} (key : ρ → Val) (P : List ρ → Val → β) (done : List ρ) (s : List (Val × β)) : Prop where
  nodup : (s.map (·.1)).Nodup
  keys : ∀ v, v ∈ s.map (·.1) ↔ v ∈ done.map key
  pay : ∀ e ∈ s, e.2 = P done e.1

theorem holds_step {ρ β : Type} {key : ρ → Val} {P : List ρ → Val → β} {done : List ρ} {s : List (Val × β)} {r : ρ}
    {new : β} {upd : β → Res β} (hk : Keyed (key r)) (H : Holds key P done s)
    (hnew : key r ∉ done.map key → new = P (done ++ [r]) (key r))
    (hupd : key r ∈ done.map key → upd (P done (key r)) = .ok (P (done ++ [r]) (key r)))
    (hother : ∀ w, w ≠ key r → P (done ++ [r]) w = P done w) :
    ∃ s', upsert (key r) new upd s = .ok s' ∧ Holds key P (done ++ [r]) s' := by
  by_cases h : key r ∈ s.map (·.1)
  · obtain ⟨⟨w, x⟩, he, hw⟩ := List.mem_map.1 h
    simp only at hw; subst hw
    obtain ⟨a, b, rfl⟩ := List.append_of_mem he
    have hn := H.nodup
    simp only [List.map_append, List.map_cons, List.nodup_append, List.nodup_cons] at hn
    have ha : key r ∉ a.map (·.1) := fun hm => hn.2.2 _ hm _ List.mem_cons_self rfl
    have hx : x = P done (key r) := H.pay _ he
    have hu := hupd ((H.keys _).1 h)
    rw [← hx] at hu
    refine ⟨_, upsert_old hk a b hu ha, ?_, ?_, ?_⟩
    · have := H.nodup; simpa using this
    · intro v
      have := H.keys v
      simp only [List.map_append, List.map_cons, List.map_nil, List.mem_append, List.mem_cons, List.not_mem_nil, or_false] at this ⊢
      rw [← this]
      constructor
      · exact .inl
      · rintro (h | rfl)
        · exact h
        · exact .inr (.inl rfl)
    · intro e he'
      rcases List.mem_append.1 he' with h1 | h1
      · rw [H.pay e (List.mem_append_left _ h1), hother]
        intro e1; exact ha (List.mem_map.2 ⟨e, h1, e1⟩)
      · rcases List.mem_cons.1 h1 with rfl | h1
        · rfl
        · rw [H.pay e (List.mem_append_right _ (List.mem_cons_of_mem _ h1)), hother]
          intro e1; exact hn.2.1.1 (List.mem_map.2 ⟨e, h1, e1⟩)
  · have hd : key r ∉ done.map key := fun hm => h ((H.keys _).2 hm)
    refine ⟨_, upsert_new hk s h, ?_, ?_, ?_⟩
    · simp only [List.map_append, List.map_cons, List.map_nil, List.nodup_append]
      refine ⟨H.nodup, by simp, ?_⟩
      intro a ha b hb e
      simp only [List.mem_singleton] at hb
      subst hb; subst e; exact h ha
    · intro v
      have := H.keys v
      simp only [List.map_append, List.map_cons, List.map_nil, List.mem_append, List.mem_cons, List.not_mem_nil, or_false] at this ⊢
      rw [this]
    · intro e he
      rcases List.mem_append.1 he with h1 | h1
      · rw [H.pay e h1, hother]
        intro e1; exact h (List.mem_map.2 ⟨e, h1, e1⟩)
      · simp only [List.mem_singleton] at h1
        subst h1; exact hnew hd

theorem feed_holds {ρ β : Type} {key : ρ → Val} {P : List ρ → Val → β} {step : List (Val × β) → ρ → Res (List (Val × β))}
    {rows : List ρ}
    (hstep : ∀ done r s, done ++ [r] <+: rows → Holds key P done s → ∃ s', step s r = .ok s' ∧ Holds key P (done ++ [r]) s') :
    ∃ s, feed step [] rows = .ok s ∧ Holds key P rows s := by
  suffices ∀ (todo done : List ρ) (s : List (Val × β)), done ++ todo = rows → Holds key P done s →
      ∃ s', feed step s todo = .ok s' ∧ Holds key P rows s' from
    this rows [] [] rfl ⟨List.nodup_nil, by simp, by simp⟩
  intro todo
  induction todo with
  | nil => intro done s e H; simp only [List.append_nil] at e; subst e; exact ⟨s, rfl, H⟩
  | cons r todo ih =>
    intro done s e H
    obtain ⟨s', h1, h2⟩ := hstep done r s ⟨todo, by simpa using e⟩ H
    obtain ⟨s'', h3, h4⟩ := ih (done ++ [r]) s' (by simpa using e) h2
    exact ⟨s'', by simp [feed, h1, Res.bind, h3], h4⟩

/-! ## What is asked for -/

/-- How many of the rows are `v`. -/
noncomputable def occurs (rows : List Val) (v : Val) : Nat := by classical exact rows.count v

/-- `l` is the answer of APPROX_TOP_COUNT(x, num): distinct values with their exact counts,
most frequent first, `num` of them unless there are fewer, none left out that is more frequent. -/
structure TopCountSpec (num : Int) (rows : List Val) (l : List (Val × Int)) : Prop where
  nodup : (l.map (·.1)).Nodup
  exact : ∀ e ∈ l, e.1 ∈ rows ∧ e.2 = occurs rows e.1
  sorted : l.Pairwise fun a b => b.2 ≤ a.2
  len : (l.length : Int) = num ∨ (l.length : Int) < num ∧ ∀ v ∈ rows, v ∈ l.map (·.1)
  best : ∀ v ∈ rows, v ∉ l.map (·.1) → ∀ e ∈ l, (occurs rows v : Int) ≤ e.2

/-- **C183** as a user expects it: APPROX_TOP_COUNT(x, num) is the `num` most frequent values. -/
def C183_full : Prop := ∀ (num : Int) (rows : List Val) (r : Res (Option (List (Val × Int)))),
  1 ≤ num → rows ≠ [] → rows.length < 2 ^ 63 → TopCount num rows r → ∃ l, r = .ok (some l) ∧ TopCountSpec num rows l

/-- Fewer distinct values than asked for are an error. -/
theorem C183_full_false : ¬ C183_full := by
  intro h
  obtain ⟨l, h1, _⟩ := h 2 [.int 7] .err (by decide) (by simp) (by simp) (by
    simp [TopCount, TopRun, feed, topCountStep, unhashable, upsert, Res.bind, TopDone])
  cases h1

theorem occurs_snoc (done : List Val) (r : Val) : occurs (done ++ [r]) r = occurs done r + 1 := by
  classical
  simp [occurs, List.count_append]

theorem occurs_snoc_ne (done : List Val) {r v : Val} (h : ¬ r = v) : occurs (done ++ [r]) v = occurs done v := by
  classical
  simp [occurs, List.count_append, h]

theorem occurs_pos {rows : List Val} {v : Val} (h : v ∈ rows) : 0 < occurs rows v := by
  classical
  exact List.count_pos_iff.2 h

theorem occurs_le (rows : List Val) (v : Val) : occurs rows v ≤ rows.length := by
  classical
  exact List.count_le_length

theorem occurs_zero {rows : List Val} {v : Val} (h : v ∉ rows) : occurs rows v = 0 := by
  classical
  exact List.count_eq_zero.2 h

theorem topCount_feed (rows : List Val) (hk : ∀ v ∈ rows, Keyed v) (hl : rows.length < 2 ^ 63) :
    ∃ s, feed topCountStep [] rows = .ok s ∧ Holds id (fun done v => (occurs done v : Int)) rows s := by
  refine feed_holds ?_
  intro done r s hp H
  have hr : r ∈ rows := hp.subset (by simp)
  have hlen : done.length + 1 ≤ rows.length := by simpa using hp.length_le
  have := not_unhashable (hk r hr)
  simp only [topCountStep, this, Bool.false_eq_true, if_false]
  refine holds_step (key := id) (hk r hr) H ?_ ?_ ?_
  · intro h
    simp only [List.map_id, id] at h
    simp [occurs_snoc, occurs_zero h]
  · intro _
    have h1 := occurs_le done r
    have : wrap64 ((occurs done r : Int) + 1) = occurs done r + 1 := wrap64_eq (by unfold InI64; omega)
    simp [occurs_snoc, this]
  · intro w hw
    have : ¬ r = w := fun e => hw e.symm
    simp [occurs_snoc_ne _ this]

/-- What sorting and cutting yields. -/
theorem top_cut {β : Type} {before : Val × β → Val × β → Prop} {num : Int} {s ys : List (Val × β)}
    (hsw : StrictWeak before s) (h : SortSlice before s ys) (hn : num.toNat ≤ s.length) :
    (ys.take num.toNat).length = num.toNat ∧ (∀ e ∈ ys.take num.toNat, e ∈ s) ∧
    ((s.map (·.1)).Nodup → ((ys.take num.toNat).map (·.1)).Nodup) ∧
    (ys.take num.toNat).Pairwise (fun a b => ¬ before b a) ∧
    (∀ x ∈ s, x ∉ ys.take num.toNat → ∀ e ∈ ys.take num.toNat, ¬ before x e) := by
  obtain ⟨hp, ho⟩ := h
  have ho := ho hsw
  refine ⟨by rw [List.length_take, hp.length_eq]; omega, fun e he => hp.mem_iff.1 (List.mem_of_mem_take he), ?_, ?_, ?_⟩
  · intro hn
    have : (ys.map (·.1)).Nodup := (hp.map _).nodup_iff.2 hn
    rw [List.map_take]
    exact this.sublist (List.take_sublist _ _)
  · exact ho.sublist (List.take_sublist _ _)
  · intro x hx hxt e he
    have hy : x ∈ ys := hp.mem_iff.2 hx
    rw [← List.take_append_drop num.toNat ys] at hy ho
    rcases List.mem_append.1 hy with h1 | h1
    · exact absurd h1 hxt
    · exact (List.pairwise_append.1 ho).2.2 e he x h1

/-- **C183**, the part that holds: on types Go compares by value the answer is right exactly
when there are at least `num` distinct values; otherwise the query fails. -/
theorem C183_partial (num : Int) (rows : List Val) (r : Res (Option (List (Val × Int)))) (distinct : List Val)
    (hd : distinct.Nodup) (hm : ∀ v, v ∈ distinct ↔ v ∈ rows) (hk : ∀ v ∈ rows, Keyed v)
    (hn : 1 ≤ num) (hr : rows ≠ []) (hl : rows.length < 2 ^ 63) (h : TopCount num rows r) :
    (num ≤ distinct.length → ∃ l, r = .ok (some l) ∧ TopCountSpec num rows l) ∧
    ((distinct.length : Int) < num → r = .err) := by
  obtain ⟨s, h1, H⟩ := topCount_feed rows hk hl
  have hlen : s.length = distinct.length := by
    have : (s.map (·.1)).Perm distinct := (List.perm_ext_iff_of_nodup H.nodup hd).2 fun v => by
      rw [H.keys, hm]; simp
    simpa using this.length_eq
  have hs : s ≠ [] := by
    rintro rfl
    obtain ⟨v, hv⟩ := List.exists_mem_of_ne_nil _ hr
    have := (H.keys v).2 (by simpa using hv)
    simp at this
  simp only [TopCount, TopRun, h1, TopDone, if_neg hs, hlen] at h
  constructor
  · intro hle
    rw [if_neg (by omega), if_neg (by omega)] at h
    obtain ⟨ys, hy, rfl⟩ := h
    obtain ⟨a1, a2, a3, a4, a5⟩ := top_cut (num := num) (before := fun a b : Val × Int => b.2 < a.2)
      ⟨fun _ _ => Int.lt_irrefl _, fun _ _ _ _ _ _ h1 h2 => by omega, fun x _ y _ z _ h => by omega⟩ hy (by omega)
    refine ⟨_, rfl, a3 H.nodup, ?_, ?_, ?_, ?_⟩
    · intro e he
      refine ⟨?_, H.pay e (a2 e he)⟩
      have := (H.keys e.1).1 (List.mem_map.2 ⟨e, a2 e he, rfl⟩)
      simpa using this
    · exact a4.imp fun h => by omega
    · left; rw [a1]; omega
    · intro v hv hvn e he
      obtain ⟨x, hx, hxv⟩ := List.mem_map.1 ((H.keys v).2 (by simpa using hv))
      have hxt : x ∉ ys.take num.toNat := fun hx' => hvn (List.mem_map.2 ⟨x, hx', hxv⟩)
      have := a5 x hx hxt e he
      rw [H.pay x hx, hxv] at this
      omega
  · intro hlt
    rw [if_pos hlt] at h
    exact h

/-- Two of the three INT64 values, the frequent one first. -/
example : ∃ l, TopCount 2 [.int 5, .int 6, .int 6, .int 7] (.ok (some l)) ∧ l.head? = some (.int 6, 2) := by
  refine ⟨[(.int 6, 2), (.int 5, 1)], ?_, rfl⟩
  have : feed topCountStep [] [.int 5, .int 6, .int 6, .int 7] = .ok [(.int 5, 1), (.int 6, 2), (.int 7, 1)] := by
    simp [feed, topCountStep, unhashable, upsert, sameKey, Res.bind, wrap64]
  simp only [TopCount, TopRun, this, TopDone]
  simp only [List.cons_ne_nil, if_false, List.length_cons, List.length_nil]
  refine ⟨[(.int 6, 2), (.int 5, 1), (.int 7, 1)], ⟨List.Perm.swap _ _ _, fun _ => by simp⟩, rfl⟩

/-- A NUMERIC is a pointer to Go: every row is a value of its own, counted once. -/
theorem C183_numeric (num : Int) (rows : List Val) (r : Res (Option (List (Val × Int)))) (hn : 1 ≤ num)
    (hk : ∀ v ∈ rows, ∃ x b, v = .num x b) (hr : num ≤ rows.length) (h : TopCount num rows r) :
    ∃ l, r = .ok (some l) ∧ (l.length : Int) = num ∧ ∀ e ∈ l, e.2 = 1 := by
  have hf : ∀ (rows : List Val) (s : List (Val × Int)), (∀ v ∈ rows, ∃ x b, v = .num x b) →
      feed topCountStep s rows = .ok (s ++ rows.map fun v => (v, 1)) := by
    intro rows
    induction rows with
    | nil => intro s _; simp [feed]
    | cons v rows ih =>
      intro s hk
      obtain ⟨x, b, rfl⟩ := hk v List.mem_cons_self
      have hu : ∀ s : List (Val × Int), upsert (.num x b) 1 (fun n => .ok (wrap64 (n + 1))) s = .ok (s ++ [(.num x b, 1)]) := by
        intro s
        induction s with
        | nil => rfl
        | cons e s ih2 =>
          have : sameKey (.num x b) e.1 = false := by cases e.1 <;> rfl
          obtain ⟨w, y⟩ := e
          simp only at this
          simp [upsert, this, ih2, Res.bind]
      have := ih (s ++ [(.num x b, 1)]) (fun w hw => hk w (List.mem_cons_of_mem _ hw))
      simp [feed, topCountStep, unhashable, hu, Res.bind, this]
  have h1 := hf rows [] hk
  have hs : rows.map (fun v => (v, (1 : Int))) ≠ [] := by
    intro e; have := congrArg List.length e; simp at this; subst this; simp at hr; omega
  simp only [TopCount, TopRun, h1, TopDone, List.nil_append, if_neg hs, List.length_map] at h
  rw [if_neg (by omega), if_neg (by omega)] at h
  obtain ⟨ys, ⟨hp, _⟩, rfl⟩ := h
  refine ⟨_, rfl, ?_, ?_⟩
  · rw [List.length_take, hp.length_eq, List.length_map]; omega
  · intro e he
    obtain ⟨v, _, rfl⟩ := List.mem_map.1 (hp.mem_iff.1 (List.mem_of_mem_take he))
    rfl

/-- A BYTES value cannot be a map key: the first one panics. -/
theorem C183_bytes (num : Int) (b : List UInt8) (rows : List Val) (r : Res (Option (List (Val × Int))))
    (h : TopCount num (.bytes b :: rows) r) : r = .panic := by
  simpa [TopCount, TopRun, feed, topCountStep, unhashable, Res.bind] using h

/-! ## APPROX_TOP_SUM -/

/-- The weights of `v` that are not NULL. -/
noncomputable def weights (rows : List (Val × Option Int)) (v : Val) : List Int := by
  classical exact (rows.filter fun r => decide (r.1 = v)).filterMap (·.2)

/-- Their sum, NULL if there are none. -/
noncomputable def sumOf (rows : List (Val × Option Int)) (v : Val) : Option Int :=
  if weights rows v = [] then none else some (weights rows v).sum

/-- An INT64 or NULL as the code holds it. -/
def weight : Option Int → Val
  | some i => .int i
  | none => .null

/-- NULL is below every sum. -/
def SumLe : Option Int → Option Int → Prop
  | none, _ => True
  | some _, none => False
  | some a, some b => a ≤ b

/-- `l` is the answer of APPROX_TOP_SUM(x, weight, num): distinct values with the sums of
their weights, greatest first, `num` of them unless there are fewer, none left out that has a
greater sum. -/
structure TopSumSpec (num : Int) (rows : List (Val × Option Int)) (l : List (Val × Option Int)) : Prop where
  nodup : (l.map (·.1)).Nodup
  exact : ∀ e ∈ l, e.1 ∈ rows.map (·.1) ∧ e.2 = sumOf rows e.1
  sorted : l.Pairwise fun a b => SumLe b.2 a.2
  len : (l.length : Int) = num ∨ (l.length : Int) < num ∧ ∀ v ∈ rows.map (·.1), v ∈ l.map (·.1)
  best : ∀ v ∈ rows.map (·.1), v ∉ l.map (·.1) → ∀ e ∈ l, SumLe (sumOf rows v) e.2

/-- No partial sum leaves the INT64 range. -/
def NoOverflow (rows : List (Val × Option Int)) : Prop := ∀ p, p <+: rows → ∀ v, InI64 (weights p v).sum

/-- The rows as the code sees them. -/
def weighted (rows : List (Val × Option Int)) : List (Val × Val) := rows.map fun r => (r.1, weight r.2)

/-- **C184** as a user expects it: APPROX_TOP_SUM(x, weight, num) with INT64 weights is the
`num` values of the greatest total weight. -/
def C184_full : Prop := ∀ (num : Int) (rows : List (Val × Option Int)) (r : Res (Option (List (Val × Val)))),
  1 ≤ num → rows ≠ [] → NoOverflow rows → TopSum num (weighted rows) r →
  ∃ l, r = .ok (some (weighted l)) ∧ TopSumSpec num rows l

theorem weights_snoc (done : List (Val × Option Int)) (r : Val × Option Int) :
    weights (done ++ [r]) r.1 = weights done r.1 ++ r.2.toList := by
  classical
  simp only [weights, List.filter_append, List.filterMap_append]
  cases h : r.2 <;> simp [h]

theorem weights_snoc_ne (done : List (Val × Option Int)) {r : Val × Option Int} {v : Val} (h : v ≠ r.1) :
    weights (done ++ [r]) v = weights done v := by
  classical
  have : ¬ r.1 = v := fun e => h e.symm
  simp [weights, this]

theorem weights_nil {done : List (Val × Option Int)} {v : Val} (h : v ∉ done.map (·.1)) : weights done v = [] := by
  classical
  have : (done.filter fun r => decide (r.1 = v)) = [] := by
    rw [List.filter_eq_nil_iff]
    intro a ha hd
    exact h (List.mem_map.2 ⟨a, ha, by simpa using hd⟩)
  simp [weights, this]

/-- Fewer distinct values than asked for are an error. -/
theorem C184_full_false : ¬ C184_full := by
  intro h
  have ho : NoOverflow [(.int 7, some 1)] := by
    intro p hp v
    have hw : ∀ x ∈ weights p v, x = 1 := by
      classical
      intro x hx
      simp only [weights, List.mem_filterMap, List.mem_filter] at hx
      obtain ⟨a, ⟨ha, _⟩, hax⟩ := hx
      have := hp.subset ha
      simp only [List.mem_singleton] at this
      subst this
      simpa using hax.symm
    have hl : (weights p v).length ≤ 1 := by
      classical
      have := hp.length_le
      simp only [weights]
      exact Nat.le_trans (List.length_filterMap_le _ _) (Nat.le_trans (List.length_filter_le _ _) this)
    match hq : weights p v, hl with
    | [], _ => simp [InI64]
    | [x], _ => rw [hw x (by rw [hq]; simp)]; simp [InI64]
  obtain ⟨l, h1, _⟩ := h 2 [(.int 7, some 1)] .err (by decide) (by simp) ho (by
    simp [TopSum, TopRun, weighted, feed, topSumStep, unhashable, upsert, Res.bind, TopDone])
  cases h1

theorem topSum_feed (rows : List (Val × Option Int)) (hk : ∀ v ∈ rows, Keyed v.1) (ho : NoOverflow rows) :
    ∃ s, feed topSumStep [] (weighted rows) = .ok s ∧
      Holds (·.1) (fun done v => weight (sumOf done v)) rows s := by
  have hf : ∀ (rows : List (Val × Option Int)) s, feed topSumStep s (weighted rows) =
      feed (fun s r => topSumStep s (r.1, weight r.2)) s rows := by
    intro rows
    induction rows with
    | nil => intro s; rfl
    | cons r rows ih =>
      intro s
      simp only [weighted, List.map_cons, feed] at ih ⊢
      cases topSumStep s (r.1, weight r.2) <;> simp [Res.bind, ih]
  rw [hf]
  refine feed_holds ?_
  intro done r s hp H
  have hr : r ∈ rows := hp.subset (by simp)
  have hb := ho _ hp r.1
  rw [weights_snoc] at hb
  have := not_unhashable (hk r hr)
  simp only [topSumStep, this, Bool.false_eq_true, if_false]
  refine holds_step (key := (·.1)) (r := r) (hk r hr) H ?_ ?_ ?_
  · intro h
    have h0 := weights_nil h
    cases hw : r.2 with
    | none => simp [sumOf, weights_snoc, h0, hw, weight]
    | some i => simp [sumOf, weights_snoc, h0, hw, weight]
  · intro _
    cases hw : r.2 with
    | none => simp [sumOf, weights_snoc, hw, weight]
    | some i =>
      by_cases h0 : weights done r.1 = []
      · simp [sumOf, weights_snoc, h0, hw, weight, Val.isNull]
      · rw [hw] at hb
        simp only [Option.toList_some, List.sum_append, List.sum_cons, List.sum_nil] at hb
        have := wrap64_eq (x := (weights done r.1).sum + i) (by simpa using hb)
        simp [sumOf, weights_snoc, h0, hw, weight, Val.isNull, addVal, Val.toInt64, Res.bind, this]
  · intro w hw
    simp [sumOf, weights_snoc_ne done hw]

/-- Reading a sum back. -/
def unweight : Val → Option Int
  | .int i => some i
  | _ => none

theorem unweight_weight (o : Option Int) : unweight (weight o) = o := by cases o <;> rfl

/-- **C184**, the part that holds: on types Go compares by value the answer is right exactly
when there are at least `num` distinct values; otherwise the query fails. -/
theorem C184_partial (num : Int) (rows : List (Val × Option Int)) (r : Res (Option (List (Val × Val)))) (distinct : List Val)
    (hd : distinct.Nodup) (hm : ∀ v, v ∈ distinct ↔ v ∈ rows.map (·.1)) (hk : ∀ v ∈ rows, Keyed v.1)
    (hn : 1 ≤ num) (hr : rows ≠ []) (ho : NoOverflow rows) (h : TopSum num (weighted rows) r) :
    (num ≤ distinct.length → ∃ l, r = .ok (some (weighted l)) ∧ TopSumSpec num rows l) ∧
    ((distinct.length : Int) < num → r = .err) := by
  obtain ⟨s, h1, H⟩ := topSum_feed rows hk ho
  have hlen : s.length = distinct.length := by
    have : (s.map (·.1)).Perm distinct := (List.perm_ext_iff_of_nodup H.nodup hd).2 fun v => by
      rw [H.keys, hm]
    simpa using this.length_eq
  have hs : s ≠ [] := by
    rintro rfl
    obtain ⟨v, hv⟩ := List.exists_mem_of_ne_nil _ hr
    have := (H.keys v.1).2 (List.mem_map.2 ⟨v, hv, rfl⟩)
    simp at this
  simp only [TopSum, TopRun, h1, TopDone, if_neg hs, hlen] at h
  -- the order on the entries of the map
  have hord : ∀ a ∈ s, ∀ b ∈ s, sumBefore a b ↔ ¬ SumLe (sumOf rows a.1) (sumOf rows b.1) := by
    intro a ha b hb
    unfold sumBefore
    rw [H.pay a ha, H.pay b hb]
    cases sumOf rows a.1 <;> cases sumOf rows b.1 <;>
      simp [weight, Val.isNull, SumLe, okTrue, cmp, cmpAux, cmpLeaf, Val.toInt64, Res.bind, Op.run] <;> omega
  have hsw : StrictWeak sumBefore s := by
    have hle : ∀ a b c : Option Int, ¬ SumLe a b → ¬ SumLe b c → ¬ SumLe a c := by
      intro a b c; cases a <;> cases b <;> cases c <;> simp [SumLe] <;> omega
    have hco : ∀ a b c : Option Int, ¬ SumLe a b → ¬ SumLe a c ∨ ¬ SumLe c b := by
      intro a b c; cases a <;> cases b <;> cases c <;> simp [SumLe] <;> omega
    refine ⟨fun x hx => ?_, fun x hx y hy z hz => ?_, fun x hx y hy z hz => ?_⟩
    · rw [hord x hx x hx]; cases sumOf rows x.1 <;> simp [SumLe]
    · rw [hord x hx y hy, hord y hy z hz, hord x hx z hz]; exact hle _ _ _
    · rw [hord x hx y hy, hord x hx z hz, hord z hz y hy]; exact hco _ _ _
  constructor
  · intro hle
    rw [if_neg (by omega), if_neg (by omega)] at h
    obtain ⟨ys, hy, rfl⟩ := h
    obtain ⟨a1, a2, a3, a4, a5⟩ := top_cut (num := num) hsw hy (by omega)
    generalize hL : ys.take num.toNat = L at *
    have hLw : weighted (L.map fun e => (e.1, unweight e.2)) = L := by
      unfold weighted
      rw [List.map_map]
      conv => rhs; rw [← List.map_id L]
      apply List.map_congr_left
      intro e he
      obtain ⟨v, x⟩ := e
      have := H.pay _ (a2 _ he)
      simp only at this
      subst this
      simp [unweight_weight]
    have hpay : ∀ e ∈ L, unweight e.2 = sumOf rows e.1 := by
      intro e he; rw [H.pay e (a2 e he), unweight_weight]
    have hkeys : (L.map fun e => (e.1, unweight e.2)).map (·.1) = L.map (·.1) := by simp
    refine ⟨L.map fun e => (e.1, unweight e.2), by rw [hLw], ?_, ?_, ?_, ?_, ?_⟩
    · rw [hkeys]; exact a3 H.nodup
    · intro e he
      obtain ⟨e, hE, rfl⟩ := List.mem_map.1 he
      exact ⟨(H.keys e.1).1 (List.mem_map.2 ⟨e, a2 e hE, rfl⟩), hpay e hE⟩
    · rw [List.pairwise_map]
      refine a4.imp_of_mem ?_
      intro a b ha hb hab
      simp only
      rw [hpay a ha, hpay b hb]
      rw [hord b (a2 b hb) a (a2 a ha)] at hab
      exact Classical.not_not.1 hab
    · left; rw [List.length_map, a1]; omega
    · intro v hv hvn e he
      obtain ⟨e, hE, rfl⟩ := List.mem_map.1 he
      rw [hkeys] at hvn
      obtain ⟨x, hx, hxv⟩ := List.mem_map.1 ((H.keys v).2 hv)
      have hxt : x ∉ L := fun hx' => hvn (List.mem_map.2 ⟨x, hx', hxv⟩)
      have := a5 x hx hxt e hE
      rw [hord x hx e (a2 e hE), hxv] at this
      simp only
      rw [hpay e hE]
      exact Classical.not_not.1 this
  · intro hlt
    rw [if_pos hlt] at h
    exact h

/-- A value whose weights are all NULL comes last. -/
example : ∃ l, TopSum 2 [(.int 5, .null), (.int 6, .int 1), (.int 6, .int 2)] (.ok (some l)) ∧ l.getLast? = some (.int 5, .null) := by
  refine ⟨[(.int 6, .int 3), (.int 5, .null)], ?_, rfl⟩
  have : feed topSumStep [] [(.int 5, .null), (.int 6, .int 1), (.int 6, .int 2)] = .ok [(.int 5, .null), (.int 6, .int 3)] := by
    simp [feed, topSumStep, unhashable, upsert, sameKey, Res.bind, addVal, Val.isNull, Val.toInt64, wrap64]
  simp only [TopSum, TopRun, this, TopDone]
  simp only [List.cons_ne_nil, if_false, List.length_cons, List.length_nil]
  refine ⟨[(.int 6, .int 3), (.int 5, .null)], ⟨List.Perm.swap _ _ _, fun _ => by simp [sumBefore, Val.isNull]⟩, rfl⟩

end Verif.Approx
