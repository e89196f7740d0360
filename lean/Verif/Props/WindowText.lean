import Verif.Props.WindowAgg
import Verif.Props.WindowNav

/-! # C204–C206: STRING_AGG, ARRAY_AGG and ANY_VALUE as analytic functions -/

namespace Verif.WindowAgg

open Go Verif.Val Verif.Aggregate Verif.Window Verif.Sql

/-! ## C204: STRING_AGG over a frame -/

/-- STRING values and NULLs. -/
def StrColumn (vs : List Val) : Prop := ∀ v ∈ vs, v = .null ∨ ∃ s, v = .str s

/-- STRING_AGG([DISTINCT] x, delim) of the values `vs`: the texts with the delimiter between them. -/
def StringSpec (d : Bool) (delim : List Char) (vs : List Val) (out : Res Val) : Prop :=
  ∃ ts : List (List Char), Used d vs (ts.map .str) ∧ out = .ok (if ts = [] then .null else .str (delim.intercalate ts))

/-- The delimiter of a call: a comma unless one is given. -/
def delimOf : Option (List Char) → List Char
  | none => [',']
  | some d => d

/-- **C204** in full: every ROWS frame of a STRING argument, every delimiter. -/
def C204_full (S : Sorter) (other : Val → Res (List Char)) : Prop :=
  ∀ flags rows, GoodParts (toText other) rows → GoodKeys flags rows → StrColumn (rows.map SRow.value) →
    ∀ p, ∃ W, WindowOrder flags rows p W ∧ ∀ (b e : Boundary), Grammatical b e → Ordered b e →
      ∀ (d : Bool) (delim : Option (List Char)) (i j : Nat), W[i]? = some j →
        StringSpec d (delimOf delim) (vals rows W b e i)
          (winString d (delim.map .str) S (toText other) .rows b e (input flags rows) ((j : Int) + 1))

theorem join_intercalate (d : List Char) (ts : List (List Char)) : join d ts = d.intercalate ts := by
  induction ts with
  | nil => rfl
  | cons t ts ih =>
    cases ts with
    | nil => simp [join, List.intercalate]
    | cons u ts =>
      rw [join, ih]
      · simp [List.intercalate]
      · simp

theorem strs_of {us : List Val} (h : ∀ u ∈ us, ∃ s, u = .str s) : ∃ ts : List (List Char), us = ts.map .str := by
  induction us with
  | nil => exact ⟨[], rfl⟩
  | cons u us ih =>
    obtain ⟨zs, rfl⟩ := ih (fun u hu => h u (List.mem_cons_of_mem _ hu))
    obtain ⟨i, rfl⟩ := h u List.mem_cons_self
    exact ⟨i :: zs, rfl⟩

theorem string_feed (other : Val → Res (List Char)) (ts : List (List Char)) : ∀ acc,
    feed (fun (s : List (List Char)) v => (toText other v).bind fun t => Res.ok (s ++ [t])) acc (ts.map .str) = .ok (acc ++ ts) := by
  induction ts with
  | nil => intro acc; simp [feed]
  | cons t ts ih =>
    intro acc
    rw [List.map_cons, feed, toText, Res.bind'_ok, Res.bind'_ok, ih]
    simp

/-- The delimiter the code uses: a comma also for the empty one. -/
def codeDelim : Option (List Char) → List Char
  | none => [',']
  | some d => if d = [] then [','] else d

theorem delimiter_eq (other : Val → Res (List Char)) (delim : Option (List Char)) :
    delimiter (toText other) (delim.map .str) = .ok (codeDelim delim) := by
  cases delim with
  | none => rfl
  | some d => simp [delimiter, codeDelim, toText, Val.isNull]

theorem intercalate_length (d : List Char) (t : List Char) (ts : List (List Char)) :
    (d.intercalate (t :: ts)).length = d.length * ts.length + ((t :: ts).map List.length).sum := by
  induction ts generalizing t with
  | nil => simp [List.intercalate]
  | cons u ts ih =>
    have := ih u
    rw [← join_intercalate] at this ⊢
    rw [join]
    · simp only [List.length_append, this, List.length_cons, List.map_cons, List.sum_cons, Nat.mul_succ]
      omega
    · simp

/-- **C204**, the part that holds: what is computed, and that it is right exactly if the delimiter is not empty or
fewer than two texts are joined. -/
theorem C204_partial (S : Sorter) (other : Val → Res (List Char)) (flags : List Bool) (rows : List SRow)
    (hg : GoodParts (toText other) rows) (hk : GoodKeys flags rows) (hc : StrColumn (rows.map SRow.value))
    (p : List (Option Scalar)) :
    ∃ W, WindowOrder flags rows p W ∧ ∀ (b e : Boundary), Grammatical b e →
      ∀ (d : Bool) (delim : Option (List Char)) (i j : Nat), W[i]? = some j → ¬ Reversed W.length i b e →
        StringSpec d (codeDelim delim) (vals rows W b e i)
          (winString d (delim.map .str) S (toText other) .rows b e (input flags rows) ((j : Int) + 1)) ∧
        ∀ us, Used d (vals rows W b e i) us →
          (StringSpec d (delimOf delim) (vals rows W b e i)
            (winString d (delim.map .str) S (toText other) .rows b e (input flags rows) ((j : Int) + 1)) ↔
            delim ≠ some [] ∨ us.length < 2) := by
  have hW := windowOrder_ok S hk p
  refine ⟨windowOrder S flags rows p, hW, ?_⟩
  intro b e hge d delim i j h ho
  have hint : StrColumn (vals rows (windowOrder S flags rows p) b e i) := fun v hv => hc v (vals_mem hW hv)
  obtain ⟨r, hr, rfl⟩ := mem_windowOrder.mp (List.mem_of_getElem? h)
  have hf := (rows_exact S hg hge h).2 ho
  rw [← vals] at hf
  have hfa := column_faithful other (.inr (.inr (.inl hint)))
  have hu := used_spec (distinct := d) hfa
  generalize hvs : vals rows (windowOrder S flags rows r.parts) b e i = vs at *
  obtain ⟨ts, hts⟩ := strs_of (us := used d textOf vs) (fun u hm => by
    obtain ⟨h1, h2⟩ := used_mem hm
    rcases hint u h1 with rfl | h3
    · simp at h2
    · exact h3)
  rw [hts] at hu
  have hval : winString d (delim.map .str) S (toText other) .rows b e (input flags rows) ((j : Int) + 1) =
      .ok (if ts = [] then .null else .str ((codeDelim delim).intercalate ts)) := by
    unfold winString
    rw [delimiter_eq, Res.bind'_ok, hf, Res.bind'_ok, stringFrame, loop_eq _ hfa, hts, string_feed, Res.bind'_ok, join_intercalate]
    rfl
  rw [hval]
  refine ⟨⟨ts, hu, rfl⟩, ?_⟩
  -- all ways to use the values are permutations of each other
  have hperm : ∀ us, Used d vs us → us.Perm (ts.map .str) := by
    intro us hus
    unfold Used at hus hu
    cases d
    · simp only [Bool.false_eq_true, if_false] at hus hu; rw [hus, hu]
    · simp only [if_true] at hus hu
      exact (List.perm_ext_iff_of_nodup hus.1 hu.1).mpr fun v => (hus.2 v).trans (hu.2 v).symm
  intro us hus
  have hl : us.length = ts.length := by rw [(hperm us hus).length_eq]; simp
  rw [hl]
  constructor
  · rintro ⟨xs, hx, he⟩
    by_cases hd : delim = some []
    · refine .inr ?_
      subst hd
      have hxp := hperm _ hx
      have hxl : xs.length = ts.length := by simpa using hxp.length_eq
      simp only [codeDelim, if_true, delimOf, Res.ok.injEq] at he
      cases ts with
      | nil => simp
      | cons t ts =>
        cases xs with
        | nil => simp at hxl
        | cons x xs =>
          rw [if_neg (by simp), if_neg (by simp)] at he
          have he : ([','] : List Char).intercalate (t :: ts) = ([] : List Char).intercalate (x :: xs) := by injection he
          have hlen := congrArg List.length he
          rw [intercalate_length, intercalate_length] at hlen
          have hsum : ((x :: xs).map List.length).sum = ((t :: ts).map List.length).sum := by
            have := (hxp.map fun v => match v with | .str s => s.length | _ => 0)
            rw [List.map_map, List.map_map] at this
            exact this.sum_nat
          rw [hsum] at hlen
          simp only [List.length_cons, List.length_nil] at hlen ⊢
          omega
    · exact .inl hd
  · intro h
    refine ⟨ts, hu, ?_⟩
    rcases h with h | h
    · have : codeDelim delim = delimOf delim := by
        cases delim with
        | none => rfl
        | some x => simp [codeDelim, delimOf]; intro hx; subst hx; exact absurd rfl h
      rw [this]
    · cases ts with
      | nil => rfl
      | cons t ts =>
        cases ts with
        | nil => simp [List.intercalate]
        | cons u ts => simp only [List.length_cons] at h; omega

/-- STRING_AGG(x, '') puts commas between the values. -/
theorem C204_full_false (S : Sorter) (other : Val → Res (List Char)) : ¬ C204_full S other := by
  intro h
  obtain ⟨hg, hk⟩ := four_good (toText other) (.str ['a'])
  have hc : StrColumn ((four (.str ['a'])).map SRow.value) := by simp [four, StrColumn]
  obtain ⟨W, hW, h⟩ := h [] (four (.str ['a'])) hg hk hc []
  obtain ⟨W', hW', h'⟩ := C204_partial S other [] (four (.str ['a'])) hg hk hc []
  have hlen : W.length = 4 := by rw [hW.perm.length_eq]; rfl
  obtain ⟨j, hj⟩ : ∃ j, W[0]? = some j := ⟨_, List.getElem?_eq_getElem (by omega)⟩
  have hj' : j ∈ W' := hW'.perm.mem_iff.mpr (hW.perm.mem_iff.mp (List.mem_of_getElem? hj))
  obtain ⟨i, hi⟩ := List.getElem?_of_mem hj'
  have ho : Ordered .unboundedPreceding .unboundedFollowing := by intro x y hx; cases hx
  have hw : ∀ (V : List Nat) (k : Nat), WindowOrder [] (four (.str ['a'])) [] V →
      vals (four (.str ['a'])) V .unboundedPreceding .unboundedFollowing k = [.str ['a'], .str ['a'], .str ['a'], .str ['a']] := by
    intro V k hV
    have e1 : rowsFrame V .unboundedPreceding .unboundedFollowing k = V := by
      unfold rowsFrame
      rw [List.filter_eq_self.mpr (by intro q _; simp [lowerOk, upperOk])]
      simp
    have hl : V.length = 4 := by rw [hV.perm.length_eq]; rfl
    unfold vals
    rw [e1]
    have : V.map (valueAt (four (.str ['a']))) = List.replicate 4 (.str ['a']) := by
      rw [List.eq_replicate_iff]
      refine ⟨by simp [hl], ?_⟩
      intro v hv
      obtain ⟨m, hm, rfl⟩ := List.mem_map.mp hv
      obtain ⟨r, hr, _⟩ := mem_members.mp (hV.perm.mem_iff.mp hm)
      have : r ∈ four (.str ['a']) := List.mem_of_getElem? hr
      simp [four] at this
      simp [valueAt, hr, this]
    exact this
  have h1 := h .unboundedPreceding .unboundedFollowing ⟨by simp, by simp⟩ ho false (some []) 0 j hj
  obtain ⟨_, h2⟩ := h' .unboundedPreceding .unboundedFollowing ⟨by simp, by simp⟩ false (some []) i j hi (by rintro ⟨x, _, hx, _⟩; cases hx)
  rw [hw W 0 hW] at h1
  rw [hw W' i hW'] at h2
  have := (h2 [.str ['a'], .str ['a'], .str ['a'], .str ['a']] rfl).mp h1
  simp at this

example : stringFrame true (toText fun _ => .err) [';'] [.str ['a'], .null, .str ['b'], .str ['a']] = .ok (.str ['a', ';', 'b']) := by rfl

/-! ## C205: ARRAY_AGG over a frame -/

/-- The values ARRAY_AGG([DISTINCT] x [IGNORE|RESPECT NULLS]) collects. -/
def Collected (d : Bool) (n : Nulls) (vs us : List Val) : Prop :=
  if d then us.Nodup ∧ ∀ v, v ∈ us ↔ v ∈ candidates n vs else us = candidates n vs

/-- ARRAY_AGG over the values `vs`: NULL without any.  (A NULL among the elements is not constrained: BigQuery
rejects such an array in a result.) -/
def ArraySpec (d : Bool) (n : Nulls) (vs : List Val) (out : Res Val) : Prop :=
  (candidates n vs).all (fun v => !v.isNull) = true →
    ∃ us, Collected d n vs us ∧ out = .ok (if us = [] then .null else .arr us)

/-- **C205** in full: every ROWS frame with bounds in order. -/
def C205_full (S : Sorter) (other : Val → Res (List Char)) : Prop :=
  ∀ flags rows, GoodParts (toText other) rows → GoodKeys flags rows → Column (rows.map SRow.value) →
    ∀ p, ∃ W, WindowOrder flags rows p W ∧ ∀ (b e : Boundary), Grammatical b e → Ordered b e →
      ∀ (d : Bool) (n : Nulls) (i j : Nat), W[i]? = some j →
        ArraySpec d n (vals rows W b e i) (winArray (ignores n) d S (toText other) .rows b e (input flags rows) ((j : Int) + 1))

theorem partitionTexts_ok {text : Val → Res (List Char)} {ps : List Val} {k : List Char} (h : partitionKey text ps = .ok k) :
    ∃ ts, partitionTexts text ps = .ok ts := by
  unfold partitionKey at h
  cases hp : partitionTexts text ps with
  | ok ts => exact ⟨ts, rfl⟩
  | err => rw [hp] at h; cases h
  | panic => rw [hp] at h; cases h

theorem arraySteps_eq {text : Val → Res (List Char)} {rows : List SRow} (hg : GoodParts text rows) (flags : List Bool) :
    arraySteps text (input flags rows) = if rows.any (fun r => r.value.isNull) then .err else .ok () := by
  have hp : ∀ r ∈ rows, ∃ ts, partitionTexts text (r.row flags).parts = .ok ts := by
    intro r hr
    rcases hg with h | ⟨key, h, _⟩
    · exact ⟨[], by simp [SRow.row, h r hr, partitionTexts]⟩
    · exact partitionTexts_ok (h r hr)
  clear hg
  induction rows with
  | nil => rfl
  | cons r rows ih =>
    obtain ⟨ts, ht⟩ := hp r List.mem_cons_self
    rw [input, List.map_cons, arraySteps, ht, Res.bind'_ok, ← input, ih (fun r hr => hp r (List.mem_cons_of_mem _ hr)), List.any_cons]
    have : (r.row flags).value = r.value := rfl
    rw [this]
    cases r.value.isNull <;> rfl

/-- The loop on values without NULLs. -/
theorem arrayLoop_eq {ig d : Bool} {text f} (vs : List Val) : (∀ v ∈ vs, v.isNull = false) → (∀ v ∈ vs, v.isNull = false → text v = .ok (f v)) →
    ∀ seen acc, arrayLoop ig d text seen acc vs = .ok (acc ++ if d then firsts f seen vs else vs) := by
  induction vs with
  | nil => intro _ _ seen acc; cases d <;> simp [arrayLoop, firsts]
  | cons v vs ih =>
    intro hn ht seen acc
    have ih := ih (fun a ha => hn a (List.mem_cons_of_mem _ ha)) (fun a ha => ht a (List.mem_cons_of_mem _ ha))
    have hv := hn v List.mem_cons_self
    rw [arrayLoop, if_neg (by simp [hv])]
    cases d
    · rw [if_neg (by simp), ih]; simp
    · simp only [if_true] at ih
      rw [if_pos rfl, if_neg (by simp [hv]), ht v List.mem_cons_self hv, Res.bind'_ok]
      simp only [if_true, firsts, hv, Bool.false_eq_true, if_false]
      by_cases hs : f v ∈ seen
      · rw [if_pos hs, if_pos hs, ih]
      · rw [if_neg hs, if_neg hs, ih]; simp

/-- A NULL argument in any row, of any partition, under any null handling, is an error in every row. -/
theorem C205_null (S : Sorter) (text : Val → Res (List Char)) (flags : List Bool) (rows : List SRow) (hg : GoodParts text rows)
    (h : ∃ r ∈ rows, r.value = .null) (ig d : Bool) (u : FrameUnit) (b e : Boundary) (rowId : Int) :
    winArray ig d S text u b e (input flags rows) rowId = .err := by
  unfold winArray
  obtain ⟨r, hr, hv⟩ := h
  rw [arraySteps_eq hg, if_pos (List.any_eq_true.mpr ⟨r, hr, by rw [hv]; rfl⟩)]
  rfl

/-- **C205**, the part that holds: without NULLs in the input, and exactly for frames that are not empty (an empty
frame gives an empty array). -/
theorem C205_partial (S : Sorter) (other : Val → Res (List Char)) (flags : List Bool) (rows : List SRow)
    (hg : GoodParts (toText other) rows) (hk : GoodKeys flags rows) (hc : Column (rows.map SRow.value))
    (hn : ∀ r ∈ rows, r.value ≠ .null) (p : List (Option Scalar)) :
    ∃ W, WindowOrder flags rows p W ∧ ∀ (b e : Boundary), Grammatical b e →
      ∀ (d : Bool) (n : Nulls) (i j : Nat), W[i]? = some j → ¬ Reversed W.length i b e →
        (∃ us, Collected d n (vals rows W b e i) us ∧
          winArray (ignores n) d S (toText other) .rows b e (input flags rows) ((j : Int) + 1) = .ok (.arr us)) ∧
        (ArraySpec d n (vals rows W b e i) (winArray (ignores n) d S (toText other) .rows b e (input flags rows) ((j : Int) + 1)) ↔
          vals rows W b e i ≠ []) := by
  have hW := windowOrder_ok S hk p
  refine ⟨windowOrder S flags rows p, hW, ?_⟩
  intro b e hge d n i j h ho
  have hcol := hc.sub (fun u hu => vals_mem (b := b) (e := e) (i := i) hW hu)
  have hnn : ∀ v ∈ vals rows (windowOrder S flags rows p) b e i, v.isNull = false := by
    intro v hv
    obtain ⟨r, hr, rfl⟩ := List.mem_map.mp (vals_mem hW hv)
    have := hn r hr
    cases hx : r.value <;> first | rfl | exact absurd hx this
  obtain ⟨r, hr, rfl⟩ := mem_windowOrder.mp (List.mem_of_getElem? h)
  have hf := (rows_exact S hg hge h).2 ho
  rw [← vals] at hf
  have hfa := column_faithful other hcol
  generalize hvs : vals rows (windowOrder S flags rows r.parts) b e i = vs at *
  have hany : rows.any (fun r => r.value.isNull) = false := by
    rw [List.any_eq_false]
    intro s hs hx
    have := hn s hs
    cases hy : s.value <;> rw [hy] at hx <;> first | exact absurd hy this | simp [Val.isNull] at hx
  have hcand : candidates n vs = vs := by
    unfold candidates
    split
    · rw [List.filter_eq_self]; intro v hv; simp [hnn v hv]
    · rfl
  have hval : winArray (ignores n) d S (toText other) .rows b e (input flags rows) ((j : Int) + 1) =
      .ok (.arr (if d then firsts textOf [] vs else vs)) := by
    unfold winArray
    rw [arraySteps_eq hg, hany, if_neg (by simp), Res.bind'_ok, hf, Res.bind'_ok, arrayLoop_eq vs hnn hfa.ok, Res.bind'_ok]
    rfl
  have hcol' : Collected d n vs (if d then firsts textOf [] vs else vs) := by
    unfold Collected
    rw [hcand]
    have := used_spec (distinct := d) hfa
    unfold Used used at this
    cases d
    · rfl
    · simp only [if_true] at this ⊢
      exact ⟨this.1, fun v => ⟨fun hv => ((this.2 v).mp hv).1, fun hv => (this.2 v).mpr ⟨hv, hnn v hv⟩⟩⟩
  refine ⟨⟨_, hcol', hval⟩, ?_⟩
  have hempty : (if d then firsts textOf [] vs else vs) = [] ↔ vs = [] := by
    constructor
    · intro h0
      unfold Collected at hcol'
      rw [hcand, h0] at hcol'
      cases d
      · exact hcol'.symm
      · simp only [if_true] at hcol'
        exact List.eq_nil_iff_forall_not_mem.mpr fun v hv => by simpa using (hcol'.2 v).mpr hv
    · rintro rfl; cases d <;> rfl
  rw [hval]
  constructor
  · intro hs h0
    obtain ⟨us, hu, he⟩ := hs (by rw [hcand]; simpa using hnn)
    have : us = [] := by
      subst h0
      unfold Collected at hu
      cases d
      · simpa [hcand] using hu
      · simp only [if_true, hcand] at hu
        exact List.eq_nil_iff_forall_not_mem.mpr fun v hv => by simpa using (hu.2 v).mp hv
    rw [if_pos this] at he
    cases he
  · intro h0 _
    refine ⟨_, hcol', ?_⟩
    rw [if_neg (fun h => h0 (hempty.mp h))]

/-- ARRAY_AGG(x IGNORE NULLS) OVER () with a NULL row fails. -/
theorem C205_full_false (S : Sorter) (other : Val → Res (List Char)) : ¬ C205_full S other := by
  intro h
  obtain ⟨hg, hk⟩ := four_good (toText other) .null
  obtain ⟨W, hW, h⟩ := h [] (four .null) hg hk (.inl (by simp [four])) []
  have hlen : W.length = 4 := by rw [hW.perm.length_eq]; rfl
  have h1 := h .unboundedPreceding .unboundedFollowing ⟨by simp, by simp⟩ (by intro x y hx; cases hx) false .ignore 0 _
    (List.getElem?_eq_getElem (by omega))
  rw [C205_null S (toText other) [] (four .null) hg ⟨_, by simp [four]; rfl, rfl⟩] at h1
  obtain ⟨us, _, he⟩ := h1 (by simp [candidates])
  cases he

/-! ## C206: ANY_VALUE over a frame -/

/-- ANY_VALUE of the values `vs` of a frame: one that is not NULL, or NULL if there is none. -/
def AnySpec (vs : List Val) (out : Res Val) : Prop :=
  ∃ v, out = .ok v ∧ ((v ∈ vs ∧ v.isNull = false) ∨ (v = .null ∧ ∀ w ∈ vs, w.isNull = true))

/-- **C206** in full: every ROWS frame. -/
def C206_full (S : Sorter) (text : Val → Res (List Char)) : Prop :=
  ∀ flags rows, GoodParts text rows → GoodKeys flags rows → ∀ p, ∃ W, WindowOrder flags rows p W ∧
    ∀ (b e : Boundary), Grammatical b e → ∀ (i j : Nat), W[i]? = some j →
      AnySpec (vals rows W b e i) (winAny S text .rows b e (input flags rows) ((j : Int) + 1))

/-- The value at the start of a frame that is not empty. -/
theorem winAny_head {S : Sorter} {text u b e rows rowId v vs} (h : frameValues S text u b e rows rowId = .ok (v :: vs)) :
    winAny S text u b e rows rowId = .ok v := by
  unfold frameValues frame at h
  unfold winAny
  cases hd : done S text u b e rows rowId with
  | err => rw [hd] at h; cases h
  | panic => rw [hd] at h; cases h
  | ok o =>
    rw [hd] at h
    cases o with
    | none => simp [Res.bind] at h
    | some t =>
      obtain ⟨sorted, start, stop⟩ := t
      simp only [Res.bind'_ok] at h ⊢
      unfold slice at h
      split at h
      · cases h
      · simp only [Res.bind'_ok, Res.ok.injEq] at h
        have h0 : ((sorted.drop start.toNat).take (stop + 1 - start).toNat)[0]?.map (fun q => q.2.value) = some v := by
          rw [← List.getElem?_map, h]; rfl
        rw [List.getElem?_take] at h0
        split at h0
        · rw [List.getElem?_drop, Nat.add_zero] at h0
          cases hq : sorted[start.toNat]? with
          | none => rw [hq] at h0; cases h0
          | some q => rw [hq] at h0; simpa using h0
        · cases h0

theorem ordered_of_frame {W : List Nat} {b e : Boundary} {i : Nat} (h : rowsFrame W b e i ≠ []) : Ordered b e := by
  unfold rowsFrame at h
  obtain ⟨j, hj⟩ := List.exists_mem_of_ne_nil _ h
  simp only [List.mem_map, List.mem_filter, decide_eq_true_eq] at hj
  obtain ⟨q, ⟨_, hl, hu⟩, _⟩ := hj
  intro x y hx hy
  cases b <;> cases e <;> simp only [offset, Option.some.injEq, reduceCtorEq] at hx hy <;> simp only [lowerOk, upperOk] at hl hu <;> omega

/-- **C206**, the part that holds: over a frame with rows, the value of the first one, which is right exactly if it
is not NULL or all are. -/
theorem C206_partial (S : Sorter) (text : Val → Res (List Char)) (flags : List Bool) (rows : List SRow)
    (hg : GoodParts text rows) (hk : GoodKeys flags rows) (p : List (Option Scalar)) :
    ∃ W, WindowOrder flags rows p W ∧ ∀ (b e : Boundary), Grammatical b e → ∀ (i j : Nat), W[i]? = some j →
      ∀ v vs, vals rows W b e i = v :: vs →
        winAny S text .rows b e (input flags rows) ((j : Int) + 1) = .ok v ∧
        (AnySpec (v :: vs) (winAny S text .rows b e (input flags rows) ((j : Int) + 1)) ↔
          (v.isNull = true → ∀ w ∈ vs, w.isNull = true)) := by
  have hW := windowOrder_ok S hk p
  refine ⟨windowOrder S flags rows p, hW, ?_⟩
  intro b e hge i j h v vs hv
  obtain ⟨r, hr, rfl⟩ := mem_windowOrder.mp (List.mem_of_getElem? h)
  have ho : Ordered b e := ordered_of_frame (W := windowOrder S flags rows r.parts) (i := i) (by
    intro h0; unfold vals at hv; rw [h0] at hv; cases hv)
  have hf := rows_frame hg hr h hge ho
  rw [← vals, hv] at hf
  have hval := winAny_head hf
  refine ⟨hval, ?_⟩
  rw [hval]
  constructor
  · rintro ⟨w, hw, h1 | h1⟩ hn
    · injection hw with hw; subst hw; rw [h1.2] at hn; cases hn
    · exact fun x hx => h1.2 x (List.mem_cons_of_mem _ hx)
  · intro h1
    refine ⟨v, rfl, ?_⟩
    cases hn : v.isNull
    · exact .inl ⟨List.mem_cons_self, rfl⟩
    · refine .inr ⟨by cases v <;> first | rfl | simp [Val.isNull] at hn, fun w hw => ?_⟩
      rcases List.mem_cons.mp hw with rfl | hw
      · exact hn
      · exact h1 hn w hw

/-- **C206**, the part that holds: a frame that lies behind or before the partition has no rows and gives NULL. -/
theorem C206_outside_partial (S : Sorter) (text : Val → Res (List Char)) (flags : List Bool) (rows : List SRow)
    (hg : GoodParts text rows) (hk : GoodKeys flags rows) (p : List (Option Scalar)) :
    ∃ W, WindowOrder flags rows p W ∧ ∀ (b e : Boundary), Grammatical b e → ∀ (i j : Nat), W[i]? = some j →
      ((∃ x, offset b = some x ∧ (W.length : Int) ≤ i + x) ∨ (∃ y, offset e = some y ∧ (i : Int) + y < 0)) →
        vals rows W b e i = [] ∧ winAny S text .rows b e (input flags rows) ((j : Int) + 1) = .ok .null := by
  have hW := windowOrder_ok S hk p
  refine ⟨windowOrder S flags rows p, hW, ?_⟩
  intro b e hge i j h ho
  obtain ⟨r, hr, rfl⟩ := mem_windowOrder.mp (List.mem_of_getElem? h)
  have hcur := currentIndex_eq h
  have hlen : (windowOrder S flags rows r.parts).length = (sortedRows S flags rows r.parts).length := by simp [windowOrder]
  have hidx : ∀ b : Boundary, ∀ x, offset b = some x →
      boundaryIndex .rows (sortedRows S flags rows r.parts) j (r.row flags) b = .ok (i + x) := by
    intro b x hx
    cases b <;> simp only [offset, Option.some.injEq, reduceCtorEq] at hx <;> subst hx <;>
      simp [boundaryIndex, rowsIndex, hcur] <;> omega
  have hany : ∀ b : Boundary, ∃ s, boundaryIndex .rows (sortedRows S flags rows r.parts) j (r.row flags) b = .ok s := by
    intro b
    cases b <;> simp [boundaryIndex, rowsIndex, hcur]
  constructor
  · unfold vals rowsFrame
    rw [List.map_map, List.map_eq_nil_iff, List.filter_eq_nil_iff]
    rintro ⟨x, n⟩ hn
    have hn' := (List.getElem?_eq_some_iff.mp (List.mem_zipIdx_iff_getElem?.mp hn)).1
    simp only at hn'
    rw [decide_eq_true_eq]
    rintro ⟨hl, hu⟩
    rcases ho with ⟨x, hx, hx'⟩ | ⟨y, hy, hy'⟩
    · cases b <;> simp only [offset, Option.some.injEq, reduceCtorEq] at hx <;> simp only [lowerOk] at hl <;> omega
    · cases e <;> simp only [offset, Option.some.injEq, reduceCtorEq] at hy <;> simp only [upperOk] at hu <;> omega
  · unfold winAny
    rw [done_eq hg hr]
    obtain ⟨s, hs⟩ := hany b
    obtain ⟨t, ht⟩ := hany e
    rw [hs, ht]
    simp only [Res.bind'_ok]
    rw [if_pos, Res.bind'_ok]
    rcases ho with ⟨x, hx, hx'⟩ | ⟨y, hy, hy'⟩
    · left
      rw [hidx b x hx] at hs
      cases hs
      omega
    · right
      rw [hidx e y hy] at ht
      cases ht
      omega

/-- Over an empty frame a value from outside of it: ROWS BETWEEN 1 PRECEDING AND 3 PRECEDING at the last of four rows. -/
theorem C206_full_false (S : Sorter) (text : Val → Res (List Char)) : ¬ C206_full S text := by
  intro h
  obtain ⟨hg, hk⟩ := four_good text (.int 7)
  obtain ⟨W, hW, h⟩ := h [] (four (.int 7)) hg hk []
  obtain ⟨i, j, hi, h0, hl, h1⟩ := four_done S text (.int 7) W hW
  obtain ⟨v, hv, h2⟩ := h (.preceding 1) (.preceding 3) ⟨by simp, by simp⟩ i j hi
  unfold vals at h2
  rw [h0] at h2
  simp only [List.map_nil, List.not_mem_nil, false_and, false_or] at h2
  obtain ⟨rfl, _⟩ := h2
  unfold winAny at hv
  rw [h1, Res.bind'_ok] at hv
  obtain ⟨q, hq⟩ : ∃ q, (sortedRows S [] (four (.int 7)) [])[2]? = some q := ⟨_, List.getElem?_eq_getElem (by omega)⟩
  obtain ⟨r, h3, h4, _⟩ := sortedRows_get hq
  have hr : r ∈ four (.int 7) := List.mem_of_getElem? h3
  simp only [show (2 : Int).toNat = 2 from rfl, hq, h4] at hv
  simp only [four, List.mem_cons, List.not_mem_nil, or_false, or_self] at hr
  subst hr
  cases hv

/-- A NULL in the first row of the frame: NULL although there is a 5. -/
example : ¬ AnySpec [.null, .int 5] (.ok .null) := by
  rintro ⟨v, hv, h | h⟩
  · injection hv with hv; subst hv; simp at h
  · simpa [Val.isNull] using h.2 (.int 5) (by simp)

end Verif.WindowAgg
