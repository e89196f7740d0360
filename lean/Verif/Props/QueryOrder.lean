import Verif.Props.QuerySets

/-!
# Queries: what ORDER BY, LIMIT, GROUP BY, set operations and joins yield

Direct statements about the rows of the translated text, without the evaluation of scans by `evalS` but for the inputs.
-/

namespace Verif.Query

set_option linter.unusedSectionVars false

section
variable {V : Type} [DecidableEq V]

/-- The rows of a right scan have a value for each of its columns. -/
theorem rows_len {S : Sem V} {db : Db V} {s : Scan} (hids : ((intS s).map (·.id)).Nodup) (hs : scopedS (fun _ => none) s)
    (hok : okS uid (fun _ => none) s) {L : List (List V)} (he : evalS S db (fun _ => none) (fun _ => none) s = some L) :
    ∀ a ∈ L, a.length = s.cols.length := by
  obtain ⟨t, ht⟩ := hasS uid _ s hs
  obtain ⟨N, hN⟩ := soundS S db uid starred_uid s (fun _ => none) t ht hok
  exact (hN N (Nat.le_refl _) (fun _ => none) (fun _ => none) (fun _ => none) (fun _ => none)
    ⟨fun n r h => by simp at h, fun t h => rfl, fun c v h => by simp at h, fun d h => by simp at h, ids_dist hids⟩ L he).len

/-! ### Comparing rows -/

/-- The order of values is a total preorder. -/
structure Total (cmp : V → V → Ordering) : Prop where
  swap : ∀ a b, cmp a b = (cmp b a).swap
  trans : ∀ a b c, cmp a b ≠ .gt → cmp b c ≠ .gt → cmp a c ≠ .gt

/-- Does the item put NULLs first? -/
def OrdItem.wantsNullsFirst (i : OrdItem) : Prop := i.nulls = .first ∨ (i.nulls = .unspecified ∧ i.desc = false)

/-- ORDER BY item `i` puts the value `a` before `b`. -/
def itemLt (S : Sem V) (i : OrdItem) (a b : V) : Prop :=
  (a = S.null ∧ b ≠ S.null ∧ i.wantsNullsFirst) ∨ (a ≠ S.null ∧ b = S.null ∧ ¬ i.wantsNullsFirst) ∨
    (a ≠ S.null ∧ b ≠ S.null ∧ ((i.desc = false ∧ S.cmp a b = .lt) ∨ (i.desc = true ∧ S.cmp b a = .lt)))

/-- ORDER BY item `i` does not tell the values apart. -/
def itemTie (S : Sem V) (i : OrdItem) (a b : V) : Prop :=
  (a = S.null ∧ b = S.null) ∨ (a ≠ S.null ∧ b ≠ S.null ∧ ((i.desc = false ∧ S.cmp a b = .eq) ∨ (i.desc = true ∧ S.cmp b a = .eq)))

/-- The items allow a row with the values `a` of the columns before one with the values `b`. -/
def InOrder (S : Sem V) : List OrdItem → (Col → Option V) → (Col → Option V) → Prop
  | [], _, _ => True
  | i :: is, a, b => ∃ x y, a i.col = some x ∧ b i.col = some y ∧ (itemLt S i x y ∨ (itemTie S i x y ∧ InOrder S is a b))

theorem cmpItem_lt (S : Sem V) (i : OrdItem) (a b : V) : cmpItem S i a b = .lt ↔ itemLt S i a b := by
  unfold cmpItem itemLt OrdItem.wantsNullsFirst OrdItem.nullsFirst
  by_cases ha : a = S.null <;> by_cases hb : b = S.null <;> cases hn : i.nulls <;> cases hd : i.desc <;> simp [ha, hb]

theorem cmpItem_eq (S : Sem V) (i : OrdItem) (a b : V) : cmpItem S i a b = .eq ↔ itemTie S i a b := by
  unfold cmpItem itemTie OrdItem.nullsFirst
  by_cases ha : a = S.null <;> by_cases hb : b = S.null <;> cases hn : i.nulls <;> cases hd : i.desc <;> simp [ha, hb]

theorem Total.item {S : Sem V} (h : Total S.cmp) (i : OrdItem) : Total (cmpItem S i) := by
  constructor
  · intro a b
    have h1 := h.swap a b
    have h2 := h.swap b a
    unfold cmpItem OrdItem.nullsFirst
    by_cases ha : a = S.null <;> by_cases hb : b = S.null <;> cases hn : i.nulls <;> cases hd : i.desc <;>
      simp [ha, hb, Ordering.swap] <;> first | exact h1 | exact h2
  · intro a b c
    have h1 := h.trans a b c
    have h2 := h.trans c b a
    unfold cmpItem OrdItem.nullsFirst
    by_cases ha : a = S.null <;> by_cases hb : b = S.null <;> by_cases hc : c = S.null <;> cases hn : i.nulls <;> cases hd : i.desc <;>
      simp [ha, hb, hc] <;> first | exact h1 | exact fun x y => h2 y x

/-- The order of rows by the items; a missing value counts as NULL. -/
def cmpRow (S : Sem V) : List OrdItem → (Col → Option V) → (Col → Option V) → Ordering
  | [], _, _ => .eq
  | i :: is, a, b => (cmpItem S i ((a i.col).getD S.null) ((b i.col).getD S.null)).then (cmpRow S is a b)

theorem cmpRow_swap {S : Sem V} (h : Total S.cmp) : ∀ (is : List OrdItem) (a b : Col → Option V),
    cmpRow S is a b = (cmpRow S is b a).swap
  | [], _, _ => rfl
  | i :: is, a, b => by
    simp only [cmpRow]
    rw [cmpRow_swap h is a b, (h.item i).swap]
    cases cmpItem S i ((b i.col).getD S.null) ((a i.col).getD S.null) <;> rfl

theorem cmpRow_trans {S : Sem V} (h : Total S.cmp) : ∀ (is : List OrdItem) (a b c : Col → Option V),
    cmpRow S is a b ≠ .gt → cmpRow S is b c ≠ .gt → cmpRow S is a c ≠ .gt
  | [], _, _, _, _, _ => by simp [cmpRow]
  | i :: is, a, b, c, h1, h2 => by
    simp only [cmpRow] at *
    generalize (a i.col).getD S.null = x at *
    generalize (b i.col).getD S.null = y at *
    generalize (c i.col).getD S.null = z at *
    have ih := cmpRow_trans h is a b c
    have hi := h.item i
    have t1 := hi.trans x y z
    have t2 := hi.trans z x y
    have t3 := hi.trans y z x
    have s1 := hi.swap x y
    have s2 := hi.swap y z
    have s3 := hi.swap x z
    generalize cmpRow S is a b = p at *
    generalize cmpRow S is b c = q at *
    generalize cmpRow S is a c = r at *
    rw [s1] at h1 t1
    rw [s2] at h2 t1
    rw [s3] at t1 ⊢
    rw [s1] at t2
    rw [s2] at t3
    generalize cmpItem S i y x = u at *
    generalize cmpItem S i z y = v at *
    generalize cmpItem S i z x = w at *
    rw [hi.swap x z] at *
    cases u <;> cases v <;> cases w <;> simp_all [Ordering.swap, Ordering.then]

theorem cmpRow_inOrder {S : Sem V} : ∀ (is : List OrdItem) (a b : Col → Option V), (∀ i ∈ is, (a i.col).isSome) →
    (∀ i ∈ is, (b i.col).isSome) → (cmpRow S is a b ≠ .gt ↔ InOrder S is a b)
  | [], _, _, _, _ => by simp [cmpRow, InOrder]
  | i :: is, a, b, ha, hb => by
    obtain ⟨x, hx⟩ := Option.isSome_iff_exists.1 (ha i (List.mem_cons_self ..))
    obtain ⟨y, hy⟩ := Option.isSome_iff_exists.1 (hb i (List.mem_cons_self ..))
    have ih := cmpRow_inOrder (S := S) is a b (fun j hj => ha j (List.mem_cons_of_mem _ hj)) fun j hj => hb j (List.mem_cons_of_mem _ hj)
    simp only [cmpRow, InOrder, hx, hy, Option.getD_some, Option.some.injEq, exists_eq_left', exists_and_left]
    rw [← ih, ← cmpItem_lt, ← cmpItem_eq]
    cases cmpItem S i x y <;> simp [Ordering.then]

/-- The value of a column in a row. -/
def valOf (S : Sem V) (h : List Col) (a : List V) (c : Col) : V := (lk h a c).getD S.null

theorem lk_valOf {S : Sem V} {h : List Col} {a : List V} (hl : a.length = h.length) {c : Col} (hc : c ∈ h) :
    lk h a c = some (valOf S h a c) := by
  obtain ⟨v, hv⟩ := lk_isSome hl hc
  simp [valOf, hv]

theorem pick_valOf {S : Sem V} {h : List Col} {a : List V} (hl : a.length = h.length) : ∀ {cs : List Col}, (∀ c ∈ cs, c ∈ h) →
    pick h a cs = some (cs.map (valOf S h a))
  | [], _ => rfl
  | c :: cs, hc => mapO_cons' (lk_valOf hl (hc c (List.mem_cons_self ..)))
      (pick_valOf hl fun d hd => hc d (List.mem_cons_of_mem _ hd))

theorem mapO_some_map {α β : Type} {f : α → Option β} {g : α → β} : ∀ {l : List α}, (∀ a ∈ l, f a = some (g a)) → mapO f l = some (l.map g)
  | [], _ => rfl
  | a :: l, h => mapO_cons' (h a (List.mem_cons_self ..)) (mapO_some_map fun b hb => h b (List.mem_cons_of_mem _ hb))

theorem valOf_map {S : Sem V} {cols : List Col} (f : Col → V) {c : Col} (hc : c ∈ cols) : valOf S cols (cols.map f) c = f c := by
  induction cols with
  | nil => simp at hc
  | cons d ds ih =>
    simp only [valOf, List.map_cons, lk] at ih ⊢
    by_cases h : d = c
    · simp [h]
    · simp only [h, if_false]
      exact ih ((List.mem_cons.1 hc).resolve_left fun e => h e.symm)

theorem cmpItems_row {S : Sem V} {h : List Col} {a b : List V} : ∀ (is : List OrdItem),
    cmpItems S is (is.map fun i => valOf S h a i.col) (is.map fun i => valOf S h b i.col) = cmpRow S is (lk h a) (lk h b)
  | [] => rfl
  | i :: is => by
    simp only [List.map_cons, cmpItems, cmpRow, cmpItems_row is]
    rfl

/-- The rows of a scan in the order of the items. -/
theorem order_rows {S : Sem V} (hS : Total S.cmp) {db : Db V} {w : WEnv V} {env : Env V} {s : Scan} {items : List OrdItem} {cols : List Col} {L : List (List V)}
    (he : evalS S db w env s = some L) (hl : ∀ a ∈ L, a.length = s.cols.length)
    (hc : ∀ c ∈ cols, c ∈ s.cols) (hi : ∀ i ∈ items, i.col ∈ s.cols) :
    ∃ L' : List (List V), L'.Perm L ∧ L'.Pairwise (fun a b => InOrder S items (lk s.cols a) (lk s.cols b)) ∧
      evalS S db w env (.order s items cols) = some (L'.map fun a => cols.map (valOf S s.cols a)) := by
  let le := fun a b : List V => cmpRow S items (lk s.cols a) (lk s.cols b) != .gt
  have hp : (L.mergeSort le).Perm L := List.mergeSort_perm L le
  refine ⟨L.mergeSort le, hp, ?_, ?_⟩
  · have h1 : (L.mergeSort le).Pairwise fun a b => le a b = true := List.pairwise_mergeSort
      (fun a b c h1 h2 => by
        simp only [le, bne_iff_ne] at *
        exact cmpRow_trans hS items _ _ _ h1 h2)
      (fun a b => by
        simp only [le]
        rw [cmpRow_swap hS items (lk s.cols a)]
        cases cmpRow S items (lk s.cols b) (lk s.cols a) <;> decide) L
    refine h1.imp_of_mem fun {a b} ha hb h => ?_
    refine (cmpRow_inOrder items _ _ (fun i hi' => ?_) fun i hi' => ?_).1 (by simpa [le] using h)
    · exact Option.isSome_iff_exists.2 (lk_isSome (hl a (hp.mem_iff.1 ha)) (hi i hi'))
    · exact Option.isSome_iff_exists.2 (lk_isSome (hl b (hp.mem_iff.1 hb)) (hi i hi'))
  · simp only [evalS, he]
    rw [mapO_some_map (g := fun a => (items.map fun i => valOf S s.cols a i.col, cols.map (valOf S s.cols a))) fun a ha => by
      rw [pick_valOf (S := S) (hl a ha) (cs := items.map (·.col)) (by simpa using hi), pick_valOf (S := S) (hl a ha) hc]
      simp [Function.comp_def]]
    simp only [sortBy]
    rw [← List.map_mergeSort (r := le) (f := fun a => (items.map fun i => valOf S s.cols a i.col, cols.map (valOf S s.cols a)))
      (fun a _ b _ => by simp only [le, cmpItems_row]), List.map_map]
    rfl

end

/-! ### C144: ORDER BY -/

/-- C144: ORDER BY yields the rows of its input, each once, in an order which the items allow: ascending or descending, NULLs
first or last as asked for, and else first in ascending and last in descending order; the first item that tells two rows apart
decides. -/
theorem C144 {V : Type} [DecidableEq V] (S : Sem V) (hS : Total S.cmp) (db : Db V) (out : List (Col × List Char)) (s : Scan)
    (items : List OrdItem) (cols : List Col) (L : List (List V)) (hr : Resolved (.order s items cols))
    (hok : okS uid (fun _ => none) (.order s items cols)) (hout : out ≠ []) (hsub : ∀ x ∈ out, x.1 ∈ cols)
    (he : evalS S db (fun _ => none) (fun _ => none) s = some L) :
    ∃ (t : List Tok) (L' : List (List V)), fmtQuery out (.order s items cols) = some t ∧ L'.Perm L ∧
      L'.Pairwise (fun a b => InOrder S items (lk s.cols a) (lk s.cols b)) ∧
      Yields S db t (out.map fun x => .raw x.2, L'.map fun a => out.map fun x => valOf S s.cols a x.1) := by
  have hok' := hok
  unfold okS at hok'
  obtain ⟨hoks, _, _, hc, hi⟩ := hok'
  have hl := rows_len (S := S) (db := db) (s := s) hr.ids hr.inScope hoks he
  obtain ⟨L', h1, h2, h3⟩ := order_rows hS he hl hc hi
  obtain ⟨t, h4, h5⟩ := C134_partial _ hr hok V inferInstance S db out _ (L'.map fun a => out.map fun x => valOf S s.cols a x.1) hout h3 (by
    have : L'.map (fun a => out.map fun x => valOf S s.cols a x.1) =
        (L'.map fun a => cols.map (valOf S s.cols a)).map fun r => (out.map (·.1)).map (valOf S cols r) := by
      rw [List.map_map]
      refine List.map_congr_left fun a _ => ?_
      rw [Function.comp, List.map_map]
      exact List.map_congr_left fun x hx => (valOf_map _ (hsub x hx)).symm
    rw [this]
    refine mapO_some_map fun r hr => pick_valOf ?_ (by simpa [Scan.cols] using hsub)
    obtain ⟨a, _, rfl⟩ := List.mem_map.1 hr
    simp [Scan.cols])
  exact ⟨t, L', h4, h1, h2, h5⟩

/-- With NULLS LAST at the first item, no row with NULL there comes before one without. -/
theorem C144_nulls {V : Type} [DecidableEq V] (S : Sem V) (items : List OrdItem) (i : OrdItem) (hi : ¬ i.wantsNullsFirst) (a b : Col → Option V)
    (ha : a i.col = some S.null) (h : InOrder S (i :: items) a b) : b i.col = some S.null := by
  obtain ⟨x, y, hx, hy, h⟩ := h
  rw [ha] at hx
  cases hx
  rw [hy]
  rcases h with (h | h | h) | ⟨h | h, _⟩ <;> simp_all

theorem total_S0 : Total S0.cmp := by
  have hle : ∀ o : Ordering, o ≠ .gt ↔ o.isLE = true := by intro o; cases o <;> simp
  constructor
  · intro a b
    exact Std.OrientedCmp.eq_swap (cmp := (compare : Int → Int → Ordering))
  · intro a b c h1 h2
    exact (hle _).2 (Std.TransCmp.isLE_trans (cmp := (compare : Int → Int → Ordering)) ((hle _).1 h1) ((hle _).1 h2))

/-- `SELECT a FROM t ORDER BY a DESC NULLS FIRST` meets the hypotheses. -/
example : ∃ (t : List Tok) (L' : List (List (Option Int))), fmtQuery [(ca, ['a'])] (.order (pr T [ca]) [⟨ca, true, .first⟩] [ca]) = some t ∧
    L'.Perm [[some 1], [some 2], [some 3]] ∧
    L'.Pairwise (fun a b => InOrder S0 [⟨ca, true, .first⟩] (lk [ca] a) (lk [ca] b)) ∧
    Yields S0 db0 t ([.raw ['a']], L'.map fun a => [valOf S0 [ca] a ca]) :=
  C144 S0 total_S0 db0 [(ca, ['a'])] (pr T [ca]) _ _ _ ⟨by decide, by simp [pr, T, scopedS, scopedCs], rfl⟩
    (by simp [pr, T, okS, okCs, Scan.cols]) (by simp) (by simp) (by decide +kernel)

end Verif.Query
