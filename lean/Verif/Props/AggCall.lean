import Verif.Model.AggCall
import Verif.Props.NullKeys

/-!
# C247: HAVING MAX and HAVING MIN; C248: NULLS FIRST and NULLS LAST in aggregates; C249: ARRAY_CONCAT_AGG
-/

namespace Verif.AggCall

open Go Verif.Val Verif.Aggregate Verif.Sql
open Verif.OrderBy (Before Before_irrefl Before_trans Before_total)

theorem bind_bind {α β γ : Type} (r : Res α) (f : α → Res β) (g : β → Res γ) : (r.bind f).bind g = r.bind fun a => (f a).bind g := by
  cases r <;> rfl

/-- Without DISTINCT and IGNORE NULLS the function is given all rows. -/
theorem feed_plain {σ : Type} (text : Val → Res (List Char)) (inner : σ → List Val → AggOpt → Res σ) :
    ∀ (rows : List (List Val × AggOpt)) (st : DState σ), (∀ r ∈ rows, r.2.distinct = false ∧ r.2.ignoreNulls = false) →
    feed (aggStep text inner) st rows = (feed (fun s r => inner s r.1 r.2) st.inner rows).bind fun s => .ok { st with inner := s }
  | [], _, _ => rfl
  | r :: rows, st, h => by
    have hs : aggStep text inner st r = (inner st.inner r.1 r.2).bind fun s => .ok { st with inner := s } := by
      have := h r (List.mem_cons_self ..)
      simp [aggStep, this.1, this.2]
    simp only [feed, hs]
    cases hi : inner st.inner r.1 r.2 with
    | ok s => exact feed_plain text inner rows { st with inner := s } fun r hr => h r (List.mem_cons_of_mem _ hr)
    | err => rfl
    | panic => rfl

theorem arg_flags (ratText : Rat → List Char) (c : Call) (r : GRow) :
    (arg ratText c r).2.distinct = c.distinct ∧ (arg ratText c r).2.ignoreNulls = decide (c.nulls = .ignore) ∧
    (arg ratText c r).2.limit = c.limit ∧
    (arg ratText c r).2.orderBy = List.zipWith (fun (i : OrderBy.Item) k => ⟨jsonKey ratText k, !i.desc⟩) c.orderBy r.keys := by
  have hk : ∀ (is : List OrderBy.Item) (ks : List Val) (o : AggOpt),
      (List.zipWith (fun (i : OrderBy.Item) k => OptArg.orderBy ⟨jsonKey ratText k, !i.desc⟩) is ks).foldl AggOpt.set o =
        { o with orderBy := o.orderBy ++ List.zipWith (fun (i : OrderBy.Item) k => ⟨jsonKey ratText k, !i.desc⟩) is ks } := by
    intro is
    induction is with
    | nil => intro ks o; simp
    | cons i is ih =>
      intro ks o
      cases ks with
      | nil => simp
      | cons k ks => simp only [List.zipWith_cons_cons, List.foldl_cons]; rw [ih]; simp [AggOpt.set]
  simp only [arg, options, List.foldl_append, hk]
  cases c.distinct <;> cases c.limit <;> cases c.nulls <;> simp [AggOpt.set]

/-! ### C247 -/

/-- A row of `f(x HAVING MAX y)`. -/
structure HRow where
  value : Val
  y : Option Int

def HRow.row (r : HRow) : GRow := ⟨[r.value], [], r.y⟩

/-- The rows HAVING MAX (or MIN) keeps: those whose `y` is not NULL and not exceeded by another. -/
def chosen (e : Extreme) (rows : List HRow) (r : HRow) : Bool :=
  match r.y with
  | none => false
  | some y => rows.all fun s => match s.y with
    | none => true
    | some z => match e with
      | .max => decide (z ≤ y)
      | .min => decide (y ≤ z)

/-- Full C247: an aggregate with HAVING MAX or MIN is the aggregate of the rows this keeps. -/
def C247_full : Prop :=
  ∀ (ratText : Rat → List Char) (text : Val → Res (List Char)) (f : Fn) (e : Extreme) (rows : List HRow),
    call ratText text f { having := some e } (rows.map HRow.row) = call ratText text f {} ((rows.filter (chosen e rows)).map HRow.row)

theorem call_plain (ratText : Rat → List Char) (text : Val → Res (List Char)) (f : Fn) (h : Option Extreme) (rows : List HRow) :
    call ratText text f { having := h } (rows.map HRow.row) = run f (rows.map HRow.value) := by
  unfold call run
  rw [feed_plain _ _ _ _ (by
    intro r hr
    simp only [List.mem_map] at hr
    obtain ⟨a, _, rfl⟩ := hr
    have := arg_flags ratText { having := h } a
    exact ⟨this.1, this.2.1⟩)]
  rw [bind_bind]
  have : ∀ (rows : List HRow) (s : Val), feed (fun s (r : List Val × AggOpt) => one f s r.1 r.2) s
      ((rows.map HRow.row).map (arg ratText { having := h })) = feed (step f) s (rows.map HRow.value) := by
    intro rows
    induction rows with
    | nil => intro s; rfl
    | cons r rows ih =>
      intro s
      simp only [List.map_cons, feed]
      show (step f s r.value).bind _ = _
      congr 1
      funext s'
      exact ih s'
  rw [this]
  rfl

/-- **C247** HAVING MAX and MIN are ignored: the result is right if every row they would leave out has a NULL argument, in
particular if all rows have the same `y`. -/
theorem C247_partial (ratText : Rat → List Char) (text : Val → Res (List Char)) (f : Fn) (e : Extreme) (rows : List HRow)
    (h : ∀ r ∈ rows, r.value.isNull = false → chosen e rows r = true) :
    call ratText text f { having := some e } (rows.map HRow.row) =
      call ratText text f {} ((rows.filter (chosen e rows)).map HRow.row) := by
  rw [call_plain, call_plain, run_filter, run_filter f (List.map _ (List.filter _ _))]
  congr 1
  rw [List.filter_map, List.filter_map, List.filter_filter]
  congr 1
  apply List.filter_congr
  intro r hr
  simp only [Function.comp]
  cases hn : r.value.isNull
  · simp [h r hr hn]
  · simp

theorem countP_and {α : Type} (p q : α → Bool) : ∀ (xs : List α),
    xs.countP (fun a => p a && q a) ≤ xs.countP p ∧ (xs.countP p = xs.countP (fun a => p a && q a) ↔ ∀ a ∈ xs, p a = true → q a = true)
  | [] => by simp
  | a :: xs => by
    obtain ⟨ih1, ih2⟩ := countP_and p q xs
    simp only [List.countP_cons, List.mem_cons, forall_eq_or_imp, ← ih2]
    cases hp : p a <;> cases hq : q a <;> simp_all <;> omega

/-- **C247** of COUNT exactly then. -/
theorem C247_count (ratText : Rat → List Char) (text : Val → Res (List Char)) (e : Extreme) (rows : List HRow)
    (hl : rows.length < 9223372036854775808) :
    call ratText text .count { having := some e } (rows.map HRow.row) =
      call ratText text .count {} ((rows.filter (chosen e rows)).map HRow.row) ↔
    ∀ r ∈ rows, r.value.isNull = false → chosen e rows r = true := by
  have hf : (rows.filter (chosen e rows)).length ≤ rows.length := List.length_filter_le _ _
  rw [call_plain, call_plain, C34_count _ (by simpa using hl), C34_count _ (by rw [List.length_map]; omega)]
  rw [List.countP_map, List.countP_map, List.countP_filter]
  have := (countP_and (fun r : HRow => !r.value.isNull) (chosen e rows) rows).2
  simp only [Res.ok.injEq, Val.int.injEq, Function.comp_def] at this ⊢
  rw [Int.ofNat_inj, this]
  simp

/-- Two rows: x = 5 with y = 1 and x = 7 with y = 2. -/
def twoRows : List HRow := [⟨.int 5, some 1⟩, ⟨.int 7, some 2⟩]

/-- ANY_VALUE(x HAVING MAX y) is 5 and SUM(x HAVING MAX y) is 12; right is 7. -/
theorem C247_wrong (ratText : Rat → List Char) (text : Val → Res (List Char)) :
    call ratText text .anyValue { having := some .max } (twoRows.map HRow.row) = .ok (.int 5) ∧
    call ratText text .sum { having := some .max } (twoRows.map HRow.row) = .ok (.int 12) ∧
    call ratText text .anyValue {} ((twoRows.filter (chosen .max twoRows)).map HRow.row) = .ok (.int 7) ∧
    call ratText text .sum {} ((twoRows.filter (chosen .max twoRows)).map HRow.row) = .ok (.int 7) := by
  rw [call_plain, call_plain, call_plain, call_plain]
  exact ⟨rfl, rfl, rfl, rfl⟩

theorem C247_full_false : ¬ C247_full := by
  intro h
  have := h (fun _ => []) (fun _ => .err) .sum .max twoRows
  rw [(C247_wrong _ _).2.1, (C247_wrong _ _).2.2.2] at this
  simp at this

example : call (fun _ => []) (fun _ => .err) .max { having := some .min } ([⟨.int 5, some 1⟩, ⟨.null, some 2⟩].map HRow.row) =
    .ok (.int 5) := by rw [call_plain]; rfl

/-! ### C248 -/

/-- A row of ARRAY_AGG(v ORDER BY k). -/
def nrow (r : NRow) : GRow := ⟨[r.value], [ofScalar r.key], none⟩

/-- The rows of a call: no NULL is collected, the keys are of one type whose values can be compared. -/
structure Sortable (rows : List NRow) : Prop where
  value : ∀ r ∈ rows, r.value.isNull = false
  same : ∀ r ∈ rows, ∀ s ∈ rows, SameTyN r.key s.key
  safe : ∀ r ∈ rows, ∀ k, r.key = some k → SafeKey k

/-- The result is the array of the first rows in the order of the item. -/
def Ordered (item : OrderBy.Item) (limit : Option Nat) (rows : List NRow) (out : Res Val) : Prop :=
  ∃ sorted, List.Perm sorted rows ∧ sorted.Pairwise (fun a b => ¬ Before item b.key a.key) ∧
    out = .ok (.arr ((match limit with | none => sorted | some n => sorted.take n).map NRow.value))

/-- Full C248: ARRAY_AGG with ORDER BY and an order of NULLs collects the rows in this order. -/
def C248_full : Prop :=
  ∀ (ratText : Rat → List Char) (text : Val → Res (List Char)) (item : OrderBy.Item) (limit : Option Nat) (rows : List NRow) (out : Res Val),
    Sortable rows → ArrayCall ratText text { orderBy := [item], limit := limit.map Int.ofNat } (rows.map nrow) out →
    Ordered item limit rows out

theorem arg_nrow (ratText : Rat → List Char) (item : OrderBy.Item) (limit : Option Nat) (r : NRow) :
    arg ratText { orderBy := [item], limit := limit.map Int.ofNat } (nrow r) =
      ([(NRow.arg ratText (!item.desc) limit r).1], (NRow.arg ratText (!item.desc) limit r).2) := by
  cases limit <;> rfl

theorem arrayCall_iff (ratText : Rat → List Char) (text : Val → Res (List Char)) (item : OrderBy.Item) (limit : Option Nat)
    (rows : List NRow) (out : Res Val) :
    ArrayCall ratText text { orderBy := [item], limit := limit.map Int.ofNat } (rows.map nrow) out ↔
      ArrayAgg (rows.map (NRow.arg ratText (!item.desc) limit)) out := by
  unfold ArrayCall ArrayAgg
  rw [feed_plain _ _ _ _ (by
    intro r hr
    simp only [List.mem_map] at hr
    obtain ⟨a, _, rfl⟩ := hr
    have := arg_flags ratText { orderBy := [item], limit := limit.map Int.ofNat } a
    exact ⟨this.1, this.2.1⟩)]
  have : ∀ (rows : List NRow) (s : Collect), feed (fun s (r : List Val × AggOpt) => oneArray s r.1 r.2) s
      ((rows.map nrow).map (arg ratText { orderBy := [item], limit := limit.map Int.ofNat })) =
      feed arrayAggStep s (rows.map (NRow.arg ratText (!item.desc) limit)) := by
    intro rows
    induction rows with
    | nil => intro s; rfl
    | cons r rows ih =>
      intro s
      simp only [List.map_cons, feed, arg_nrow]
      show (arrayAggStep s (NRow.arg ratText (!item.desc) limit r)).bind _ = _
      congr 1
      funext s'
      exact ih s'
  rw [this]
  cases feed arrayAggStep {} (rows.map (NRow.arg ratText (!item.desc) limit)) <;> rfl

theorem before_last (n : OrderBy.NullOrder) (h : n ≠ .first) (x y : Option Scalar) : Before ⟨true, n⟩ x y ↔ Before ⟨true, .unspecified⟩ x y := by
  cases n <;> cases x <;> cases y <;> simp_all [Before]

/-- **C248** in descending order NULLs come last, as they should unless NULLS FIRST is asked for. -/
theorem C248_partial (ratText : Rat → List Char) (text : Val → Res (List Char)) (n : OrderBy.NullOrder) (hn : n ≠ .first)
    (limit : Option Nat) (rows : List NRow) (out : Res Val) (h : Sortable rows)
    (ho : ArrayCall ratText text { orderBy := [⟨true, n⟩], limit := limit.map Int.ofNat } (rows.map nrow) out) :
    Ordered ⟨true, n⟩ limit rows out := by
  rw [arrayCall_iff] at ho
  obtain ⟨s, h1, h2, h3⟩ := C37_null_desc ratText rows limit out h.value h.same h.safe ho
  exact ⟨s, h1, h2.imp fun hb hb' => hb ((before_last n hn _ _).1 hb'), h3⟩

/-- **C248** NULLS FIRST does not change this. -/
theorem C248_first (ratText : Rat → List Char) (text : Val → Res (List Char)) (limit : Option Nat) (rows : List NRow) (out : Res Val)
    (h : Sortable rows)
    (ho : ArrayCall ratText text { orderBy := [⟨true, .first⟩], limit := limit.map Int.ofNat } (rows.map nrow) out) :
    Ordered ⟨true, .last⟩ limit rows out := by
  rw [arrayCall_iff] at ho
  exact C248_partial ratText text .last (by decide) limit rows out h ((arrayCall_iff ..).2 ho)

/-- **C248** without NULL keys every order is right. -/
theorem C248_keys (ratText : Rat → List Char) (text : Val → Res (List Char)) (item : OrderBy.Item) (limit : Option Nat)
    (rows : List NRow) (out : Res Val) (h : Sortable rows) (hk : ∀ r ∈ rows, r.key ≠ none)
    (ho : ArrayCall ratText text { orderBy := [item], limit := limit.map Int.ofNat } (rows.map nrow) out) :
    Ordered item limit rows out := by
  rw [arrayCall_iff] at ho
  refine arrayAgg_order NRow.value (NRow.arg ratText (!item.desc) limit) (fun a b => Before item a.key b.key) rows limit out
    (fun r hr => ⟨rfl, h.value r hr⟩) (fun r hr => ⟨rfl, by simp [NRow.arg]⟩) ?_ ?_ ho
  · intro r _ a ha b hb
    simp only [NRow.arg, List.map_cons, List.map_nil]
    cases hka : a.key with
    | none => exact absurd hka (hk a ha)
    | some x => cases hkb : b.key with
      | none => exact absurd hkb (hk b hb)
      | some y =>
        have ax := jsonKey_safe (ratText := ratText) (h.safe a ha x hka)
        have ay := jsonKey_safe (ratText := ratText) (h.safe b hb y hkb)
        have ht := h.same a ha b hb
        rw [hka, hkb] at ht
        rw [less_iff (xs := [x]) (ys := [y]) (.cons ax .nil) (.cons ay .nil) ⟨ht, trivial⟩]
        obtain ⟨d, n⟩ := item
        cases d <;> simp [KeyLt, Before]
  · refine ⟨fun a _ => Before_irrefl _ _, fun a _ b _ c _ => Before_trans _, ?_⟩
    intro a ha b hb c hc hab
    rcases Before_total item (h.same a ha c hc) with h' | h' | h'
    · exact .inl h'
    · rw [h'] at hab; exact .inr hab
    · exact .inr (Before_trans _ h' hab)

/-- Two rows, one with a NULL key. -/
def nullRow : List NRow := [⟨.str ['a'], none⟩, ⟨.str ['b'], some (.int 1)⟩]

theorem nullRow_sortable : Sortable nullRow where
  value := by intro r hr; simp [nullRow] at hr; rcases hr with rfl | rfl <;> rfl
  same := by intro r hr s hs; simp [nullRow] at hr hs; rcases hr with rfl | rfl <;> rcases hs with rfl | rfl <;> simp [SameTyN, SameTy]
  safe := by intro r hr k hk; simp [nullRow] at hr; rcases hr with rfl | rfl <;> simp at hk; subst hk; simp [SafeKey]

/-- ARRAY_AGG(v ORDER BY k DESC NULLS FIRST) puts the row with the NULL key last. -/
theorem C248_wrong (ratText : Rat → List Char) (text : Val → Res (List Char)) (out : Res Val)
    (ho : ArrayCall ratText text { orderBy := [⟨true, .first⟩] } (nullRow.map nrow) out) : out = .ok (.arr [.str ['b'], .str ['a']]) := by
  obtain ⟨s, h1, h2, h3⟩ := C248_first ratText text none nullRow out nullRow_sortable ho
  rw [h3]
  have hl := h1.length_eq
  match s, hl with
  | [a, b], _ =>
    have hab := h1
    simp only [List.pairwise_cons, List.mem_singleton, forall_eq] at h2
    have ha : a ∈ nullRow := h1.mem_iff.1 (by simp)
    have hb : b ∈ nullRow := h1.mem_iff.1 (by simp)
    have h0 : (⟨.str ['a'], none⟩ : NRow) ∈ [a, b] := h1.mem_iff.2 (by simp [nullRow])
    have h1' : (⟨.str ['b'], some (.int 1)⟩ : NRow) ∈ [a, b] := h1.mem_iff.2 (by simp [nullRow])
    simp [nullRow] at ha hb h0 h1'
    rcases ha with rfl | rfl <;> rcases hb with rfl | rfl <;> simp_all [Before]

theorem exists_out : ∃ out, ArrayCall (fun _ => []) (fun _ => .err) { orderBy := [⟨true, .first⟩] } (nullRow.map nrow) out := by
  refine ⟨.ok (.arr [.str ['b'], .str ['a']]), (arrayCall_iff (fun _ => []) (fun _ => .err) ⟨true, .first⟩ none nullRow _).2 ?_⟩
  unfold ArrayAgg
  rw [arrayAgg_feed _ (by simp [nullRow, NRow.arg, Val.isNull])]
  refine ⟨[⟨[⟨.int 1, false⟩], .str ['b']⟩, ⟨[⟨.null, false⟩], .str ['a']⟩], ?_, ?_⟩
  · simp only [SortAggregated, nullRow, NRow.arg, List.map_cons, List.map_nil, List.head?_cons, Option.map_some,
        Option.isSome_none, Bool.false_eq_true, if_false, List.nil_append, ofScalar, jsonKey]
    refine ⟨List.Perm.swap .., fun _ => ?_⟩
    simp [lessOV, less, Val.isNull]
  · rfl

theorem C248_full_false : ¬ C248_full := by
  intro h
  obtain ⟨out, ho⟩ := exists_out
  obtain ⟨s, h1, h2, h3⟩ := h _ _ ⟨true, .first⟩ none nullRow out nullRow_sortable ho
  rw [C248_wrong _ _ _ ho] at h3
  have hl := h1.length_eq
  match s, hl with
  | [a, b], _ =>
    simp only [List.map_cons, List.map_nil, Res.ok.injEq, Val.arr.injEq, List.cons.injEq, and_true] at h3
    have ha : a ∈ nullRow := h1.mem_iff.1 (by simp)
    have hb : b ∈ nullRow := h1.mem_iff.1 (by simp)
    simp only [List.pairwise_cons, List.mem_singleton, forall_eq] at h2
    simp only [nullRow, List.mem_cons, List.not_mem_nil, or_false] at ha hb
    have h4 : Before ⟨true, .first⟩ b.key a.key := by
      rcases ha with rfl | rfl
      · simp at h3
      · rcases hb with rfl | rfl
        · simp [Before]
        · simp at h3
    exact h2.1 h4

/-! ### C249 -/

/-- A row of ARRAY_CONCAT_AGG(a ORDER BY …). -/
structure ARow where
  array : Option (List Val)
  keys : List Val

def ARow.row (r : ARow) : GRow := ⟨[match r.array with | none => .null | some es => .arr es], r.keys, none⟩

/-- Full C249: without modifiers ARRAY_CONCAT_AGG concatenates the arrays that are not NULL, and is NULL if there are none. -/
def C249_full : Prop :=
  ∀ (ratText : Rat → List Char) (text : Val → Res (List Char)) (rows : List (Option (List Val))) (out : Res Val),
    ConcatCall ratText text {} (rows.map fun a => (ARow.mk a []).row) out →
    out = if rows.all (·.isNone) then .ok .null else .ok (.arr (rows.filterMap id).flatten)

/-- The rows with arrays. -/
def present (rows : List ARow) : List ARow := rows.filter fun r => r.array.isSome

theorem feed_concat (ratText : Rat → List Char) (text : Val → Res (List Char)) (c : Call) (hd : c.distinct = false) :
    ∀ (rows : List ARow) (st : DState Collect),
    feed (aggStep text oneConcat) st ((rows.map ARow.row).map (arg ratText c)) =
      feed (aggStep text oneArray) st (((present rows).map ARow.row).map (arg ratText c))
  | [], _ => rfl
  | r :: rows, st => by
    have hf := arg_flags ratText c r.row
    rw [hd] at hf
    obtain ⟨h1, h2, _, _⟩ := hf
    cases ha : r.array with
    | none =>
      have hs : aggStep text oneConcat st (arg ratText c r.row) = .ok st := by
        have : (arg ratText c r.row).1 = [.null] := by simp [arg, ARow.row, ha]
        simp only [aggStep, h1, h2, this]
        by_cases hn : c.nulls = .ignore
        · simp [hn, Val.isNull]
        · simp [hn, oneConcat]
      have hp : present (r :: rows) = present rows := by simp [present, ha]
      rw [hp, List.map_cons, List.map_cons, feed, hs]
      exact feed_concat ratText text c hd rows st
    | some es =>
      have hp : present (r :: rows) = r :: present rows := by simp [present, ha]
      have hv : (arg ratText c r.row).1 = [.arr es] := by simp [arg, ARow.row, ha]
      have hs : aggStep text oneConcat st (arg ratText c r.row) = aggStep text oneArray st (arg ratText c r.row) := by
        simp only [aggStep, h1, h2, hv]
        by_cases hn : c.nulls = .ignore <;> simp [hn, oneConcat, oneArray, Val.isNull]
      rw [hp, List.map_cons, List.map_cons, List.map_cons, List.map_cons, feed, feed, hs]
      congr 1
      funext s'
      exact feed_concat ratText text c hd rows s'

theorem elements_eq : ∀ (vs : List OrderedValue) (es : List (List Val)), vs.map OrderedValue.value = es.map .arr →
    elements vs = .ok es.flatten
  | [], [], _ => rfl
  | [], _ :: _, h => by simp at h
  | _ :: _, [], h => by simp at h
  | ⟨k, v⟩ :: vs, e :: es, h => by
    simp only [List.map_cons, List.cons.injEq] at h
    rw [h.1]
    simp only [elements, elements_eq vs es h.2, Res.bind'_ok, List.flatten_cons]

theorem feed_arrays (ratText : Rat → List Char) (text : Val → Res (List Char)) (c : Call) (hd : c.distinct = false) :
    ∀ (rows : List ARow) (st st' : DState Collect), (∀ v ∈ st.inner.values, ∃ es, v.value = .arr es) →
    feed (aggStep text oneArray) st (((present rows).map ARow.row).map (arg ratText c)) = .ok st' →
    ∀ v ∈ st'.inner.values, ∃ es, v.value = .arr es
  | [], st, st', h, hf => by
    simp only [present, List.filter_nil, List.map_nil, feed, Res.ok.injEq] at hf
    rw [← hf]; exact h
  | r :: rows, st, st', h, hf => by
    have hfl := arg_flags ratText c r.row
    rw [hd] at hfl
    obtain ⟨h1, h2, _, _⟩ := hfl
    cases ha : r.array with
    | none =>
      have hp : present (r :: rows) = present rows := by simp [present, ha]
      rw [hp] at hf
      exact feed_arrays ratText text c hd rows st st' h hf
    | some es =>
      have hp : present (r :: rows) = r :: present rows := by simp [present, ha]
      have hv : (arg ratText c r.row).1 = [.arr es] := by simp [arg, ARow.row, ha]
      have hs : aggStep text oneArray st (arg ratText c r.row) = (arrayAggStep st.inner (.arr es, (arg ratText c r.row).2)).bind
          fun s => .ok { st with inner := s } := by
        simp only [aggStep, h1, h2, hv]
        by_cases hn : c.nulls = .ignore <;> simp [hn, oneArray, Val.isNull]
      rw [hp, List.map_cons, List.map_cons, feed, hs] at hf
      simp only [arrayAggStep, Val.isNull, Bool.false_eq_true, if_false, Res.bind'_ok] at hf
      refine feed_arrays ratText text c hd rows _ st' ?_ hf
      intro v hv'
      simp only [List.mem_append, List.mem_singleton] at hv'
      rcases hv' with hv' | rfl
      · exact h v hv'
      · exact ⟨es, rfl⟩

theorem all_arrays : ∀ (vs : List OrderedValue), (∀ v ∈ vs, ∃ es, v.value = .arr es) →
    ∃ es : List (List Val), vs.map OrderedValue.value = es.map .arr
  | [], _ => ⟨[], rfl⟩
  | v :: vs, h => by
    obtain ⟨e, he⟩ := h v (List.mem_cons_self ..)
    obtain ⟨es, hes⟩ := all_arrays vs fun w hw => h w (List.mem_cons_of_mem _ hw)
    exact ⟨e :: es, by rw [List.map_cons, List.map_cons, he, hes]⟩

theorem sortAggregated_perm {opt : Option AggOpt} {xs ys : List OrderedValue} (h : SortAggregated opt xs ys) : ys.Perm xs := by
  unfold SortAggregated at h
  cases opt with
  | none => rw [h]
  | some o =>
    simp only at h
    split at h
    · rw [h]
    · exact h.1

/-- **C249** ARRAY_CONCAT_AGG with ORDER BY, LIMIT and IGNORE NULLS is the concatenation of what ARRAY_AGG collects of the arrays that
are not NULL. -/
theorem C249_order (ratText : Rat → List Char) (text : Val → Res (List Char)) (c : Call) (hd : c.distinct = false) (rows : List ARow)
    (out : Res Val) (ho : ConcatCall ratText text c (rows.map ARow.row) out) :
    ∃ r, ArrayCall ratText text c ((rows.filter fun r => r.array.isSome).map ARow.row) r ∧
      ((∃ es : List (List Val), r = .ok (.arr (es.map .arr)) ∧ out = .ok (.arr es.flatten)) ∨ (out = r ∧ ∀ v, r ≠ .ok v)) := by
  unfold ConcatCall at ho
  unfold ArrayCall
  rw [feed_concat ratText text c hd] at ho
  have hp := feed_arrays ratText text c hd rows ⟨[], false, {}⟩
  unfold present at ho hp
  generalize feed (aggStep text oneArray) ⟨[], false, {}⟩ _ = res at ho hp
  cases res with
  | err => exact ⟨_, rfl, .inr ⟨ho, by simp⟩⟩
  | panic => exact ⟨_, rfl, .inr ⟨ho, by simp⟩⟩
  | ok st =>
    simp only at ho ⊢
    obtain ⟨ys, hs, he⟩ := ho
    refine ⟨_, ⟨ys, hs, rfl⟩, ?_⟩
    have hy : ∀ v ∈ ys, ∃ es, v.value = .arr es := fun v hv => hp st (by simp) rfl v ((sortAggregated_perm hs).mem_iff.1 hv)
    unfold applyLimit at he ⊢
    cases hl : st.inner.opt.bind AggOpt.limit with
    | none =>
      rw [hl] at he
      obtain ⟨es, hes⟩ := all_arrays ys hy
      refine .inl ⟨es, by simp [hes], ?_⟩
      rw [he]
      simp [elements_eq _ _ hes]
    | some n =>
      rw [hl] at he
      simp only at he ⊢
      generalize (if n < (ys.length : Int) then n else (ys.length : Int)) = m at he ⊢
      by_cases hm : m < 0
      · rw [if_pos hm] at he ⊢
        exact .inr ⟨he, by simp [Res.bind]⟩
      · rw [if_neg hm] at he ⊢
        obtain ⟨es, hes⟩ := all_arrays (ys.take m.toNat) fun v hv => hy v (List.mem_of_mem_take hv)
        refine .inl ⟨es, by simp only [Res.bind'_ok, hes], ?_⟩
        rw [he]
        simp only [Res.bind'_ok, elements_eq _ _ hes]

theorem filterMap_some (rows : List (Option (List Val))) :
    (((rows.map fun a => ARow.mk a []).filter fun r => r.array.isSome).map fun r => (ARow.row r)) =
      (rows.filterMap id).map fun es => ⟨[.arr es], [], none⟩ := by
  induction rows with
  | nil => rfl
  | cons a rows ih => cases a <;> simp_all [ARow.row]

/-- **C249** without modifiers: the arrays that are not NULL, one after the other.  Without any the result is the empty array. -/
theorem C249_partial (ratText : Rat → List Char) (text : Val → Res (List Char)) (rows : List (Option (List Val))) (out : Res Val)
    (ho : ConcatCall ratText text {} (rows.map fun a => (ARow.mk a []).row) out) : out = .ok (.arr (rows.filterMap id).flatten) := by
  have hm : (rows.map fun a => (ARow.mk a []).row) = (rows.map fun a => ARow.mk a []).map ARow.row := by rw [List.map_map]; rfl
  rw [hm] at ho
  obtain ⟨r, hr, h⟩ := C249_order ratText text {} rfl _ out ho
  rw [filterMap_some] at hr
  have hr' : r = .ok (.arr ((rows.filterMap id).map .arr)) := by
    refine C37_array_agg ((rows.filterMap id).map .arr) (by simp [Val.isNull]) r ?_
    unfold ArrayCall at hr
    rw [feed_plain _ _ _ _ (by
      intro r hr
      simp only [List.mem_map] at hr
      obtain ⟨a, _, rfl⟩ := hr
      have := arg_flags ratText {} a
      exact ⟨this.1, this.2.1⟩)] at hr
    have : ∀ (es : List (List Val)) (s : Collect), feed (fun s (r : List Val × AggOpt) => oneArray s r.1 r.2) s
        ((es.map fun es => (⟨[.arr es], [], none⟩ : GRow)).map (arg ratText {})) =
        feed arrayAggStep s ((es.map Val.arr).map fun v => (v, {})) := by
      intro es
      induction es with
      | nil => intro s; rfl
      | cons e es ih =>
        intro s
        simp only [List.map_cons, feed]
        show (arrayAggStep s (.arr e, {})).bind _ = _
        congr 1
        funext s'
        exact ih s'
    rw [this] at hr
    unfold ArrayAgg
    cases hf : feed arrayAggStep {} (((rows.filterMap id).map Val.arr).map fun v => (v, ({} : AggOpt))) with
    | ok st => rw [hf] at hr; exact hr
    | err => rw [hf] at hr; exact hr
    | panic => rw [hf] at hr; exact hr
  rcases h with ⟨es, h1, h2⟩ | ⟨_, h2⟩
  · rw [hr'] at h1
    simp only [Res.ok.injEq, Val.arr.injEq] at h1
    have : rows.filterMap id = es := by
      have hi : ∀ (xs ys : List (List Val)), xs.map Val.arr = ys.map Val.arr → xs = ys := by
        intro xs
        induction xs with
        | nil => intro ys h; cases ys <;> simp_all
        | cons x xs ih =>
          intro ys h
          cases ys with
          | nil => simp at h
          | cons y ys =>
            simp only [List.map_cons, List.cons.injEq, Val.arr.injEq] at h
            rw [h.1, ih ys h.2]
      exact hi _ _ h1
    rw [h2, this]
  · exact absurd hr' (h2 _)

example : ConcatCall (fun _ => []) (fun _ => .err) {} ([some [.int 1, .int 2], none, some [.int 3]].map fun a => (ARow.mk a []).row)
    (.ok (.arr [.int 1, .int 2, .int 3])) := ⟨_, rfl, rfl⟩

theorem C249_full_false : ¬ C249_full := by
  intro h
  have h1 : ConcatCall (fun _ => []) (fun _ => .err) {} ([none].map fun a => (ARow.mk a []).row) (.ok (.arr [])) := ⟨_, rfl, rfl⟩
  have := h _ _ _ _ h1
  simp at this

end Verif.AggCall
