import Verif.Props.Aggregate

/-! # C36, C37, C38: aggregate options -/

namespace Verif.Aggregate

open Go Verif.Val Verif.Sql

/-! ## C36 -/

/-- A column of a type whose values have distinct texts, as `ToString` prints them. -/
structure Column (α : Type) (text : Val → Res (List Char)) where
  val : α → Val
  notNull : ∀ a, (val a).isNull = false
  key : α → List Char
  text_val : ∀ a, text (val a) = .ok (key a)
  key_inj : ∀ a b, key a = key b → a = b

/-- The nullable column value. -/
def Column.ofOpt {α text} (c : Column α text) : Option α → Val
  | none => .null
  | some a => c.val a

/-- What the wrapped aggregate is fed for one row. -/
def rowOf {α text} (c : Column α text) (o : Option α → AggOpt) (x : Option α) : List Val × AggOpt := ([c.ofOpt x], o x)

/-- The wrapped aggregate's own step, given its arguments and options. -/
def innerStep {σ : Type} (inner : σ → List Val → AggOpt → Res σ) (s : σ) (row : List Val × AggOpt) : Res σ :=
  inner s row.1 row.2

theorem distinct_feed {α σ : Type} [DecidableEq α] {text} (c : Column α text) (inner : σ → List Val → AggOpt → Res σ)
    (o : Option α → AggOpt) (ho : ∀ x, (o x).distinct = true ∧ (o x).ignoreNulls = false) (n : Nat) :
    ∀ (xs : List (Option α)) (seen : List (Option α)) (st : DState σ), xs.length ≤ n →
      (st.seenNil = true ↔ none ∈ seen) → (∀ k, k ∈ st.seen ↔ ∃ a, some a ∈ seen ∧ c.key a = k) →
      (feed (aggStep text inner) st (xs.map (rowOf c o))).bind (fun st' => .ok st'.inner)
        = feed (innerStep inner) st.inner (((xs.filter (· ∉ seen)).eraseDups).map (rowOf c o)) := by
  induction n with
  | zero =>
    intro xs seen st hl _ _
    have : xs = [] := List.eq_nil_of_length_eq_zero (by omega)
    subst this; rfl
  | succ n ih =>
    intro xs seen st hl hnil hkeys
    cases xs with
    | nil => rfl
    | cons x xs =>
      simp only [List.length_cons] at hl
      obtain ⟨hd, hi⟩ := ho x
      by_cases hx : x ∈ seen
      · have hstep : aggStep text inner st (rowOf c o x) = .ok st := by
          cases x with
          | none =>
            have := hnil.mpr hx
            simp [aggStep, rowOf, Column.ofOpt, hd, hi, this]
          | some a =>
            have : c.key a ∈ st.seen := (hkeys _).mpr ⟨a, hx, rfl⟩
            simp [aggStep, rowOf, Column.ofOpt, hd, hi, c.notNull, c.text_val, this]
        simp only [List.map_cons, feed, hstep, Res.bind'_ok]
        rw [ih xs seen st (by omega) hnil hkeys, List.filter_cons_of_neg (by simpa using hx)]
      · have hfilter : (xs.filter (· ∉ seen)).filter (fun b => !b == x) = xs.filter (· ∉ x :: seen) := by
          rw [List.filter_filter]
          apply List.filter_congr
          intro b _
          by_cases h1 : b = x <;> by_cases h2 : b ∈ seen <;> simp [h1, h2]
        have hrest : ∀ st' : DState σ, (st'.seenNil = true ↔ none ∈ x :: seen) →
            (∀ k, k ∈ st'.seen ↔ ∃ a, some a ∈ x :: seen ∧ c.key a = k) →
            (feed (aggStep text inner) st' (xs.map (rowOf c o))).bind (fun st' => .ok st'.inner)
              = feed (innerStep inner) st'.inner (((xs.filter (· ∉ seen)).filter (fun b => !b == x)).eraseDups.map (rowOf c o)) := by
          intro st' h1 h2
          rw [hfilter]; exact ih xs (x :: seen) st' (by omega) h1 h2
        rw [List.filter_cons_of_pos (by simpa using hx), List.eraseDups_cons]
        simp only [List.map_cons, feed]
        cases x with
        | none =>
          have h0 : st.seenNil = false := by
            cases h : st.seenNil
            · rfl
            · exact absurd (hnil.mp h) hx
          have hs : aggStep text inner st (rowOf c o none)
              = (inner st.inner [.null] (o none)).bind fun s => .ok { st with seenNil := true, inner := s } := by
            simp [aggStep, rowOf, Column.ofOpt, hd, hi, h0]
          rw [hs]
          show _ = (inner st.inner [.null] (o none)).bind _
          cases hin : inner st.inner [.null] (o none) with
          | err => rfl
          | panic => rfl
          | ok s =>
            simp only [Res.bind'_ok]
            exact hrest { st with seenNil := true, inner := s } (by simp) (by
              intro k; rw [hkeys k]; simp)
        | some a =>
          have h0 : c.key a ∉ st.seen := by
            intro h
            obtain ⟨b, hb, he⟩ := (hkeys _).mp h
            rw [c.key_inj _ _ he] at hb
            exact hx hb
          have hs : aggStep text inner st (rowOf c o (some a))
              = (inner st.inner [c.val a] (o (some a))).bind fun s => .ok { st with seen := c.key a :: st.seen, inner := s } := by
            simp [aggStep, rowOf, Column.ofOpt, hd, hi, c.notNull, c.text_val, h0]
          rw [hs]
          show _ = (inner st.inner [c.val a] (o (some a))).bind _
          cases hin : inner st.inner [c.val a] (o (some a)) with
          | err => rfl
          | panic => rfl
          | ok s =>
            simp only [Res.bind'_ok]
            exact hrest { st with seen := c.key a :: st.seen, inner := s } (by simp [hnil]) (by
              intro k
              simp only [List.mem_cons]
              rw [hkeys k]
              constructor
              · rintro (h | ⟨b, hb, he⟩)
                · exact ⟨a, .inl rfl, h.symm⟩
                · exact ⟨b, .inr hb, he⟩
              · rintro ⟨b, hb | hb, he⟩
                · have : b = a := Option.some.inj hb
                  exact .inl (this ▸ he.symm)
                · exact .inr ⟨b, hb, he⟩)

/-- C36, DISTINCT: any aggregate with one argument is fed the first occurrence of each
value, NULL counting as one value, in order of arrival.  Options (such as ORDER BY) may depend
on the value. -/
theorem C36_distinct {α σ : Type} [DecidableEq α] {text} (c : Column α text) (inner : σ → List Val → AggOpt → Res σ)
    (o : Option α → AggOpt) (ho : ∀ x, (o x).distinct = true ∧ (o x).ignoreNulls = false) (s : σ) (xs : List (Option α)) :
    (feed (aggStep text inner) ⟨[], false, s⟩ (xs.map (rowOf c o))).bind (fun st => .ok st.inner)
      = feed (innerStep inner) s (xs.eraseDups.map (rowOf c o)) := by
  rw [distinct_feed c inner o ho xs.length xs [] ⟨[], false, s⟩ (Nat.le_refl _) (by simp) (by simp)]
  congr 2
  simp [List.filter_eq_self.mpr]

/-- INT64 (and BOOL) columns. -/
def intColumn (other) : Column Int (toText other) where
  val := .int
  notNull _ := rfl
  key := decInt
  text_val _ := rfl
  key_inj _ _ h := decInt_injective h

/-- STRING columns. -/
def strColumn (other) : Column (List Char) (toText other) where
  val := .str
  notNull _ := rfl
  key := id
  text_val _ := rfl
  key_inj _ _ h := h

/-- BYTES columns. -/
def bytesColumn (other) : Column (List UInt8) (toText other) where
  val := .bytes
  notNull _ := rfl
  key := Base64.encode
  text_val _ := rfl
  key_inj _ _ h := Base64.encode_injective h

/-- C36, IGNORE NULLS: an aggregate with one argument is fed exactly the non-NULL rows, in
their order. -/
theorem C36_ignore_nulls {α σ : Type} {text} (c : Column α text) (inner : σ → List Val → AggOpt → Res σ)
    (o : Option α → AggOpt) (ho : ∀ x, (o x).distinct = false ∧ (o x).ignoreNulls = true) (st : DState σ) (xs : List (Option α)) :
    (feed (aggStep text inner) st (xs.map (rowOf c o))).bind (fun st => .ok st.inner)
      = feed (innerStep inner) st.inner ((xs.filter Option.isSome).map (rowOf c o)) := by
  induction xs generalizing st with
  | nil => rfl
  | cons x xs ih =>
    obtain ⟨hd, hi⟩ := ho x
    cases x with
    | none =>
      have hs : aggStep text inner st (rowOf c o none) = .ok st := by
        simp [aggStep, rowOf, Column.ofOpt, hi]
      simp only [List.map_cons, feed, hs, Res.bind'_ok]
      rw [ih]; simp
    | some a =>
      have hs : aggStep text inner st (rowOf c o (some a))
          = (inner st.inner [c.val a] (o (some a))).bind fun s => .ok { st with inner := s } := by
        simp [aggStep, rowOf, Column.ofOpt, hd, hi, c.notNull]
      have hf : (some a :: xs).filter Option.isSome = some a :: xs.filter Option.isSome := by simp
      rw [hf]
      simp only [List.map_cons, feed, hs]
      show _ = (inner st.inner [c.val a] (o (some a))).bind _
      cases hin : inner st.inner [c.val a] (o (some a)) with
      | err => rfl
      | panic => rfl
      | ok s => simp only [Res.bind'_ok]; exact ih _

/-- With more than one argument the filter also removes the *other* NULL arguments, and with a
NULL first argument the second one takes its place. -/
theorem C36_two_args_false (text) (s : Unit) :
    ∃ (inner : Unit → List Val → AggOpt → Res Unit),
      feed (aggStep text inner) ⟨[], false, s⟩ [([.null, .str ['-']], { ignoreNulls := true })] = .err ∧
      ∀ args o, args ≠ [.str ['-']] → inner s args o = .ok s := by
  refine ⟨fun _ args _ => match args with
    | [.str ['-']] => .err
    | _ => .ok (), ?_, ?_⟩
  · simp [feed, aggStep, Val.isNull]
  · intro args o h
    dsimp only
    split
    · exact absurd rfl h
    · rfl

/-- SUM(DISTINCT x) as an instance. -/
example : (feed (aggStep (toText fun _ => .err) (fun s args _ => step .sum s (args.headD .null))) ⟨[], false, .null⟩
    ([some 3, none, some 3, some 4, none].map (rowOf (intColumn fun _ => .err) fun _ => { distinct := true }))).bind
      (fun st => .ok st.inner) = .ok (.int 7) := by
  rw [C36_distinct _ _ _ (by simp)]
  rfl

/-! ## C37 -/

/-- The rows of a group: value and options. -/
theorem arrayAgg_feed (rows : List (Val × AggOpt)) (h : ∀ r ∈ rows, r.1.isNull = false) (st : Collect) :
    feed arrayAggStep st rows = .ok
      { st with opt := if st.opt.isSome then st.opt else rows.head?.map Prod.snd,
                values := st.values ++ rows.map fun r => ⟨r.2.orderBy, r.1⟩ } := by
  induction rows generalizing st with
  | nil => obtain ⟨o, d, vs⟩ := st; cases o <;> simp [feed]
  | cons r rows ih =>
    have hr := h r (by simp)
    simp only [feed, arrayAggStep, hr, Bool.false_eq_true, if_false, Res.bind'_ok]
    rw [ih (fun r hr => h r (by simp [hr]))]
    cases st.opt <;> simp

/-- ARRAY_AGG over a group, from `newAggregator` to `Done`. -/
def ArrayAgg (rows : List (Val × AggOpt)) (out : Res Val) : Prop :=
  match feed arrayAggStep {} rows with
  | .ok st => ArrayAggDone st out
  | .err => out = .err
  | .panic => out = .panic

/-- C37, ARRAY_AGG without options: all inputs in arrival order. -/
theorem C37_array_agg (vs : List Val) (h : ∀ v ∈ vs, v.isNull = false) (out : Res Val)
    (ho : ArrayAgg (vs.map fun v => (v, {})) out) : out = .ok (.arr vs) := by
  unfold ArrayAgg at ho
  rw [arrayAgg_feed _ (by simpa using h)] at ho
  simp only at ho
  obtain ⟨ys, hs, he⟩ := ho
  cases vs with
  | nil =>
    simp [SortAggregated] at hs
    subst hs
    simpa [applyLimit] using he
  | cons v vs =>
    simp [SortAggregated] at hs
    subst hs
    simpa [applyLimit, Function.comp_def] using he

/-- C37, LIMIT: the first `n` inputs. -/
theorem C37_array_agg_limit (vs : List Val) (h : ∀ v ∈ vs, v.isNull = false) (n : Nat) (out : Res Val)
    (ho : ArrayAgg (vs.map fun v => (v, { limit := some (n : Int) })) out) : out = .ok (.arr (vs.take n)) := by
  unfold ArrayAgg at ho
  rw [arrayAgg_feed _ (by simpa using h)] at ho
  simp only at ho
  obtain ⟨ys, hs, he⟩ := ho
  cases vs with
  | nil =>
    simp [SortAggregated] at hs
    subst hs
    simpa [applyLimit] using he
  | cons v vs =>
    simp [SortAggregated] at hs
    subst hs
    simp only [List.head?_cons, Option.map_some, Option.isSome_none, Bool.false_eq_true, if_false,
      applyLimit, Option.bind_some, List.map_cons, List.length_cons, List.length_map] at he
    by_cases hn : (n : Int) < ((vs.length + 1 : Nat) : Int)
    · rw [if_pos hn, if_neg (by omega)] at he
      simp only [Res.bind'_ok, Int.toNat_natCast] at he
      rw [he]
      congr 2
      rw [List.map_take]; simp [Function.comp_def]
    · rw [if_neg hn, if_neg (by omega)] at he
      simp only [Res.bind'_ok, Int.toNat_natCast] at he
      rw [he]
      congr 2
      rw [List.map_take]
      rw [List.take_of_length_le (by simp), List.take_of_length_le (by simp; omega)]
      simp [Function.comp_def]

/-! ### ORDER BY inside an aggregate -/

/-- The SQL order of key tuples: per key ascending or descending. -/
def KeyLt : List Bool → List Scalar → List Scalar → Prop
  | asc :: fs, x :: xs, y :: ys =>
    (if asc then Lt x y else Lt y x) ∨ (x = y ∧ KeyLt fs xs ys)
  | _, _, _ => False

/-- Two tuples with the same number of keys and the same types, key by key. -/
def SameTys : List Scalar → List Scalar → Prop
  | x :: xs, y :: ys => SameTy x y ∧ SameTys xs ys
  | [], [] => True
  | _, _ => False

theorem KeyLt_irrefl (fs xs) : ¬ KeyLt fs xs xs := by
  induction fs generalizing xs with
  | nil => simp [KeyLt]
  | cons f fs ih =>
    cases xs with
    | nil => simp [KeyLt]
    | cons x xs =>
      simp only [KeyLt]
      rintro (h | h)
      · cases f <;> simp [Lt_irrefl] at h
      · exact ih _ h.2

theorem KeyLt_trans {fs xs ys zs} (h : KeyLt fs xs ys) (h' : KeyLt fs ys zs) : KeyLt fs xs zs := by
  induction fs generalizing xs ys zs with
  | nil => simp [KeyLt] at h
  | cons f fs ih =>
    cases xs <;> cases ys <;> cases zs <;> simp only [KeyLt] at h h' ⊢
    rcases h with h | ⟨rfl, h⟩ <;> rcases h' with h' | ⟨rfl, h'⟩
    · left; cases f
      · exact Lt_trans h' h
      · exact Lt_trans h h'
    · exact .inl h
    · exact .inl h'
    · exact .inr ⟨rfl, ih h h'⟩

theorem KeyLt_cotrans {fs xs ys zs} (hxz : SameTys xs zs) (hyz : SameTys ys zs) (h : KeyLt fs xs ys) :
    KeyLt fs xs zs ∨ KeyLt fs zs ys := by
  induction fs generalizing xs ys zs with
  | nil => simp [KeyLt] at h
  | cons f fs ih =>
    cases xs <;> cases ys <;> cases zs <;> simp only [KeyLt, SameTys] at h hxz hyz ⊢
    rename_i x xs y ys z zs
    rcases h with h | ⟨rfl, h⟩
    · rcases Lt_total hxz.1 with h1 | h1 | h1
      · cases f with
        | true => exact .inl (.inl h1)
        | false =>
          exact .inr (.inl (Lt_trans h h1))
      · subst h1; exact .inr (.inl h)
      · cases f with
        | false => exact .inl (.inl h1)
        | true => exact .inr (.inl (Lt_trans h1 h))
    · rcases Lt_total hxz.1 with h1 | h1 | h1
      · cases f with
        | true => exact .inl (.inl h1)
        | false => exact .inr (.inl h1)
      · subst h1
        rcases ih hxz.2 hyz.2 h with h2 | h2
        · exact .inl (.inr ⟨rfl, h2⟩)
        · exact .inr (.inr ⟨rfl, h2⟩)
      · cases f with
        | false => exact .inl (.inl h1)
        | true => exact .inr (.inl h1)

/-- The comparison used by the sort is the SQL one on non-NULL keys of the same types. -/
theorem less_iff {fs : List Bool} {ks ls : List Val} {xs ys : List Scalar} (hk : Logic.All2 Arg1 ks xs)
    (hl : Logic.All2 Arg1 ls ys) (ht : SameTys xs ys) : less fs ks ls = true ↔ KeyLt fs xs ys := by
  induction fs generalizing ks ls xs ys with
  | nil => simp [less, KeyLt]
  | cons f fs ih =>
    cases hk with
    | nil => simp [less, KeyLt]
    | @cons k x ks xs h1 hks =>
      cases hl with
      | nil => simp [less, KeyLt]
      | @cons l y ls ys h2 hls =>
        simp only [SameTys] at ht
        obtain ⟨e, he, hei⟩ := cmp_scalar .eq h1 h2 ht.1
        obtain ⟨a, ha, hai⟩ := cmp_scalar .lt h1 h2 ht.1
        obtain ⟨b, hb, hbi⟩ := cmp_scalar .gt h1 h2 ht.1
        simp only [less, h1.not_null, h2.not_null, Bool.false_eq_true, if_false, he, ha, hb, okTrue, KeyLt]
        cases e with
        | true =>
          have hxy : x = y := hei.mp rfl
          subst hxy
          simp only [if_true, true_and]
          rw [ih hks hls ht.2]
          cases f <;> simp [Lt_irrefl]
        | false =>
          have hxy : x ≠ y := fun h => by simpa using hei.mpr h
          simp only [Bool.false_eq_true, if_false, hxy, false_and, or_false]
          cases f
          · simpa [OpHolds] using hbi
          · simpa [OpHolds] using hai

/-- Key types that survive the trip through JSON unchanged: BOOL, STRING and INT64 up to 2^53. -/
def SafeKey : Scalar → Prop
  | .int i => -9007199254740992 < i ∧ i < 9007199254740992
  | .bool _ => True
  | .str _ => True
  | _ => False

theorem jsonKey_safe {ratText} {x : Scalar} (h : SafeKey x) : Arg1 (jsonKey ratText (ofScalar (some x))) x := by
  cases x with
  | int i => simp only [ofScalar, jsonKey, f64_exact h.1 h.2]; constructor
  | bool b =>
    cases b
    · exact .false
    · exact .true
  | str s => constructor
  | bytes _ => exact h.elim
  | num _ _ => exact h.elim
  | time _ _ => exact h.elim

/-- A row of ARRAY_AGG(v ORDER BY k1 [ASC|DESC], …): the value and its true keys. -/
structure KRow where
  value : Val
  keys : List Scalar

/-- Its options as ORDER_BY produced them. -/
def KRow.arg (ratText : Rat → List Char) (flags : List Bool) (limit : Option Nat) (r : KRow) : Val × AggOpt :=
  (r.value, { limit := limit.map Int.ofNat,
              orderBy := List.zipWith (fun k f => ⟨jsonKey ratText (ofScalar (some k)), f⟩) r.keys flags })

/-- C37, ORDER BY as stated: for every result there is an arrangement of the rows, sorted by the true keys. -/
def C37_order_full (ratText : Rat → List Char) : Prop :=
  ∀ (flags : List Bool) (rows : List KRow) (out : Res Val), flags ≠ [] →
    (∀ r ∈ rows, r.value.isNull = false ∧ r.keys.length = flags.length) →
    (∀ r ∈ rows, ∀ r' ∈ rows, SameTys r.keys r'.keys) →
    ArrayAgg (rows.map (KRow.arg ratText flags none)) out →
    ∃ sorted, List.Perm sorted rows ∧ sorted.Pairwise (fun a b => ¬ KeyLt flags b.keys a.keys) ∧
      out = .ok (.arr (sorted.map KRow.value))

theorem zip_keys (ratText : Rat → List Char) (ks : List Scalar) (fs : List Bool) (h : ks.length = fs.length) :
    (List.zipWith (fun k f => (⟨jsonKey ratText (ofScalar (some k)), f⟩ : OrderKey)) ks fs).map OrderKey.value
      = ks.map (fun k => jsonKey ratText (ofScalar (some k))) ∧
    (List.zipWith (fun k f => (⟨jsonKey ratText (ofScalar (some k)), f⟩ : OrderKey)) ks fs).map OrderKey.isAsc = fs := by
  induction ks generalizing fs with
  | nil => cases fs <;> simp_all
  | cons k ks ih =>
    cases fs with
    | nil => simp at h
    | cons f fs => simp [ih fs (by simpa using h)]

theorem All2_jsonKey {ratText} {ks : List Scalar} (h : ∀ k ∈ ks, SafeKey k) :
    Logic.All2 Arg1 (ks.map fun k => jsonKey ratText (ofScalar (some k))) ks := by
  induction ks with
  | nil => exact .nil
  | cons k ks ih => exact .cons (jsonKey_safe (h k (by simp))) (ih fun k hk => h k (by simp [hk]))

/-- The list a permutation of an image comes from. -/
theorem perm_map_inv {α β : Type} (f : α → β) {xs : List α} {ys : List β} (h : ys.Perm (xs.map f)) :
    ∃ zs, List.Perm zs xs ∧ ys = zs.map f := by
  generalize hw : xs.map f = ws at h
  induction h generalizing xs with
  | nil =>
    have : xs = [] := by simpa using hw
    exact ⟨[], by simp [this], rfl⟩
  | @cons w ys ws hp ih =>
    cases xs with
    | nil => simp at hw
    | cons x xs =>
      simp only [List.map_cons, List.cons.injEq] at hw
      obtain ⟨zs, h1, h2⟩ := ih hw.2
      exact ⟨x :: zs, h1.cons x, by simp [h2, hw.1]⟩
  | swap a b l =>
    match xs, hw with
    | x :: y :: xs, hw =>
      simp only [List.map_cons, List.cons.injEq] at hw
      exact ⟨y :: x :: xs, List.Perm.swap _ _ _, by simp [hw.1, hw.2.1, hw.2.2]⟩
  | trans _ _ ih1 ih2 =>
    obtain ⟨zs, h1, h2⟩ := ih2 hw
    obtain ⟨us, h3, h4⟩ := ih1 (xs := zs) h2.symm
    exact ⟨us, h3.trans h1, h4⟩

/-- ARRAY_AGG with ORDER BY, for any comparison `R` of the rows that `less` computes and that is a strict weak order. -/
theorem arrayAgg_order {ρ : Type} (value : ρ → Val) (arg : ρ → Val × AggOpt) (R : ρ → ρ → Prop) (rows : List ρ) (limit : Option Nat) (out : Res Val)
    (hv : ∀ r ∈ rows, (arg r).1 = value r ∧ (value r).isNull = false)
    (hopt : ∀ r ∈ rows, (arg r).2.limit = limit.map Int.ofNat ∧ (arg r).2.orderBy ≠ [])
    (hless : ∀ r ∈ rows, ∀ a ∈ rows, ∀ b ∈ rows, less ((arg r).2.orderBy.map OrderKey.isAsc) ((arg a).2.orderBy.map OrderKey.value)
      ((arg b).2.orderBy.map OrderKey.value) = true ↔ R a b)
    (hR : StrictWeak R rows) (ho : ArrayAgg (rows.map arg) out) :
    ∃ sorted, List.Perm sorted rows ∧ sorted.Pairwise (fun a b => ¬ R b a) ∧
      out = .ok (.arr ((match limit with | none => sorted | some n => sorted.take n).map value)) := by
  unfold ArrayAgg at ho
  rw [arrayAgg_feed _ (by simp only [List.mem_map]; rintro r ⟨a, ha, rfl⟩; rw [(hv a ha).1]; exact (hv a ha).2)] at ho
  simp only at ho
  obtain ⟨ys, hs, he⟩ := ho
  let g : ρ → OrderedValue := fun r => ⟨(arg r).2.orderBy, value r⟩
  have hvals : ([] : List OrderedValue) ++ ((rows.map arg).map fun r => ⟨r.2.orderBy, r.1⟩) = rows.map g := by
    rw [List.nil_append, List.map_map]
    apply List.map_congr_left
    intro r hr
    simp [g, (hv r hr).1]
  change SortAggregated _ ([] ++ _) ys at hs
  rw [hvals] at hs
  cases rows with
  | nil =>
    have : ys = [] := by simpa [SortAggregated] using hs
    subst this
    refine ⟨[], .rfl, .nil, ?_⟩
    rw [he]
    cases limit <;> simp [applyLimit]
  | cons r0 rest =>
    have hne : (arg r0).2.orderBy ≠ [] := (hopt r0 (by simp)).2
    have hs' : SortSlice (lessOV ((r0 :: rest).map g)) ((r0 :: rest).map g) ys := by
      simpa [SortAggregated, hne] using hs
    obtain ⟨hperm, hsorted⟩ := hs'
    obtain ⟨zs, hz1, hz2⟩ := perm_map_inv g hperm
    -- the comparison, on rows
    have hlt : ∀ a ∈ r0 :: rest, ∀ b ∈ r0 :: rest,
        (lessOV ((r0 :: rest).map g) (g a) (g b) ↔ R a b) := fun a ha b hb => hless r0 (by simp) a ha b hb
    have hsw : StrictWeak (lessOV ((r0 :: rest).map g)) ((r0 :: rest).map g) := by
      constructor
      · intro x hx
        obtain ⟨a, ha, rfl⟩ := List.mem_map.mp hx
        rw [hlt a ha a ha]; exact hR.irrefl a ha
      · intro x hx y hy z hz
        obtain ⟨a, ha, rfl⟩ := List.mem_map.mp hx
        obtain ⟨b, hb, rfl⟩ := List.mem_map.mp hy
        obtain ⟨c, hc, rfl⟩ := List.mem_map.mp hz
        rw [hlt a ha b hb, hlt b hb c hc, hlt a ha c hc]; exact hR.trans a ha b hb c hc
      · intro x hx y hy z hz
        obtain ⟨a, ha, rfl⟩ := List.mem_map.mp hx
        obtain ⟨b, hb, rfl⟩ := List.mem_map.mp hy
        obtain ⟨c, hc, rfl⟩ := List.mem_map.mp hz
        rw [hlt a ha b hb, hlt a ha c hc, hlt c hc b hb]
        exact hR.cotrans a ha b hb c hc
    have hpw := hsorted hsw
    subst hz2
    refine ⟨zs, hz1, ?_, ?_⟩
    · rw [List.pairwise_map] at hpw
      refine hpw.imp_of_mem ?_
      intro a b ha hb hab
      rwa [← hlt b (hz1.mem_iff.mp hb) a (hz1.mem_iff.mp ha)]
    · rw [he]
      have hlim : (if (none : Option AggOpt).isSome = true then (none : Option AggOpt) else
          (((r0 :: rest).map arg).head?.map Prod.snd)).bind AggOpt.limit = limit.map Int.ofNat := by
        simpa using (hopt r0 (by simp)).1
      unfold applyLimit
      rw [hlim]
      cases limit with
      | none => simp [g, Function.comp_def]
      | some n =>
        simp only [Option.map_some, Int.ofNat_eq_natCast]
        by_cases hn : (n : Int) < ((zs.map g).length : Int)
        · rw [if_pos hn, if_neg (by omega)]
          simp [g, Function.comp_def, List.map_take]
        · rw [if_neg hn, if_neg (by omega)]
          simp only [List.length_map] at hn
          simp only [Res.bind'_ok, Int.toNat_natCast]
          rw [List.take_of_length_le (Nat.le_refl _), List.take_of_length_le (by omega)]
          simp [g, Function.comp_def]

/-- C37, ORDER BY and LIMIT with keys of type BOOL, STRING or INT64 (up to 2^53), none NULL:
the result is the first `n` rows of a permutation of the rows sorted by the keys. -/
theorem C37_order_partial (ratText : Rat → List Char) (flags : List Bool) (rows : List KRow) (limit : Option Nat) (out : Res Val) (hf : flags ≠ [])
    (h1 : ∀ r ∈ rows, r.value.isNull = false ∧ r.keys.length = flags.length)
    (h2 : ∀ r ∈ rows, ∀ r' ∈ rows, SameTys r.keys r'.keys) (h3 : ∀ r ∈ rows, ∀ k ∈ r.keys, SafeKey k)
    (ho : ArrayAgg (rows.map (KRow.arg ratText flags limit)) out) :
    ∃ sorted, List.Perm sorted rows ∧ sorted.Pairwise (fun a b => ¬ KeyLt flags b.keys a.keys) ∧
      out = .ok (.arr ((match limit with | none => sorted | some n => sorted.take n).map KRow.value)) := by
  refine arrayAgg_order KRow.value (KRow.arg ratText flags limit) (fun a b => KeyLt flags a.keys b.keys) rows limit out
    (fun r hr => ⟨rfl, (h1 r hr).1⟩) (fun r hr => ⟨rfl, ?_⟩) ?_ ?_ ho
  · have hlen := (h1 r hr).2
    cases hk : r.keys with
    | nil => rw [hk] at hlen; exact absurd (List.eq_nil_of_length_eq_zero (by simpa using hlen.symm)) hf
    | cons k ks =>
      cases flags with
      | nil => exact absurd rfl hf
      | cons f fs => simp [KRow.arg, hk]
  · intro r hr a ha b hb
    have e0 := (zip_keys ratText r.keys flags (h1 r hr).2).2
    have ea := (zip_keys ratText a.keys flags (h1 a ha).2).1
    have eb := (zip_keys ratText b.keys flags (h1 b hb).2).1
    simp only [KRow.arg]
    rw [e0, ea, eb]
    exact less_iff (All2_jsonKey (h3 a ha)) (All2_jsonKey (h3 b hb)) (h2 a ha b hb)
  · exact ⟨fun a _ => KeyLt_irrefl _ _, fun a _ b _ c _ => KeyLt_trans, fun a ha b hb c hc => KeyLt_cotrans (h2 a ha c hc) (h2 b hb c hc)⟩

/-- Two rows, keys 2 and 1: the result is ['b','a']. -/
example (out : Res Val) (h : ArrayAgg ([⟨.str ['a'], [.int 2]⟩, ⟨.str ['b'], [.int 1]⟩].map (KRow.arg (fun _ => []) [true] none)) out) :
    out = .ok (.arr [.str ['b'], .str ['a']]) := by
  obtain ⟨s, hp, hs, ho⟩ := C37_order_partial (fun _ => []) [true] [⟨.str ['a'], [.int 2]⟩, ⟨.str ['b'], [.int 1]⟩] none out (by simp)
    (by intro r hr; simp at hr; rcases hr with rfl | rfl <;> simp [Val.isNull])
    (by intro r hr r' hr'; simp at hr hr'; rcases hr with rfl | rfl <;> rcases hr' with rfl | rfl <;> simp [SameTys, SameTy])
    (by intro r hr; simp at hr; rcases hr with rfl | rfl <;> simp [SafeKey]) h
  rw [ho]
  have hl := hp.length_eq
  match s, hl with
  | [a, b], _ =>
    have ha : a ∈ [a, b] := by simp
    have hb : b ∈ [a, b] := by simp
    have ha' := hp.mem_iff.mp ha
    have hb' := hp.mem_iff.mp hb
    simp at ha' hb' hs
    rcases ha' with rfl | rfl <;> rcases hb' with rfl | rfl
    · have : KRow.mk (.str ['b']) [.int 1] ∈ [KRow.mk (.str ['a']) [.int 2], KRow.mk (.str ['a']) [.int 2]] := hp.mem_iff.mpr (by simp)
      simp at this
    · simp [KeyLt, Lt] at hs
    · rfl
    · have : KRow.mk (.str ['a']) [.int 2] ∈ [KRow.mk (.str ['b']) [.int 1], KRow.mk (.str ['b']) [.int 1]] := hp.mem_iff.mpr (by simp)
      simp at this

/-- `big.Rat.MarshalText` prints integers without a denominator. -/
def RatTextOk (ratText : Rat → List Char) : Prop := ∀ n : Int, ratText n = decInt n

/-- NUMERIC keys are compared as text: 10 sorts before 9. -/
theorem C37_order_full_false (ratText : Rat → List Char) (hrt : RatTextOk ratText) : ¬ C37_order_full ratText := by
  intro h
  let r9 : KRow := ⟨.str ['9'], [.num 9 false]⟩
  let r10 : KRow := ⟨.str ['1'], [.num 10 false]⟩
  have h9 : ratText 9 = ['9'] := hrt 9
  have h10 : ratText 10 = ['1', '0'] := hrt 10
  have hrun : ArrayAgg ([r10, r9].map (KRow.arg ratText [true] none)) (.ok (.arr [.str ['1'], .str ['9']])) := by
    unfold ArrayAgg
    rw [arrayAgg_feed _ (by simp [r9, r10, KRow.arg, Val.isNull])]
    refine ⟨[⟨(r10.arg ratText [true] none).2.orderBy, .str ['1']⟩, ⟨(r9.arg ratText [true] none).2.orderBy, .str ['9']⟩], ?_, ?_⟩
    · simp only [SortAggregated, r9, r10, KRow.arg, List.map_cons, List.map_nil, List.head?_cons, Option.map_some,
        Option.isSome_none, Bool.false_eq_true, if_false, List.zipWith_cons_cons, List.nil_append]
      refine ⟨.rfl, fun _ => ?_⟩
      simp [lessOV, less, Val.isNull, jsonKey, ofScalar, h9, h10, cmp, cmpAux, cmpLeaf, okTrue, Op.run, utf8_lt_iff, utf8_eq_iff]
      decide
    · simp [applyLimit, r9, r10, KRow.arg]
  obtain ⟨s, hp, hs, ho⟩ := h [true] [r10, r9] _ (by simp)
    (by intro r hr; simp at hr; rcases hr with rfl | rfl <;> simp [r9, r10, Val.isNull])
    (by intro r hr r' hr'; simp at hr hr'; rcases hr with rfl | rfl <;> rcases hr' with rfl | rfl <;> simp [r9, r10, SameTys, SameTy])
    hrun
  have hl := hp.length_eq
  match s, hl with
  | [a, b], _ =>
    have ha' := hp.mem_iff.mp (show a ∈ [a, b] by simp)
    have hb' := hp.mem_iff.mp (show b ∈ [a, b] by simp)
    simp at ha' hb' hs
    rcases ha' with rfl | rfl <;> rcases hb' with rfl | rfl
    · simp [r10] at ho
    · simp [r9, r10, KeyLt, Lt] at hs
      revert hs; decide
    · simp [r9, r10] at ho
    · simp [r9] at ho

/-! ### STRING_AGG -/

/-- STRING_AGG over a group, with the delimiter argument (`[]` when there is none). -/
def StringAgg (text : Val → Res (List Char)) (delim : List Char) (rows : List (Val × AggOpt)) (out : Res Val) : Prop :=
  match feed (stringAggStep delim) {} rows with
  | .ok st => StringAggDone text st out
  | .err => out = .err
  | .panic => out = .panic

theorem stringAgg_feed (delim : List Char) (rows : List (Val × AggOpt)) (st : Collect) (hd : st.opt.isSome → st.delim = if delim = [] then [','] else delim) :
    ∃ st', feed (stringAggStep delim) st rows = .ok st' ∧
      st'.values = st.values ++ (rows.filter fun r => !r.1.isNull).map (fun r => ⟨r.2.orderBy, r.1⟩) ∧
      st'.opt = (if st.opt.isSome then st.opt else (rows.filter fun r => !r.1.isNull).head?.map Prod.snd) ∧
      (st'.opt.isSome → st'.delim = if delim = [] then [','] else delim) := by
  induction rows generalizing st with
  | nil => exact ⟨st, rfl, by simp, by cases h : st.opt <;> simp, hd⟩
  | cons r rows ih =>
    cases hr : r.1.isNull
    · have hs : feed (stringAggStep delim) st (r :: rows) = feed (stringAggStep delim)
          { (if st.opt.isSome then st else { st with opt := some r.2, delim := if delim = [] then [','] else delim }) with
            values := st.values ++ [⟨r.2.orderBy, r.1⟩] } rows := by
        simp only [feed, stringAggStep, hr, Bool.false_eq_true, if_false, Res.bind'_ok]
        split <;> rfl
      rw [hs]
      obtain ⟨st', h1, h2, h3, h4⟩ := ih
        { (if st.opt.isSome then st else { st with opt := some r.2, delim := if delim = [] then [','] else delim }) with
            values := st.values ++ [⟨r.2.orderBy, r.1⟩] } (by
          intro _
          by_cases h : st.opt.isSome
          · simp only [h, if_true]; exact hd h
          · simp [h])
      refine ⟨st', h1, ?_, ?_, h4⟩
      · rw [h2]; simp [hr]
      · rw [h3]
        cases h : st.opt <;> simp [hr, h]
    · have hs : feed (stringAggStep delim) st (r :: rows) = feed (stringAggStep delim) st rows := by
        simp [feed, stringAggStep, hr]
      rw [hs]
      obtain ⟨st', h1, h2, h3, h4⟩ := ih st hd
      refine ⟨st', h1, ?_, ?_, h4⟩
      · rw [h2]; simp [hr]
      · rw [h3]; simp [hr]

theorem texts_str (other) (ss : List (List Char)) : texts (toText other) (ss.map .str) = .ok ss := by
  induction ss with
  | nil => rfl
  | cons s ss ih => simp [texts, toText, ih]

/-- A nullable STRING row without options. -/
def strRow : Option (List Char) → Val × AggOpt
  | none => (.null, {})
  | some s => (.str s, {})

theorem strRow_filter (xs : List (Option (List Char))) :
    ((xs.map strRow).filter fun r => !r.1.isNull) = (nn xs).map fun s => (.str s, {}) := by
  induction xs with
  | nil => rfl
  | cons x xs ih => cases x <;> simp_all [strRow, Val.isNull]

/-- C37, STRING_AGG: the non-NULL strings in arrival order, joined with the delimiter (a comma
if none is given); NULL if there are none. -/
theorem C37_string_agg_partial (other) (delim : List Char) (xs : List (Option (List Char))) (out : Res Val)
    (ho : StringAgg (toText other) delim (xs.map strRow) out) :
    out = if nn xs = [] then .ok .null else .ok (.str (join (if delim = [] then [','] else delim) (nn xs))) := by
  unfold StringAgg at ho
  obtain ⟨st, h1, h2, h3, h4⟩ := stringAgg_feed delim (xs.map strRow) {} (by simp)
  rw [h1] at ho
  obtain ⟨ys, hs, he⟩ := ho
  rw [strRow_filter] at h2 h3
  generalize nn xs = ns at *
  cases ns with
  | nil =>
    simp at h2 h3
    simp [SortAggregated, h2, h3] at hs
    subst hs
    simpa [applyLimit, h3, texts] using he
  | cons n ns =>
    simp at h3
    have hd := h4 (by simp [h3])
    simp [SortAggregated, h3] at hs
    subst hs
    rw [he, h2, hd]
    have hv : ((([] : List OrderedValue) ++ ((n :: ns).map fun s => ((.str s, {}) : Val × AggOpt)).map (fun r => (⟨r.2.orderBy, r.1⟩ : OrderedValue))).map OrderedValue.value)
        = (n :: ns).map .str := by simp [Function.comp_def]
    simp only [applyLimit, h3, Option.bind_some, Res.bind'_ok]
    rw [hv, texts_str]
    simp

/-- C37, STRING_AGG as stated: joined with the delimiter given, also the empty one. -/
def C37_string_full : Prop :=
  ∀ (delim : List Char) (xs : List (Option (List Char))) (out : Res Val),
    StringAgg (toText fun _ => .err) delim (xs.map strRow) out →
    out = if nn xs = [] then .ok .null else .ok (.str (join delim (nn xs)))

/-- An explicit empty delimiter is taken for a missing one. -/
theorem C37_string_full_false : ¬ C37_string_full := by
  intro h
  have hr : StringAgg (toText fun _ => .err) [] ([some ['a'], some ['b']].map strRow) (.ok (.str ['a', ',', 'b'])) :=
    ⟨_, rfl, rfl⟩
  have := h _ _ _ hr
  simp [join] at this

example : StringAgg (toText fun _ => .err) ['-'] ([some ['a'], none, some ['b']].map strRow) (.ok (.str ['a', '-', 'b'])) :=
  ⟨_, rfl, rfl⟩

/-! ## C38 -/

/-- What `json.Unmarshal` into an AggregatorFuncOption does, as far as it matters: only a
JSON object can be an option, and the four option functions produce texts that decode to what was
put in. -/
structure Unmarshal where
  run : List Char → Option OptArg
  /-- The texts written by DISTINCT, IGNORE_NULLS, LIMIT and ORDER_BY. -/
  marshal : OptArg → List Char
  /-- The options that have a JSON form: all but ORDER BY keys without one. -/
  valid : OptArg → Prop
  validDistinct : valid .distinct
  validIgnoreNulls : valid .ignoreNulls
  object : ∀ s x, run s = some x → (s.dropWhile fun c => c = ' ' ∨ c = '\t' ∨ c = '\n' ∨ c = '\r').head? = some '{'
  roundTrip : ∀ x, valid x → run (marshal x) = some x

/-- `{"type":"aggregate_distinct","value":null}` -/
def distinctText : List Char := "{\"type\":\"aggregate_distinct\",\"value\":null}".toList
/-- `{"type":"aggregate_ignore_nulls","value":null}` -/
def ignoreNullsText : List Char := "{\"type\":\"aggregate_ignore_nulls\",\"value\":null}".toList

/-- The two options without a value, as go-json prints and reads them. -/
def simpleJson : Unmarshal where
  run s := if s = distinctText then some .distinct else if s = ignoreNullsText then some .ignoreNulls else none
  marshal x := match x with
    | .distinct => distinctText
    | .ignoreNulls => ignoreNullsText
    | _ => []
  valid x := match x with
    | .distinct => True
    | .ignoreNulls => True
    | _ => False
  validDistinct := trivial
  validIgnoreNulls := trivial
  object s x h := by
    split at h
    · rename_i h1; subst h1; decide
    · split at h
      · rename_i h1; subst h1; decide
      · simp at h
  roundTrip x h := by
    cases x with
    | distinct => rfl
    | ignoreNulls => rfl
    | limit n => exact h.elim
    | orderBy k => exact h.elim

/-- C38: whatever the user's values, the aggregate receives them all, in order, with the
options that were appended. -/
def C38_full : Prop :=
  ∀ (u : Unmarshal) (other) (args : List Val) (opts : List OptArg), (∀ o ∈ opts, u.valid o) →
    parseOptions (toText other) u.run (args ++ opts.map fun o => .str (u.marshal o)) ([], {})
      = (args, opts.foldl AggOpt.set {})

/-- The scan goes through the arguments one at a time. -/
theorem parse_append (text unm) (as bs : List Val) (acc) :
    parseOptions text unm (as ++ bs) acc = parseOptions text unm bs (parseOptions text unm as acc) := by
  induction as generalizing acc with
  | nil => rfl
  | cons a as ih =>
    obtain ⟨vs, o⟩ := acc
    simp only [List.cons_append, parseOptions]
    split
    · exact ih _
    · split
      · split <;> exact ih _
      · exact ih _

theorem parse_opts (u : Unmarshal) (other) (opts : List OptArg) (hv : ∀ x ∈ opts, u.valid x) (vs o) :
    parseOptions (toText other) u.run (opts.map fun x => .str (u.marshal x)) (vs, o) = (vs, opts.foldl AggOpt.set o) := by
  induction opts generalizing o with
  | nil => rfl
  | cons x opts ih =>
    have ih' := ih (fun x hx => hv x (by simp [hx]))
    simp [parseOptions, Val.isNull, toText, u.roundTrip x (hv x (by simp)), ih']

/-- The value is kept by the scan. -/
def Kept (text : Val → Res (List Char)) (unm : List Char → Option OptArg) (v : Val) : Prop :=
  v.isNull = true ∨ ∀ t, text v = .ok t → unm t = none

theorem parse_kept (text unm) (as : List Val) (h : ∀ a ∈ as, Kept text unm a) (vs o) :
    parseOptions text unm as (vs, o) = (vs ++ as, o) := by
  induction as generalizing vs with
  | nil => simp [parseOptions]
  | cons a as ih =>
    have ih' := ih (fun a ha => h a (by simp [ha]))
    simp only [parseOptions]
    split
    · rw [ih']; simp
    · rename_i hn
      rcases h a (by simp) with h1 | h1
      · exact absurd h1 hn
      · split
        · rename_i t ht
          rw [h1 t ht]
          show parseOptions text unm as (vs ++ [a], o) = _
          rw [ih']; simp
        · rw [ih']; simp

/-- A user string that is the text of an option disappears from the arguments and
switches the option on. -/
theorem C38_full_false : ¬ C38_full := by
  intro h
  have := h simpleJson (fun _ => .err) [.str distinctText] [] (by simp)
  simp [parseOptions, Val.isNull, toText, simpleJson] at this

/-- Values that can never be mistaken: NULL, numbers, booleans, BYTES, and strings that do
not start (after blanks) with an opening brace. -/
def Unmistakable : Val → Prop
  | .null => True
  | .int _ => True
  | .bool _ => True
  | .bytes _ => True
  | .str s => (s.dropWhile fun c => c = ' ' ∨ c = '\t' ∨ c = '\n' ∨ c = '\r').head? ≠ some '{'
  | _ => False

theorem digitChar_head (n : Nat) (h : n < 10) : digitChar n ≠ '{' ∧ digitChar n ≠ ' ' := by
  have : ∀ m, m < 10 → digitChar m ≠ '{' ∧ digitChar m ≠ ' ' := by decide
  exact this n h

theorem not_brace_of_mem {s : List Char} (h : '{' ∉ s) :
    (s.dropWhile fun c => c = ' ' ∨ c = '\t' ∨ c = '\n' ∨ c = '\r').head? ≠ some '{' := by
  intro hh
  apply h
  have : '{' ∈ (s.dropWhile fun c => c = ' ' ∨ c = '\t' ∨ c = '\n' ∨ c = '\r') := List.mem_of_head? hh
  exact (List.dropWhile_suffix _).subset this

/-- C38: arguments that cannot be mistaken all arrive, in order, and the options are exactly
those appended by the formatter. -/
theorem C38_partial (u : Unmarshal) (other) (args : List Val) (opts : List OptArg) (hv : ∀ o ∈ opts, u.valid o)
    (h : ∀ a ∈ args, Unmistakable a) :
    parseOptions (toText other) u.run (args ++ opts.map fun o => .str (u.marshal o)) ([], {})
      = (args, opts.foldl AggOpt.set {}) := by
  have hk : ∀ a ∈ args, Kept (toText other) u.run a := by
    intro a ha
    have := h a ha
    cases a with
    | null => left; rfl
    | int i =>
      right; intro t ht
      simp only [toText, Res.ok.injEq] at ht
      cases hu : u.run t with
      | none => rfl
      | some x =>
        exfalso
        refine not_brace_of_mem ?_ (u.object t x hu)
        subst ht
        exact decInt_no_brace i
    | bool b =>
      right; intro t ht
      simp only [toText, Res.ok.injEq] at ht
      cases hu : u.run t with
      | none => rfl
      | some x =>
        exfalso
        refine not_brace_of_mem ?_ (u.object t x hu)
        subst ht
        cases b <;> decide
    | str s =>
      right; intro t ht
      simp only [toText, Res.ok.injEq] at ht
      subst ht
      cases hu : u.run s with
      | none => rfl
      | some x => exact absurd (u.object s x hu) this
    | bytes b =>
      right; intro t ht
      simp only [toText, Res.ok.injEq] at ht
      cases hu : u.run t with
      | none => rfl
      | some x =>
        exfalso
        refine not_brace_of_mem ?_ (u.object t x hu)
        subst ht
        intro hm
        rcases Base64.mem_encode b _ hm with h | ⟨n, hn, h⟩
        · revert h; decide
        · have : ∀ m, m < 64 → '{' ≠ Base64.digit m := by decide
          exact this n hn h
    | num _ _ => exact this.elim
    | time _ _ => exact this.elim
    | arr _ => exact this.elim
    | struct _ _ => exact this.elim
  rw [parse_append, parse_kept _ _ args hk, parse_opts u other opts hv]
  simp

example : parseOptions (toText fun _ => .err) simpleJson.run [.null, .str ['a'], .str distinctText] ([], {})
    = ([.null, .str ['a']], { distinct := true }) :=
  C38_partial simpleJson _ [.null, .str ['a']] [.distinct] (by simp [simpleJson]) (by
    intro a ha; simp at ha; rcases ha with rfl | rfl <;> simp [Unmistakable])

end Verif.Aggregate
