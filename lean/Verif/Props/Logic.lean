import Verif.Lemmas.Value

/-!
# C23–C28: logic, comparisons, conditionals
-/

namespace Verif.Logic

open Go Verif.Val Verif.Sql

/-! ## C23 -/

theorem ArgTri.toBool {v t} (h : ArgTri v t) :
    (v.isNull = true ∧ t = none) ∨ (v.isNull = false ∧ ∃ b, Val.toBool v = .ok b ∧ t = some b) := by
  cases h
  · left; exact ⟨rfl, rfl⟩
  all_goals right; refine ⟨rfl, ?_⟩
  · exact ⟨true, rfl, rfl⟩
  · exact ⟨false, rfl, rfl⟩
  · exact ⟨true, rfl, rfl⟩
  · exact ⟨false, rfl, rfl⟩

theorem kAnd_false (t : Tri) : kAnd t (some false) = some false := by
  cases t with
  | none => rfl
  | some b => cases b <;> rfl

theorem kOr_true (t : Tri) : kOr t (some true) = some true := by
  cases t with
  | none => rfl
  | some b => cases b <;> rfl

theorem andScan_spec {vs ts} (h : All2 ArgTri vs ts) :
    (andScan vs = .ok (some (.bool false)) ∧ ts.foldr kAnd (some true) = some false) ∨
    (andScan vs = .ok none ∧ ts.foldr kAnd (some true) = if existsNull vs then none else some true) := by
  induction h with
  | nil => right; exact ⟨rfl, rfl⟩
  | cons h _ ih =>
    rcases ArgTri.toBool h with ⟨hn, rfl⟩ | ⟨hn, b, hb, rfl⟩
    · simp only [andScan, hn, if_true, List.foldr_cons, existsNull]
      rcases ih with ⟨h1, h2⟩ | ⟨h1, h2⟩
      · left; exact ⟨h1, by rw [h2]; rfl⟩
      · right; refine ⟨h1, ?_⟩; rw [h2]; split <;> rfl
    · simp only [andScan, hn, hb, Res.bind'_ok, List.foldr_cons, existsNull]
      cases b
      · left; exact ⟨rfl, rfl⟩
      · simp only [Bool.not_true, Bool.false_eq_true, if_false]
        rcases ih with ⟨h1, h2⟩ | ⟨h1, h2⟩
        · left; exact ⟨h1, by rw [h2]; rfl⟩
        · right; refine ⟨h1, ?_⟩; rw [h2]; split <;> rfl

theorem orScan_spec {vs ts} (h : All2 ArgTri vs ts) :
    (orScan vs = .ok (some (.bool true)) ∧ ts.foldr kOr (some false) = some true) ∨
    (orScan vs = .ok none ∧ ts.foldr kOr (some false) = if existsNull vs then none else some false) := by
  induction h with
  | nil => right; exact ⟨rfl, rfl⟩
  | cons h _ ih =>
    rcases ArgTri.toBool h with ⟨hn, rfl⟩ | ⟨hn, b, hb, rfl⟩
    · simp only [orScan, hn, if_true, List.foldr_cons, existsNull]
      rcases ih with ⟨h1, h2⟩ | ⟨h1, h2⟩
      · left; exact ⟨h1, by rw [h2]; rfl⟩
      · right; refine ⟨h1, ?_⟩; rw [h2]; split <;> rfl
    · simp only [orScan, hn, hb, Res.bind'_ok, List.foldr_cons, existsNull]
      cases b
      · simp only [Bool.false_eq_true, if_false]
        rcases ih with ⟨h1, h2⟩ | ⟨h1, h2⟩
        · left; exact ⟨h1, by rw [h2]; rfl⟩
        · right; refine ⟨h1, ?_⟩; rw [h2]; split <;> rfl
      · left; exact ⟨rfl, rfl⟩

/-- **C23** (AND): any number of operands, in any position, give Kleene's conjunction. -/
theorem C23_and (vs : List Val) (ts : List Tri) (h : All2 ArgTri vs ts) :
    bindAnd vs = .ok (ofTri (ts.foldr kAnd (some true))) := by
  unfold bindAnd
  rcases andScan_spec h with ⟨h1, h2⟩ | ⟨h1, h2⟩
  · rw [h1, h2]; rfl
  · rw [h1, h2]; simp only [Res.bind'_ok]; split <;> rfl

/-- **C23** (OR): Kleene's disjunction. -/
theorem C23_or (vs : List Val) (ts : List Tri) (h : All2 ArgTri vs ts) :
    bindOr vs = .ok (ofTri (ts.foldr kOr (some false))) := by
  unfold bindOr
  rcases orScan_spec h with ⟨h1, h2⟩ | ⟨h1, h2⟩
  · rw [h1, h2]; rfl
  · rw [h1, h2]; simp only [Res.bind'_ok]; split <;> rfl

/-- **C23** (NOT). -/
theorem C23_not (v : Val) (t : Tri) (h : ArgTri v t) : bindNot [v] = .ok (ofTri (kNot t)) := by
  cases h <;> rfl

theorem kAnd_comm (a b : Tri) : kAnd a b = kAnd b a := by
  rcases a with _ | _ | _ <;> rcases b with _ | _ | _ <;> rfl
theorem kAnd_assoc (a b c : Tri) : kAnd a (kAnd b c) = kAnd (kAnd a b) c := by
  rcases a with _ | _ | _ <;> rcases b with _ | _ | _ <;> rcases c with _ | _ | _ <;> rfl
theorem kOr_comm (a b : Tri) : kOr a b = kOr b a := by
  rcases a with _ | _ | _ <;> rcases b with _ | _ | _ <;> rfl
theorem kOr_assoc (a b c : Tri) : kOr a (kOr b c) = kOr (kOr a b) c := by
  rcases a with _ | _ | _ <;> rcases b with _ | _ | _ <;> rcases c with _ | _ | _ <;> rfl

theorem foldr_perm {f : Tri → Tri → Tri} (hc : ∀ a b, f a b = f b a) (ha : ∀ a b c, f a (f b c) = f (f a b) c)
    {xs ys : List Tri} (h : xs.Perm ys) (e : Tri) : xs.foldr f e = ys.foldr f e := by
  induction h with
  | nil => rfl
  | cons x _ ih => simp [ih]
  | swap x y l => simp only [List.foldr_cons]; rw [ha, ha, hc y x]
  | trans _ _ ih1 ih2 => rw [ih1, ih2]

/-- Reordering one side of an element-wise relation. -/
theorem All2.perm {α β} {R : α → β → Prop} {vs ws : List α} (hp : vs.Perm ws) :
    ∀ {ts : List β}, All2 R vs ts → ∃ us, ts.Perm us ∧ All2 R ws us := by
  induction hp with
  | nil => intro ts h; exact ⟨ts, .refl _, h⟩
  | cons x _ ih =>
    intro ts h
    cases h with
    | cons hx ht =>
      obtain ⟨us, hp', hu⟩ := ih ht
      exact ⟨_ :: us, hp'.cons _, .cons hx hu⟩
  | swap x y l =>
    intro ts h
    cases h with
    | cons hx ht => cases ht with
      | cons hy ht => exact ⟨_ :: _ :: _, .swap _ _ _, .cons hy (.cons hx ht)⟩
  | trans _ _ ih1 ih2 =>
    intro ts h
    obtain ⟨us, h1, h2⟩ := ih1 h
    obtain ⟨ws, h3, h4⟩ := ih2 h2
    exact ⟨ws, h1.trans h3, h4⟩

/-- **C23** (order): the operands of AND may be written in any order. -/
theorem C23_and_order (vs ws : List Val) (hp : vs.Perm ws) (h : ∃ ts, All2 ArgTri vs ts) : bindAnd vs = bindAnd ws := by
  obtain ⟨ts, h⟩ := h
  obtain ⟨us, hp', hu⟩ := h.perm hp
  rw [C23_and _ _ h, C23_and _ _ hu, foldr_perm kAnd_comm kAnd_assoc hp']

/-- **C23** (order): the operands of OR may be written in any order. -/
theorem C23_or_order (vs ws : List Val) (hp : vs.Perm ws) (h : ∃ ts, All2 ArgTri vs ts) : bindOr vs = bindOr ws := by
  obtain ⟨ts, h⟩ := h
  obtain ⟨us, hp', hu⟩ := h.perm hp
  rw [C23_or _ _ h, C23_or _ _ hu, foldr_perm kOr_comm kOr_assoc hp']

/-- The hypothesis is met by mixed representations. -/
example : All2 ArgTri [.int 1, .null, .bool false] [some true, none, some false] :=
  .cons .one (.cons .null (.cons .false .nil))
example : bindAnd [.int 1, .null, .bool false] = .ok (.bool false) := rfl
example : bindAnd [.int 1, .null] = .ok .null := rfl
example : bindOr [.int 0, .null, .int 1] = .ok (.bool true) := rfl

/-- IS TRUE / IS FALSE are always TRUE or FALSE in SQL.  In this driver
NULL IS TRUE is NULL. -/
def C23_is_true_full : Prop := ∀ v t, ArgTri v t → bindIsTrue [v] = .ok (.bool (t == some true))

theorem C23_is_true_full_false : ¬ C23_is_true_full := by
  intro h; exact absurd (h .null none .null) (by simp [bindIsTrue, existsNull, Val.isNull])

theorem C23_is_true_partial (v : Val) (b : Bool) (h : ArgTri v (some b)) :
    bindIsTrue [v] = .ok (.bool b) ∧ bindIsFalse [v] = .ok (.bool (!b)) := by
  cases h <;> exact ⟨rfl, rfl⟩

theorem C23_is_null (v : Val) (x : Option Scalar) (h : Arg v x) : bindIsNull [v] = .ok (.bool x.isNone) := by
  simp [bindIsNull, h.isNull_iff]

/-! ## C24 -/

/-- The meaning of an SQL comparison of non-NULL operands. -/
def CmpHolds : SqlCmp → Scalar → Scalar → Prop
  | .eq, x, y => x = y
  | .ne, x, y => x ≠ y
  | .lt, x, y => Lt x y
  | .gt, x, y => Lt y x
  | .le, x, y => ¬ Lt y x
  | .ge, x, y => ¬ Lt x y

theorem le_iff {x y : Scalar} (h : SameTy x y) : (Lt x y ∨ x = y) ↔ ¬ Lt y x := by
  constructor
  · rintro (h1 | rfl) h2
    · exact Lt_irrefl _ (Lt_trans h1 h2)
    · exact Lt_irrefl _ h2
  · intro h1; rcases Lt_total h with h2 | h2 | h2
    · exact .inl h2
    · exact .inr h2
    · exact absurd h2 h1

theorem ge_iff {x y : Scalar} (h : SameTy x y) : (Lt y x ∨ x = y) ↔ ¬ Lt x y := by
  constructor
  · rintro (h1 | rfl) h2
    · exact Lt_irrefl _ (Lt_trans h1 h2)
    · exact Lt_irrefl _ h2
  · intro h1; rcases Lt_total h with h2 | h2 | h2
    · exact absurd h2 h1
    · exact .inr h2
    · exact .inl h2

/-- **C24** for scalar operands: a comparison is NULL iff an operand is NULL and
otherwise is the one `Sql.Lt` (a strict linear order on each type:
`Sql.Lt_irrefl`, `Sql.Lt_trans`, `Sql.Lt_total`) prescribes. -/
theorem C24_scalar_partial (op : SqlCmp) (a b : Val) (x y : Option Scalar) (ha : Arg a x) (hb : Arg b y) (ht : SameTyN x y) :
    (bindCmp op [a, b] = .ok .null ↔ x = none ∨ y = none) ∧
    (∀ x' y', x = some x' → y = some y' → ∃ r, bindCmp op [a, b] = .ok (.bool r) ∧ (r = true ↔ CmpHolds op x' y')) := by
  have key : ∀ x' y', x = some x' → y = some y' → ∃ r, bindCmp op [a, b] = .ok (.bool r) ∧ (r = true ↔ CmpHolds op x' y') := by
    rintro x' y' rfl rfl
    cases ha with
    | some ha => cases hb with
      | some hb =>
        simp only [bindCmp, existsNull, ha.not_null, hb.not_null, Bool.false_eq_true, if_false]
        cases op <;> simp only [opFn]
        case eq => obtain ⟨r, h1, h2⟩ := cmp_scalar .eq ha hb ht; exact ⟨r, by rw [h1]; rfl, h2⟩
        case ne =>
          obtain ⟨r, h1, h2⟩ := cmp_scalar .eq ha hb ht
          refine ⟨!r, by rw [h1]; rfl, ?_⟩
          simp only [OpHolds] at h2
          simp only [CmpHolds, ne_eq, ← h2]; simp
        case gt => obtain ⟨r, h1, h2⟩ := cmp_scalar .gt ha hb ht; exact ⟨r, by rw [h1]; rfl, h2⟩
        case ge => obtain ⟨r, h1, h2⟩ := cmp_scalar .gte ha hb ht; exact ⟨r, by rw [h1]; rfl, h2.trans (ge_iff ht)⟩
        case lt => obtain ⟨r, h1, h2⟩ := cmp_scalar .lt ha hb ht; exact ⟨r, by rw [h1]; rfl, h2⟩
        case le => obtain ⟨r, h1, h2⟩ := cmp_scalar .lte ha hb ht; exact ⟨r, by rw [h1]; rfl, h2.trans (le_iff ht)⟩
  refine ⟨⟨fun h => ?_, fun h => ?_⟩, key⟩
  · cases x with
    | none => exact .inl rfl
    | some x' => cases y with
      | none => exact .inr rfl
      | some y' =>
        obtain ⟨r, h1, _⟩ := key x' y' rfl rfl
        rw [h1] at h; cases h
  · simp only [bindCmp, existsNull, ha.isNull_iff, hb.isNull_iff]
    rcases h with rfl | rfl
    · simp
    · cases x <;> simp

/-- Strings compare by code point, not by length. -/
example : bindCmp .lt [.str ['a','b'], .str ['b']] = .ok (.bool true) := by
  obtain ⟨r, h1, h2⟩ := (C24_scalar_partial .lt _ _ _ _ (.some (.str ['a','b'])) (.some (.str ['b'])) trivial).2 _ _ rfl rfl
  rw [h1, h2.mpr (by simp [CmpHolds, Lt]; decide)]
example : Arg (.int 1) (some (.bool true)) := .some .true

/-- SQL types of nested values; `scalar` stands for any scalar type. -/
inductive Ty where
  | scalar (x : Scalar)
  | arr (t : Ty)
  | struct (names : List (List Char)) (tys : List Ty)

/-- `v` is a value of the type, possibly NULL, nested values included.  Inside
arrays and structs BOOL is represented by `BoolValue`, at top level by 0/1; both
are allowed here.  Field names are those of the type. -/
inductive HasTy : Val → Ty → Prop where
  | null {t} : HasTy .null t
  | scalar {v x y} : Arg1 v x → SameTy x y → HasTy v (.scalar y)
  | bool {b c} : HasTy (.bool b) (.scalar (.bool c))
  | arr {vs t} : (∀ v ∈ vs, HasTy v t) → HasTy (.arr vs) (.arr t)
  | struct {names vals tys} : vals.length = names.length → tys.length = names.length →
      (∀ (i : Nat) v t, vals[i]? = some v → tys[i]? = some t → HasTy v t) → HasTy (.struct names vals) (.struct names tys)

/-- Full C24: also for arrays and structs, a comparison of two values of one type
never fails, is NULL when an operand is NULL, and equality of NULL-free values is
equality. -/
def C24_full : Prop :=
  ∀ (a b : Val) (t : Ty), HasTy a t → HasTy b t → ∃ v, bindCmp .eq [a, b] = .ok v ∧ ((a.isNull ∨ b.isNull) → v = .null)

/-- `[NULL] = [NULL]` dereferences a nil value. -/
theorem C24_full_false : ¬ C24_full := by
  intro h
  have hty : HasTy (.arr [.null]) (.arr (.scalar (.int 0))) := .arr (by simp; exact .null)
  obtain ⟨v, hv, _⟩ := h _ _ _ hty hty
  simp [bindCmp, existsNull, Val.isNull, opFn, cmp, cmpAux, cmpList, cmpLeaf] at hv

/-- **C24** Of two BOOLs only equality can be asked: `FALSE < TRUE` and the other order comparisons are errors (not a crash),
whatever the values. -/
theorem C24_bool (a b : Bool) :
    bindCmp .eq [.bool a, .bool b] = .ok (.bool (a == b)) ∧ bindCmp .ne [.bool a, .bool b] = .ok (.bool (a != b)) ∧
    bindCmp .lt [.bool a, .bool b] = .err ∧ bindCmp .le [.bool a, .bool b] = .err ∧
    bindCmp .gt [.bool a, .bool b] = .err ∧ bindCmp .ge [.bool a, .bool b] = .err := by
  cases a <;> cases b <;> exact ⟨rfl, rfl, rfl, rfl, rfl, rfl⟩

/-- No NULL anywhere inside. -/
inductive NoNull : Val → Prop where
  | int (i) : NoNull (.int i)
  | bool (b) : NoNull (.bool b)
  | str (s) : NoNull (.str s)
  | bytes (b) : NoNull (.bytes b)
  | num (r big) : NoNull (.num r big)
  | time (k ns) : NoNull (.time k ns)
  | arr {vs} : (∀ v ∈ vs, NoNull v) → NoNull (.arr vs)
  | struct {keys vals} : (∀ v ∈ vals, NoNull v) → keys.Nodup → NoNull (.struct keys vals)

/-- Same representation throughout: `BoolValue` never mixed with 0/1 (nested
values all come out of one decoder, top-level ones out of SQLite). -/
inductive SameRep : Val → Val → Prop where
  | int (i j) : SameRep (.int i) (.int j)
  | bool (a b) : SameRep (.bool a) (.bool b)
  | str (s t) : SameRep (.str s) (.str t)
  | bytes (a b) : SameRep (.bytes a) (.bytes b)
  | num (r q big) : SameRep (.num r big) (.num q big)
  | time (k m n) : SameRep (.time k m) (.time k n)
  | arr {as bs} : (∀ a ∈ as, ∀ b ∈ bs, SameRep a b) → SameRep (.arr as) (.arr bs)
  | struct {keys as bs} : as.length = keys.length → bs.length = keys.length →
      (∀ (i : Nat) a b, as[i]? = some a → bs[i]? = some b → SameRep a b) → SameRep (.struct keys as) (.struct keys bs)

theorem cmpLeaf_eq_int (a b : Int) : cmpLeaf .eq (.int a) (.int b) = .ok (decide (a = b)) := rfl

/-- The result of the method does not depend on the call direction and decides equality. -/
def Decides (flip : Bool) (a b : Val) : Prop := ∃ r, cmpAux .eq flip a b = .ok r ∧ (r = true ↔ a = b)

theorem decides_list (as : List Val) (flip : Bool) :
    ∀ bs : List Val, as.length = bs.length → (∀ (i : Nat) a b, as[i]? = some a → bs[i]? = some b → Decides flip a b) →
    ∃ r, cmpList .eq flip as bs = .ok r ∧ (r = true ↔ as = bs) := by
  induction as with
  | nil => intro bs hl _; cases bs with
    | nil => exact ⟨true, rfl, by simp⟩
    | cons b bs => simp at hl
  | cons a as ih =>
    intro bs hl h
    cases bs with
    | nil => simp at hl
    | cons b bs =>
      obtain ⟨r, h1, h2⟩ := h 0 a b rfl rfl
      obtain ⟨r', h3, h4⟩ := ih bs (by simpa using hl) (fun i a b ha hb => h (i + 1) a b (by simpa using ha) (by simpa using hb))
      simp only [cmpList, h1, Res.bind'_ok]
      cases r
      · exact ⟨false, by simp, by have := mt h2.mpr; simp at this; simp [this]⟩
      · refine ⟨r', by simp [h3], ?_⟩
        have := h2.mp rfl
        simp [h4, this]

theorem lookup_zip_append {K V : Type} [BEq K] [LawfulBEq K] (k : K) (v : V) (ks : List K) (vs : List V) 
    (hk : k ∉ ks) : ((List.zip (k :: ks) (v :: vs)).reverse).lookup k = some v := by
  simp only [List.zip_cons_cons, List.reverse_cons, List.lookup_append]
  have : ((ks.zip vs).reverse).lookup k = none := by
    rw [List.lookup_eq_none_iff]
    intro p hp
    have := List.of_mem_zip (List.mem_reverse.mp hp)
    have hne : k ≠ p.1 := fun e => hk (e ▸ this.1)
    simpa using hne
  simp [this]

theorem lookup_zip_cons_ne {K V : Type} [BEq K] [LawfulBEq K] (k k' : K) (v : V) (ks : List K) (vs : List V) (hk : k' ≠ k) :
    ((List.zip (k :: ks) (v :: vs)).reverse).lookup k' = ((List.zip ks vs).reverse).lookup k' := by
  simp only [List.zip_cons_cons, List.reverse_cons, List.lookup_append]
  have : List.lookup k' [(k, v)] = none := by
    have : (k' == k) = false := by simpa using hk
    simp [List.lookup, this]
  rw [this]; simp

theorem decides_fields (flip : Bool) (ka : List (List Char)) :
    ∀ (va : List Val) (kb : List (List Char)) (vb : List Val) (vb' : List Val),
    ka.Nodup → va.length = ka.length → vb'.length = ka.length →
    (∀ k ∈ ka, field kb vb k = field ka vb' k) →
    (∀ (i : Nat) a b, va[i]? = some a → vb'[i]? = some b → Decides flip a b) →
    ∃ r, cmpFields .eq flip ka va kb vb = .ok r ∧ (r = true ↔ va = vb') := by
  induction ka with
  | nil =>
    intro va kb vb vb' _ h1 h2 _ _
    have h1 : va = [] := List.length_eq_zero_iff.mp h1
    have h2 : vb' = [] := List.length_eq_zero_iff.mp h2
    subst h1 h2
    exact ⟨true, by simp [cmpFields], by simp⟩
  | cons k ka ih =>
    intro va kb vb vb' hnd h1 h2 hf h
    cases va with
    | nil => simp at h1
    | cons a va => cases vb' with
      | nil => simp at h2
      | cons b vb' =>
        have hk : k ∉ ka := (List.nodup_cons.mp hnd).1
        simp only [List.length_cons, Nat.add_right_cancel_iff] at h1 h2
        obtain ⟨r, h3, h4⟩ := h 0 a b rfl rfl
        obtain ⟨r', h5, h6⟩ := ih va kb vb vb' (List.nodup_cons.mp hnd).2 h1 h2
          (fun k' hk' => by
            rw [hf k' (List.mem_cons_of_mem _ hk')]
            unfold field
            rw [lookup_zip_cons_ne k k' b ka vb' (by rintro rfl; exact hk hk')])
          (fun i a b ha hb => h (i + 1) a b (by simpa using ha) (by simpa using hb))
        have hfk : field kb vb k = b := by
          rw [hf k (List.mem_cons_self ..)]
          unfold field
          rw [lookup_zip_append k b ka vb' hk]
        simp only [cmpFields, hk, if_false, hfk, h3, Res.bind'_ok]
        cases r
        · exact ⟨false, by simp, by have := mt h4.mpr; simp at this; simp [this]⟩
        · refine ⟨r', by simp [h5], ?_⟩
          have := h4.mp rfl
          simp [h6, this]

theorem decides_of {a b : Val} (hs : SameRep a b) : ∀ flip, NoNull a → NoNull b → Decides flip a b := by
  induction hs with
  | int i j => intro flip _ _; cases flip <;> exact ⟨_, rfl, by simp [Op.run]; try omega⟩
  | bool a b => intro flip _ _; cases flip <;> exact ⟨_, rfl, by cases a <;> cases b <;> simp⟩
  | str s t =>
    intro flip _ _
    cases flip
    · exact ⟨_, rfl, by simp [Op.run, utf8_eq_iff]⟩
    · exact ⟨_, rfl, by simp [Op.run, utf8_eq_iff]; exact eq_comm⟩
  | bytes a b =>
    intro flip _ _
    cases flip
    · exact ⟨_, rfl, by simp [Op.run]⟩
    · exact ⟨_, rfl, by simp [Op.run]; exact eq_comm⟩
  | num r q big =>
    intro flip _ _
    cases flip
    · exact ⟨_, rfl, by simp [Op.run]⟩
    · exact ⟨_, rfl, by simp [Op.run]; exact eq_comm⟩
  | time k m n =>
    intro flip _ _
    cases flip
    · exact ⟨_, rfl, by simp [Op.run]⟩
    · exact ⟨_, rfl, by simp [Op.run]; exact eq_comm⟩
  | @arr as bs _ ih =>
    intro flip hna hnb
    cases hna with | arr hna => cases hnb with | arr hnb =>
    by_cases hl : as.length = bs.length
    · obtain ⟨r, h1, h2⟩ := decides_list as (!flip) bs hl (fun i a b ha hb =>
        ih a (List.mem_of_getElem? ha) b (List.mem_of_getElem? hb) _ (hna a (List.mem_of_getElem? ha)) (hnb b (List.mem_of_getElem? hb)))
      refine ⟨r, ?_, by simp [h2]⟩
      cases flip <;> simpa [cmpAux, hl] using h1
    · refine ⟨false, ?_, ?_⟩
      · cases flip <;> simp [cmpAux, hl]
      · simp; rintro rfl; exact hl rfl
  | @struct keys as bs hla hlb _ ih =>
    intro flip hna hnb
    cases hna with | struct hna hnd => cases hnb with | struct hnb _ =>
    obtain ⟨r, h1, h2⟩ := decides_fields (!flip) keys as keys bs bs hnd hla hlb (fun _ _ => rfl) (fun i a b ha hb =>
      ih i a b ha hb _ (hna a (List.mem_of_getElem? ha)) (hnb b (List.mem_of_getElem? hb)))
    refine ⟨r, ?_, by simp [h2]⟩
    cases flip <;> simpa [cmpAux] using h1

/-- **C24** for nested values: `=` and `<>` of two NULL-free values of the same
type (structs with the same, distinct field names) decide equality, at any
nesting depth. -/
theorem C24_nested_partial (a b : Val) (hs : SameRep a b) (ha : NoNull a) (hb : NoNull b) :
    ∃ r, bindCmp .eq [a, b] = .ok (.bool r) ∧ bindCmp .ne [a, b] = .ok (.bool (!r)) ∧ (r = true ↔ a = b) := by
  obtain ⟨r, h1, h2⟩ := decides_of hs false ha hb
  have na : a.isNull = false := by cases ha <;> rfl
  have nb : b.isNull = false := by cases hb <;> rfl
  refine ⟨r, ?_, ?_, h2⟩ <;> simp [bindCmp, existsNull, na, nb, opFn, cmp, h1]

example : SameRep (.arr [.int 1, .int 2]) (.arr [.int 1, .int 3]) := .arr (by simp; exact ⟨⟨.int _ _, .int _ _⟩, .int _ _, .int _ _⟩)
example : bindCmp .eq [.arr [.int 1, .int 2], .arr [.int 1, .int 3]] = .ok (.bool false) := rfl

/-- Equal structs whose field names differ cannot be compared: nil dereference. -/
theorem C24_struct_names_panic :
    bindCmp .eq [.struct [['a']] [.int 1], .struct [['b']] [.int 1]] = .panic := by
  rfl

/-- The ordering methods of arrays are reversed: `[1].LT([2])` is false and
`[2].LT([1])` is true.  SQL does not allow `<` on arrays, but ORDER BY, MIN and
MAX reach these methods for structs. -/
theorem C24_nested_order_reversed :
    cmp .lt (.arr [.int 1]) (.arr [.int 2]) = .ok false ∧ cmp .lt (.arr [.int 2]) (.arr [.int 1]) = .ok true ∧
    cmp .gt (.struct [['a']] [.int 2]) (.struct [['a']] [.int 1]) = .ok false := by
  refine ⟨rfl, rfl, ?_⟩
  simp [cmp, cmpAux, fieldCount, cmpFields, field, cmpLeaf, toInt64, Op.run]

/-! ## C25 -/

/-- SQL's IS DISTINCT FROM on nullable scalars. -/
def Distinct (x y : Option Scalar) : Prop := x ≠ y

/-- **C25**: never NULL, NULL treated as an ordinary value, and exact complements. -/
theorem C25_distinct (a b : Val) (x y : Option Scalar) (ha : Arg a x) (hb : Arg b y) (ht : SameTyN x y) :
    ∃ r : Bool, isDistinctFrom a b = .ok (.bool r) ∧ isNotDistinctFrom a b = .ok (.bool (!r)) ∧ (r = true ↔ x ≠ y) := by
  cases ha with
  | null => cases hb with
    | null => exact ⟨false, rfl, rfl, by simp⟩
    | some hb => refine ⟨true, ?_, ?_, by simp⟩ <;> simp [isDistinctFrom, isNotDistinctFrom, hb.not_null]
  | some ha => cases hb with
    | null => refine ⟨true, ?_, ?_, by simp⟩ <;> simp [isDistinctFrom, isNotDistinctFrom, ha.not_null]
    | some hb =>
      obtain ⟨r, h1, h2⟩ := cmp_scalar .eq ha hb ht
      refine ⟨!r, ?_, ?_, ?_⟩
      · simp [isDistinctFrom, ha.not_null, hb.not_null, h1]
      · simp [isNotDistinctFrom, ha.not_null, hb.not_null, h1]
      · simp only [OpHolds] at h2; simp [← h2]

example : isDistinctFrom .null (.int 3) = .ok (.bool true) := rfl

/-! ## C26 -/

/-- SQL's `x IN (ys)`. -/
def InSpec (x : Option Scalar) (ys : List (Option Scalar)) (r : Tri) : Prop :=
  (r = some true ↔ ∃ v, x = some v ∧ some v ∈ ys) ∧
  (r = none ↔ (¬ ∃ v, x = some v ∧ some v ∈ ys) ∧ ys ≠ [] ∧ (x = none ∨ none ∈ ys))

/-- Full C26. -/
def C26_full : Prop :=
  ∀ (a : Val) (vs : List Val) (x : Option Scalar) (ys : List (Option Scalar)), Arg a x → All2 Arg vs ys →
    (∀ y ∈ ys, SameTyN x y) → ∃ r, bindIn a vs = .ok (ofTri r) ∧ InSpec x ys r

/-- `1 IN (2, NULL)` is FALSE instead of NULL. -/
theorem C26_full_false : ¬ C26_full := by
  intro h
  obtain ⟨r, h1, h2⟩ := h (.int 1) [.int 2, .null] (some (.int 1)) [some (.int 2), none] (.some (.int 1))
    (.cons (.some (.int 2)) (.cons .null .nil)) (by simp [SameTyN, SameTy])
  have : r = some false := by
    have : bindIn (.int 1) [.int 2, .null] = .ok (.bool false) := rfl
    rw [this] at h1
    cases r with
    | none => cases h1
    | some b => cases b with
      | false => rfl
      | true => cases h1
  subst this
  simp [InSpec] at h2

theorem inScan_spec {a : Val} {x : Scalar} (ha : Arg1 a x) {vs : List Val} {ys : List (Option Scalar)} (h : All2 Arg vs ys)
    (ht : ∀ y ∈ ys, SameTyN (some x) y) : ∃ r : Bool, inScan a vs = .ok (.bool r) ∧ (r = true ↔ some x ∈ ys) := by
  induction h with
  | nil => exact ⟨false, rfl, by simp⟩
  | @cons v y vs ys h _ ih =>
    obtain ⟨r, h1, h2⟩ := ih (fun y hy => ht y (List.mem_cons_of_mem _ hy))
    cases h with
    | null => exact ⟨r, by simp [inScan, Val.isNull, h1], by simp [h2]⟩
    | some hv =>
      obtain ⟨c, h3, h4⟩ := cmp_scalar .eq ha hv (ht _ (List.mem_cons_self ..))
      simp only [OpHolds] at h4
      simp only [inScan, hv.not_null, Bool.false_eq_true, if_false, h3, Res.bind'_ok]
      cases c
      · refine ⟨r, by simp [h1], ?_⟩
        simp at h4; simp [h2, h4]
      · refine ⟨true, by simp, ?_⟩
        simp [h4.mp rfl]

/-- **C26** without NULLs among the list elements (or when one matches): IN is
right.  Missing: a list with a NULL and no match, where the driver says FALSE. -/
theorem C26_in_partial (a : Val) (vs : List Val) (x : Option Scalar) (ys : List (Option Scalar)) (ha : Arg a x)
    (h : All2 Arg vs ys) (hne : ys ≠ []) (ht : ∀ y ∈ ys, SameTyN x y) (hn : none ∉ ys ∨ x ∈ ys) :
    ∃ r, bindIn a vs = .ok (ofTri r) ∧ InSpec x ys r := by
  cases ha with
  | null => exact ⟨none, rfl, by simp [InSpec, hne]⟩
  | @some _ x' ha =>
    obtain ⟨r, h1, h2⟩ := inScan_spec ha h ht
    refine ⟨some r, by simp [bindIn, ha.not_null, h1, ofTri], ?_⟩
    cases r
    · simp at h2
      rcases hn with hn | hn
      · simp [InSpec, h2, hn]
      · exact absurd hn h2
    · simp at h2
      simp [InSpec, h2]

/-- A value is found in a list exactly when it is there, NULLs or not. -/
theorem C26_true_partial (a : Val) (vs : List Val) (x : Scalar) (ys : List (Option Scalar)) (ha : Arg1 a x)
    (h : All2 Arg vs ys) (ht : ∀ y ∈ ys, SameTyN (some x) y) : bindIn a vs = .ok (.bool true) ↔ some x ∈ ys := by
  obtain ⟨r, h1, h2⟩ := inScan_spec ha h ht
  simp [bindIn, ha.not_null, h1, h2]

example : bindIn (.int 2) [.null, .int 2] = .ok (.bool true) := rfl

/-! ### IN UNNEST -/

/-- `x IN UNNEST(array)` with SQL's NULL semantics. -/
def C26_unnest_full : Prop :=
  ∀ (a : Val) (vs : List Val) (x : Option Scalar) (ys : List (Option Scalar)), Arg a x → All2 Arg vs ys →
    (∀ y ∈ ys, SameTyN x y) → ∃ r, bindInArray [a, .arr vs] = .ok (ofTri r) ∧ InSpec x ys r

/-- A NULL element before the value panics. -/
theorem C26_unnest_full_false : ¬ C26_unnest_full := by
  intro h
  obtain ⟨r, h1, -⟩ := h (.int 1) [.null, .int 1] (some (.int 1)) [none, some (.int 1)] (.some (.int 1))
    (.cons .null (.cons (.some (.int 1)) .nil)) (by simp [SameTyN, SameTy])
  have : bindInArray [.int 1, .arr [.null, .int 1]] = .panic := rfl
  rw [this] at h1; cases h1

theorem arrayHas_spec {a : Val} {x : Scalar} (ha : Arg1 a x) {vs : List Val} {ys : List Scalar} (h : All2 Arg1 vs ys)
    (ht : ∀ y ∈ ys, SameTy x y) : ∃ r : Bool, arrayHas a vs = .ok r ∧ (r = true ↔ x ∈ ys) := by
  induction h with
  | nil => exact ⟨false, rfl, by simp⟩
  | @cons v y vs ys hv _ ih =>
    obtain ⟨r, h1, h2⟩ := ih (fun y hy => ht y (List.mem_cons_of_mem _ hy))
    obtain ⟨c, h3, h4⟩ := cmp_scalar .eq hv ha (SameTy_symm (ht _ (List.mem_cons_self ..)))
    simp only [OpHolds] at h4
    simp only [arrayHas, h3, Res.bind'_ok]
    cases c
    · refine ⟨r, by simp [h1], ?_⟩
      simp at h4
      rw [h2, List.mem_cons]
      constructor
      · exact .inr
      · rintro (h | h)
        · exact absurd h.symm h4
        · exact h
    · exact ⟨true, by simp, by simp [h4.mp rfl]⟩

/-- **C26** A value is IN UNNEST of an array without NULLs exactly when it is an element.  Missing: NULL
elements, and a NULL value, where the result is FALSE. -/
theorem C26_unnest_partial (a : Val) (vs : List Val) (x : Scalar) (ys : List Scalar) (ha : Arg1 a x) (h : All2 Arg1 vs ys)
    (ht : ∀ y ∈ ys, SameTy x y) : bindInArray [a, .arr vs] = .ok (.bool (decide (x ∈ ys))) := by
  obtain ⟨r, h1, h2⟩ := arrayHas_spec ha h ht
  have hn : existsNull [a, .arr vs] = false := by simp [existsNull_eq, ha.not_null, show (Val.arr vs).isNull = false from rfl]
  have : r = decide (x ∈ ys) := by cases r <;> simp_all
  simp only [bindInArray, hn, Bool.false_eq_true, if_false, h1, Res.bind'_ok, this]

example : bindInArray [.str ['b'], .arr [.str ['a'], .str ['b']]] = .ok (.bool true) := rfl

/-! ## C27 -/

/-- **C27** COALESCE: the first non-NULL operand, NULL if there is none. -/
theorem C27_coalesce (args : List Val) (hne : args ≠ []) :
    (∃ pre v post, args = pre ++ v :: post ∧ (∀ u ∈ pre, u.isNull = true) ∧ v.isNull = false ∧ bindCoalesce args = .ok v) ∨
    ((∀ u ∈ args, u.isNull = true) ∧ bindCoalesce args = .ok .null) := by
  have : bindCoalesce args = coalesce args := by
    cases args with
    | nil => exact absurd rfl hne
    | cons => rfl
  rw [this]; clear this hne
  induction args with
  | nil => right; exact ⟨by simp, rfl⟩
  | cons a as ih =>
    cases hn : a.isNull
    · left; exact ⟨[], a, as, rfl, by simp, hn, by simp [coalesce, hn]⟩
    · rcases ih with ⟨pre, v, post, h1, h2, h3, h4⟩ | ⟨h1, h2⟩
      · left; exact ⟨a :: pre, v, post, by simp [h1], by simpa [hn] using h2, h3, by simp [coalesce, hn, h4]⟩
      · right; exact ⟨by simpa [hn] using h1, by simp [coalesce, hn, h2]⟩

/-- **C27** IFNULL. -/
theorem C27_ifnull (e n : Val) (x : Option Scalar) (h : Arg e x) :
    bindIfNull [e, n] = .ok (match x with | some _ => e | none => n) := by
  cases h with
  | null => rfl
  | some h => simp [bindIfNull, h.not_null]

/-- **C27** IF: the second operand exactly when the condition is TRUE. -/
theorem C27_if (c t f : Val) (x : Tri) (h : ArgTri c x) : bindIf [c, t, f] = .ok (if x = some true then t else f) := by
  cases h <;> rfl

/-- Full NULLIF: NULL when the operands are equal, else the first operand. -/
def C27_nullif_full : Prop :=
  ∀ (a b : Val) (x y : Option Scalar), Arg a x → Arg b y → SameTyN x y →
    ∃ v, bindNullIf [a, b] = .ok v ∧ ((x ≠ none ∧ x = y) → v = .null) ∧ (x ≠ y → v = a)

/-- NULLIF(1, NULL) dereferences nil. -/
theorem C27_nullif_full_false : ¬ C27_nullif_full := by
  intro h
  obtain ⟨v, hv, _⟩ := h (.int 1) .null (some (.int 1)) none (.some (.int 1)) .null trivial
  simp [bindNullIf, Val.isNull, cmp, cmpAux, cmpLeaf] at hv

/-- **C27** NULLIF with a non-NULL second operand. -/
theorem C27_nullif_partial (a b : Val) (x : Option Scalar) (y : Scalar) (ha : Arg a x) (hb : Arg1 b y) (ht : SameTyN x (some y)) :
    ∃ v, bindNullIf [a, b] = .ok v ∧ (x = some y → v = .null) ∧ (x ≠ some y → v = a) := by
  cases ha with
  | null => exact ⟨.null, rfl, fun h => rfl, fun _ => rfl⟩
  | some ha =>
    obtain ⟨r, h1, h2⟩ := cmp_scalar .eq ha hb ht
    simp only [OpHolds] at h2
    cases r
    · refine ⟨a, by simp [bindNullIf, ha.not_null, h1], ?_, fun _ => rfl⟩
      intro e; simp at e; exact absurd (h2.mpr e) (by simp)
    · refine ⟨.null, by simp [bindNullIf, ha.not_null, h1], fun _ => rfl, ?_⟩
      intro e; exact absurd (congrArg some (h2.mp rfl)) e

example : bindNullIf [.int 2, .int 2] = .ok .null := rfl
example : bindNullIf [.int 2, .int 3] = .ok (.int 2) := rfl

/-- The argument list ZetaSQL produces for CASE: condition and result of every
branch, then the ELSE result if there is one. -/
def caseArgs (ws : List (Val × Val)) (e : Option Val) : List Val :=
  ws.flatMap (fun w => [w.1, w.2]) ++ e.toList

theorem caseWhens_caseArgs (ws : List (Val × Val)) (e : Option Val) : caseWhens (caseArgs ws e) = ws := by
  induction ws with
  | nil => cases e <;> rfl
  | cons w ws ih => simpa [caseArgs, caseWhens] using ih

theorem length_caseArgs (ws : List (Val × Val)) (e : Option Val) : (caseArgs ws e).length = 2 * ws.length + e.toList.length := by
  induction ws with
  | nil => simp [caseArgs]
  | cons w ws ih => simp only [caseArgs, List.flatMap_cons, List.length_append, List.length_cons, List.length_nil] at ih ⊢; omega

theorem caseElse_caseArgs (ws : List (Val × Val)) (e : Option Val) : caseElse (caseArgs ws e) = e := by
  unfold caseElse
  rw [length_caseArgs]
  cases e with
  | none => rw [if_neg (by simp; omega)]
  | some e => rw [if_pos (by simp; omega)]; simp [caseArgs]

theorem evalCase_spec (test : Val → Bool) (ws : List (Val × Val)) (e : Option Val) :
    (∃ pre c v post, ws = pre ++ (c, v) :: post ∧ (∀ w ∈ pre, test w.1 = false) ∧ test c = true ∧ evalCase test ws e = v) ∨
    ((∀ w ∈ ws, test w.1 = false) ∧ evalCase test ws e = e.getD .null) := by
  induction ws with
  | nil => right; refine ⟨by simp, ?_⟩; cases e <;> rfl
  | cons w ws ih =>
    obtain ⟨c, v⟩ := w
    cases hc : test c
    · rcases ih with ⟨pre, c', v', post, h1, h2, h3, h4⟩ | ⟨h1, h2⟩
      · left; refine ⟨(c, v) :: pre, c', v', post, by simp [h1], ?_, h3, by simp [evalCase, hc, h4]⟩
        intro w hw; rcases List.mem_cons.mp hw with rfl | hw
        · exact hc
        · exact h2 w hw
      · right; refine ⟨?_, by simp [evalCase, hc, h2]⟩
        intro w hw; rcases List.mem_cons.mp hw with rfl | hw
        · exact hc
        · exact h1 w hw
    · left; exact ⟨[], c, v, ws, rfl, by simp, hc, by simp [evalCase, hc]⟩

/-- A WHEN condition as SQLite sees it. -/
inductive StoredTri : Val → Tri → Prop where
  | null : StoredTri .null none
  | one : StoredTri (.int 1) (some true)
  | zero : StoredTri (.int 0) (some false)

theorem StoredTri.test {v t} (h : StoredTri v t) : sqliteTrue v = true ↔ t = some true := by
  cases h <;> simp [sqliteTrue]

/-- **C27** CASE WHEN: the result of the first branch whose condition is TRUE
(a NULL condition does not count), the ELSE result if there is none, NULL if
there is no ELSE. -/
theorem C27_case (ws : List (Val × Val)) (e : Option Val) (h : ∀ w ∈ ws, ∃ t, StoredTri w.1 t) :
    (∃ pre c v post, ws = pre ++ (c, v) :: post ∧ (∀ w ∈ pre, ¬ StoredTri w.1 (some true)) ∧ StoredTri c (some true) ∧
      caseNoValue (caseArgs ws e) = v) ∨
    ((∀ w ∈ ws, ¬ StoredTri w.1 (some true)) ∧ caseNoValue (caseArgs ws e) = e.getD .null) := by
  unfold caseNoValue
  rw [caseWhens_caseArgs, caseElse_caseArgs]
  have key : ∀ w ∈ ws, (sqliteTrue w.1 = true ↔ StoredTri w.1 (some true)) := by
    intro w hw
    obtain ⟨t, ht⟩ := h w hw
    constructor
    · intro hs; rw [ht.test] at hs; exact hs ▸ ht
    · intro hs; exact hs.test.mpr rfl
  rcases evalCase_spec sqliteTrue ws e with ⟨pre, c, v, post, h1, h2, h3, h4⟩ | ⟨h1, h2⟩
  · left; refine ⟨pre, c, v, post, h1, ?_, (key (c, v) (by simp [h1])).mp h3, h4⟩
    intro w hw hs
    have := (key w (by simp [h1, hw])).mpr hs
    rw [h2 w hw] at this; cases this
  · right; refine ⟨?_, h2⟩
    intro w hw hs
    have := (key w hw).mpr hs
    rw [h1 w hw] at this; cases this

/-- **C27** `CASE v WHEN …`: the first branch whose value equals `v`, for any
equality SQLite uses on the stored forms. -/
theorem C27_case_value (sqlEq : Val → Val → Bool) (v c r : Val) (ws : List (Val × Val)) (e : Option Val) :
    ∃ u, caseWithValue sqlEq (v :: caseArgs ((c, r) :: ws) e) = some u ∧
    ((∃ pre c' v' post, (c, r) :: ws = pre ++ (c', v') :: post ∧ (∀ w ∈ pre, sqlEq v w.1 = false) ∧ sqlEq v c' = true ∧ u = v') ∨
    ((∀ w ∈ (c, r) :: ws, sqlEq v w.1 = false) ∧ u = e.getD .null)) := by
  refine ⟨evalCase (sqlEq v) ((c, r) :: ws) e, ?_, evalCase_spec _ _ _⟩
  have h1 := caseWhens_caseArgs ((c, r) :: ws) e
  have h2 := caseElse_caseArgs ((c, r) :: ws) e
  have h3 : caseArgs ((c, r) :: ws) e = c :: r :: caseArgs ws e := by simp [caseArgs]
  rw [h3] at h1 h2 ⊢
  simp only [caseWithValue, h1, h2]

/-- **C27** IF and IFNULL as rewritten to SQLite. -/
theorem C27_sql_if (c t f : Val) (x : Tri) (h : StoredTri c x) :
    sqlIf c t f = (if x = some true then t else f) ∧ sqlIfNull c f = (if x = none then f else c) := by
  cases h <;> exact ⟨rfl, rfl⟩

example : caseNoValue [.null, .int 10, .int 1, .int 20, .int 30] = .int 20 := rfl
example : caseNoValue [.int 0, .int 10] = .null := rfl
example : ∀ w ∈ [(Val.null, Val.int 10), (.int 1, .int 20)], ∃ t, StoredTri w.1 t := by
  simp; exact ⟨⟨_, .null⟩, ⟨_, .one⟩⟩

/-! ## C28 -/

/-- Truth value of a comparison of nullable operands, as a relation. -/
def CmpTri (op : SqlCmp) (x y : Option Scalar) (r : Tri) : Prop :=
  match x, y with
  | some x, some y => ∃ b : Bool, r = some b ∧ (b = true ↔ CmpHolds op x y)
  | _, _ => r = none

/-- Full C28. -/
def C28_full : Prop :=
  ∀ (v a b : Val) (x lo hi : Option Scalar), Arg v x → Arg a lo → Arg b hi → SameTyN x lo → SameTyN x hi →
    ∃ r s, CmpTri .ge x lo r ∧ CmpTri .le x hi s ∧ bindBetween [v, a, b] = .ok (ofTri (kAnd r s))

/-- `NULL BETWEEN 1 AND 2` is FALSE instead of NULL. -/
theorem C28_full_false : ¬ C28_full := by
  intro h
  obtain ⟨r, s, h1, h2, h3⟩ := h .null (.int 1) (.int 2) none (some (.int 1)) (some (.int 2)) .null (.some (.int 1)) (.some (.int 2)) trivial trivial
  simp only [CmpTri] at h1 h2
  subst h1 h2
  simp [bindBetween, existsNull, Val.isNull, kAnd, ofTri] at h3

/-- **C28** for non-NULL operands, any scalar type. -/
theorem C28_between_partial (v a b : Val) (x lo hi : Scalar) (hv : Arg1 v x) (ha : Arg1 a lo) (hb : Arg1 b hi)
    (h1 : SameTy x lo) (h2 : SameTy x hi) :
    ∃ r : Bool, bindBetween [v, a, b] = .ok (.bool r) ∧ (r = true ↔ CmpHolds .ge x lo ∧ CmpHolds .le x hi) := by
  obtain ⟨r, h3, h4⟩ := cmp_scalar .gte hv ha h1
  obtain ⟨s, h5, h6⟩ := cmp_scalar .lte hv hb h2
  refine ⟨r && s, ?_, ?_⟩
  · simp [bindBetween, existsNull, hv.not_null, ha.not_null, hb.not_null, h3, h5]
  · simp only [Bool.and_eq_true, h4, h6]
    exact and_congr (ge_iff h1) (le_iff h2)

/-- In a WHERE clause (which keeps a row only on TRUE) the difference cannot be
seen unless negated: BETWEEN is TRUE exactly when SQL says TRUE. -/
theorem C28_where_partial (v a b : Val) (x lo hi : Option Scalar) (hv : Arg v x) (ha : Arg a lo) (hb : Arg b hi)
    (h1 : SameTyN x lo) (h2 : SameTyN x hi) :
    bindBetween [v, a, b] = .ok (.bool true) ↔
      ∃ x' lo' hi', x = some x' ∧ lo = some lo' ∧ hi = some hi' ∧ CmpHolds .ge x' lo' ∧ CmpHolds .le x' hi' := by
  cases hv with
  | null => simp [bindBetween, existsNull, Val.isNull]
  | some hv => cases ha with
    | null => simp [bindBetween, existsNull, Val.isNull]
    | some ha => cases hb with
      | null => simp [bindBetween, existsNull, Val.isNull]
      | some hb =>
        obtain ⟨r, h3, h4⟩ := C28_between_partial _ _ _ _ _ _ hv ha hb h1 h2
        rw [h3]; simp [h4]

example : bindBetween [.int 2, .int 1, .int 3] = .ok (.bool true) := rfl

end Verif.Logic
