import Verif.Lemmas.QueryCore

/-!
# Rows of a SELECT, and a SELECT to which WHERE is appended
-/

namespace Verif.Query

set_option linter.unusedSectionVars false

section
variable {V : Type} [DecidableEq V] {S : Sem V} {db : Db V} {nm : Col → Nm}

/-! ## The scopes of a resolved query and of its text -/

/-- The text's scope has what the resolved query's scope has, and the columns and tables of the query are not in it. -/
structure Ctx (nm : Col → Nm) (w : WMap) (we : WEnv V) (cte : CTE V) (envr : Env V) (envs : SEnv V) (cs : List Col)
    (ts : List TName) : Prop where
  rw : RW nm w we cte
  no : NoCte ts cte
  ref : Ref nm envr envs
  away : Away nm envr cs
  dist : Dist nm cs

variable {w : WMap} {we : WEnv V} {cte : CTE V} {envr : Env V} {envs : SEnv V}

theorem Ctx.sub {cs cs' : List Col} {ts ts' : List TName} (h : Ctx nm w we cte envr envs cs ts) (hc : cs'.Sublist cs)
    (ht : ∀ t ∈ ts', t ∈ ts) : Ctx nm w we cte envr envs cs' ts' where
  rw := h.rw
  no := fun t hm => h.no t (ht t hm)
  ref := h.ref
  away := h.away.mono fun _ hm => hc.subset hm
  dist := List.Nodup.sublist (hc.map nm) h.dist

theorem Ctx.l {a b : List Col} {ts us : List TName} (h : Ctx nm w we cte envr envs (a ++ b) (ts ++ us)) :
    Ctx nm w we cte envr envs a ts :=
  h.sub (List.sublist_append_left ..) fun _ hm => List.mem_append_left _ hm

theorem Ctx.r {a b : List Col} {ts us : List TName} (h : Ctx nm w we cte envr envs (a ++ b) (ts ++ us)) :
    Ctx nm w we cte envr envs b us :=
  h.sub (List.sublist_append_right ..) fun _ hm => List.mem_append_right _ hm

theorem Ctx.inj {cs h : List Col} {ts : List TName} (hc : Ctx nm w we cte envr envs cs ts) (hh : ∀ c ∈ h, c ∈ cs) :
    ∀ a ∈ h, ∀ b ∈ h, nm a = nm b → a = b := fun a ha b hb => hc.dist.inj a (hh a ha) b (hh b hb)

/-- The scope below a row. -/
theorem Ctx.bind {a b h : List Col} {ts us : List TName} (hc : Ctx nm w we cte envr envs (a ++ b) (ts ++ us))
    (hh : ∀ c ∈ h, c ∈ a) (vs : List V) :
    Ctx nm w we cte (bindR h vs envr) (bindR (h.map nm) vs envs) b us where
  rw := hc.rw
  no := hc.r.no
  ref := ref_bind hc.ref (hc.l.away.mono hh) (hc.l.inj hh) vs
  away := away_bind hc.r.away (fun c hcb d hd => Ne.symm ((Dist.append hc.dist).2.2 d (hh d hd) c hcb)) vs
  dist := hc.r.dist

/-- The scope of WHERE and ON. -/
theorem Ctx.scope {a b h : List Col} {ts us : List TName} (hc : Ctx nm w we cte envr envs (a ++ b) (ts ++ us))
    (hh : ∀ c ∈ h, c ∈ a) {items : List Item} (hal : AlFree nm envr items) (q : SEnv V → List Tok → Option (Rel V))
    (vs : List V) :
    Ctx nm w we cte (bindR h vs envr) (scope S q items envs (h.map nm) vs) b us where
  rw := hc.rw
  no := hc.r.no
  ref := ref_scope hc.ref (hc.l.away.mono hh) (hc.l.inj hh) hal q vs
  away := away_bind hc.r.away (fun c hcb d hd => Ne.symm ((Dist.append hc.dist).2.2 d (hh d hd) c hcb)) vs
  dist := hc.r.dist

/-- Any scope which has what the resolved scope has. -/
theorem Ctx.withRef {a b h : List Col} {ts us : List TName} (hc : Ctx nm w we cte envr envs (a ++ b) (ts ++ us))
    (hh : ∀ c ∈ h, c ∈ a) {vs : List V} {env : SEnv V} (hr : Ref nm (bindR h vs envr) env) :
    Ctx nm w we cte (bindR h vs envr) env b us where
  rw := hc.rw
  no := hc.r.no
  ref := hr
  away := away_bind hc.r.away (fun c hcb d hd => Ne.symm ((Dist.append hc.dist).2.2 d (hh d hd) c hcb)) vs
  dist := hc.r.dist

/-! ## AS names -/

theorem alias_mem {items : List Item} {n : Nm} {e : SExpr} (h : alias items n = some e) :
    .ex e (some n) ∈ items := by
  induction items with
  | nil => simp [alias] at h
  | cons i is ih =>
    cases i with
    | star => exact List.mem_cons_of_mem _ (ih (by simpa [alias] using h))
    | agg f args m => exact List.mem_cons_of_mem _ (ih (by simpa [alias] using h))
    | ex x m =>
      cases m with
      | none => exact List.mem_cons_of_mem _ (ih (by simpa [alias] using h))
      | some m =>
        simp only [alias] at h
        split at h
        · rename_i hm
          subst hm
          cases h
          exact List.mem_cons_self ..
        · exact List.mem_cons_of_mem _ (ih h)

/-- The AS names are names of these columns. -/
def AlIn (nm : Col → Nm) (cs : List Col) (items : List Item) : Prop :=
  ∀ e n, .ex e (some n) ∈ items → ∃ c ∈ cs, n = nm c

theorem AlIn.free {cs : List Col} {items : List Item} (h : AlIn nm cs items) (ha : Away nm envr cs) :
    AlFree nm envr items := by
  intro d hd
  cases ho : alias items (nm d) with
  | none => rfl
  | some e =>
    obtain ⟨c, hc, hn⟩ := h e (nm d) (alias_mem ho)
    exact absurd hn.symm (ha d hd c hc)

theorem findItem_mem {its : List (Col × Item)} {c : Col} {i : Item} (h : findItem its c = some i) : (c, i) ∈ its := by
  induction its with
  | nil => simp [findItem] at h
  | cons x xs ih =>
    obtain ⟨d, j⟩ := x
    simp only [findItem] at h
    split at h
    · rename_i hd
      cases h
      subst hd
      exact List.mem_cons_self ..
    · exact List.mem_cons_of_mem _ (ih h)

theorem shapeC_mem : ∀ {cs : List Col} {xs : List SExpr} {x : Col × Item}, x ∈ shapeC nm cs xs →
    x.1 ∈ cs ∧ ∃ e, x.2 = .ex e (some (nm x.1))
  | [], _, x, hx => by simp [shapeC] at hx
  | _ :: _, [], x, hx => by simp [shapeC] at hx
  | c :: cs, y :: ys, x, hx => by
    simp only [shapeC, List.mem_cons] at hx
    rcases hx with rfl | hx
    · exact ⟨List.mem_cons_self .., y, rfl⟩
    · obtain ⟨h1, h2⟩ := shapeC_mem hx
      exact ⟨List.mem_cons_of_mem _ h1, h2⟩

theorem shapeA_mem : ∀ {cs : List Col} {xs : List (Nat × List SExpr)} {x : Col × Item}, x ∈ shapeA nm cs xs →
    x.1 ∈ cs ∧ ∃ y : Nat × List SExpr, x.2 = .agg y.1 y.2 (some (nm x.1))
  | [], _, x, hx => by simp [shapeA] at hx
  | _ :: _, [], x, hx => by simp [shapeA] at hx
  | c :: cs, y :: ys, x, hx => by
    simp only [shapeA, List.mem_cons] at hx
    rcases hx with rfl | hx
    · exact ⟨List.mem_cons_self .., y, rfl⟩
    · obtain ⟨h1, h2⟩ := shapeA_mem hx
      exact ⟨List.mem_cons_of_mem _ h1, h2⟩

theorem selList_alIn {its : List (Col × Item)} {cs : List Col}
    (h : ∀ x ∈ its, ∀ e n, x.2 = .ex e (some n) → x.1 ∈ cs ∧ n = nm x.1) (cols : List Col) :
    AlIn nm cs (selList nm its cols) := by
  intro e n hm
  simp only [selList, List.mem_map] at hm
  obtain ⟨c, _, hi⟩ := hm
  cases hf : findItem its c with
  | none => simp [hf] at hi
  | some i =>
    rw [hf] at hi
    obtain ⟨h1, h2⟩ := h (c, i) (findItem_mem hf) e n (by simpa using hi)
    exact ⟨c, h1, h2⟩

/-! ## Rows -/

theorem lk_isSome {α : Type} [DecidableEq α] : ∀ {h : List α} {vs : List V} {n : α}, vs.length = h.length → n ∈ h →
    ∃ v, lk h vs n = some v
  | [], _, _, _, hn => by simp at hn
  | x :: xs, [], _, hl, _ => by simp at hl
  | x :: xs, v :: vs, n, hl, hn => by
    simp only [lk]
    split
    · exact ⟨v, rfl⟩
    · rename_i hx
      exact lk_isSome (by simpa using hl) (by simpa [Ne.symm hx] using hn)

/-- A row's values below its own header. -/
theorem pick_self {α : Type} [DecidableEq α] : ∀ {h : List α} {vs : List V}, h.Nodup → vs.length = h.length →
    mapO (lk h vs) h = some vs
  | [], [], _, _ => rfl
  | [], _ :: _, _, hl => by simp at hl
  | x :: xs, [], _, hl => by simp at hl
  | x :: xs, v :: vs, hn, hl => by
    rw [List.nodup_cons] at hn
    refine mapO_cons' (by simp [lk]) ?_
    rw [← pick_self hn.2 (by simpa using hl : vs.length = xs.length)]
    refine mapO_congr fun y hy => ?_
    have : x ≠ y := fun e => hn.1 (e ▸ hy)
    simp [lk, this]

theorem pick_lk {α : Type} [DecidableEq α] {h : List α} {a : List V} : ∀ {cols : List α} {r : List V} {c : α} {v : V},
    mapO (lk h a) cols = some r → lk cols r c = some v → lk h a c = some v
  | [], r, c, v, _, hl => by simp [lk] at hl
  | x :: xs, r, c, v, hp, hl => by
    obtain ⟨u, us, h1, h2, rfl⟩ := mapO_cons hp
    simp only [lk] at hl
    split at hl
    · rename_i hx
      subst hx
      rw [← hl]
      exact h1
    · exact pick_lk h2 hl

/-- The column below whose name the value is. -/
theorem lk_unmap : ∀ {h : List Col} {vs : List V} {c : Col} {v : V}, lk (h.map nm) vs (nm c) = some v →
    (∀ a ∈ h, nm a = nm c → a = c) → lk h vs c = some v
  | [], _, _, _, e, _ => by simp [lk] at e
  | _ :: _, [], _, _, e, _ => by simp [lk] at e
  | x :: xs, u :: us, c, v, e, hi => by
    simp only [List.map_cons, lk] at e
    simp only [lk]
    split at e
    · rename_i hx
      rw [if_pos (hi x (List.mem_cons_self ..) hx)]
      exact e
    · rename_i hx
      rw [if_neg fun hn => hx (by rw [hn])]
      exact lk_unmap e fun a ha => hi a (List.mem_cons_of_mem _ ha)

theorem mapO_length_of {α β : Type} {f : α → Option (List β)} {k : Nat} {as : List α} {r : List (List β)}
    (h : mapO f as = some r) (hk : ∀ a ∈ as, ∀ b, f a = some b → b.length = k) : ∀ b ∈ r, b.length = k := by
  intro b hb
  obtain ⟨a, ha, he⟩ := mapO_mem h b hb
  exact hk a ha b he

/-- The names and rows of a SELECT list without aggregates. -/
theorem evalRows_sel {q : SEnv V → List Tok → Option (Rel V)} {items : List Item} {h : List Nm} :
    ∀ {L out : List (List V)}, items.any isAgg = false →
    mapO (fun a => (mapO (itemVal S q envs h a) items).map List.flatten) L = some out →
    evalRows S q envs items [] h L =
      some (items.flatMap (itemHdr h), (out.zip L).map fun x => (x.1, bindR h x.2 envs)) := by
  intro L out hn hm
  simp only [evalRows, hn, List.isEmpty_nil, Bool.true_and, Bool.not_false, if_true]
  have : ∀ {L out : List (List V)},
      mapO (fun a => (mapO (itemVal S q envs h a) items).map List.flatten) L = some out →
      mapO (fun vs => (mapO (itemVal S q envs h vs) items).map fun o => (o.flatten, bindR h vs envs)) L =
        some ((out.zip L).map fun x => (x.1, bindR h x.2 envs)) := by
    intro L
    induction L with
    | nil =>
      intro out hm
      simp only [mapO, Option.some.injEq] at hm
      subst hm
      rfl
    | cons a as ih =>
      intro out hm
      obtain ⟨b, bs, h1, h2, rfl⟩ := mapO_cons hm
      cases ho : mapO (itemVal S q envs h a) items with
      | none => simp [ho] at h1
      | some o =>
        simp only [ho, Option.map_some, Option.some.injEq] at h1
        subst h1
        refine mapO_cons' ?_ (ih h2)
        show (mapO (itemVal S q envs h a) items).map _ = _
        rw [ho]
        rfl
  rw [this hm]
  rfl

theorem zip_fst {α β : Type} : ∀ {a : List α} {b : List β}, a.length = b.length → (a.zip b).map (·.1) = a
  | [], _, _ => by simp
  | x :: xs, [], h => by simp at h
  | x :: xs, y :: ys, h => by simp [zip_fst (a := xs) (b := ys) (by simpa using h)]

theorem finish_plain {l : Option (Nat × Option Nat)} {h hn : List Nm} {L out : List (List V)} (hl : out.length = L.length) :
    finish S [] l (some (hn, (out.zip L).map fun x => (x.1, bindR h x.2 envs))) =
      some (hn, limited ((l.map (·.1)).map S.count) ((l.bind (·.2)).map S.count) out) := by
  have : ((out.zip L).map fun x => (x.1, bindR h x.2 envs)).map (·.1) = out := by
    rw [List.map_map]
    exact zip_fst hl
  simp only [finish, evalOrder, List.isEmpty_nil, if_true, this]

theorem limited_none (out : List (List V)) :
    limited (((none : Option (Nat × Option Nat)).map (·.1)).map S.count)
      (((none : Option (Nat × Option Nat)).bind (·.2)).map S.count) out = out := by
  simp [limited]

/-- A SELECT list of names. -/
theorem names_val {q : SEnv V → List Tok → Option (Rel V)} {h : List Col} {a : List V}
    (hinj : ∀ c ∈ h, ∀ d ∈ h, nm c = nm d → c = d) {cols : List Col} {r : List V} (hp : pick h a cols = some r) :
    mapO (itemVal S q envs (h.map nm) a) (selList nm [] cols) = some (r.map fun v => [v]) :=
  selList_val (cs := []) (xs := []) (vs := []) hinj rfl rfl (by simpa using hp)

theorem selList_nil (cols : List Col) :
    selList nm [] cols = cols.map fun c => .ex (.name (nm c)) none := by
  simp [selList, findItem]

/-- A SELECT list which renames columns. -/
theorem zip_val {q : SEnv V → List Tok → Option (Rel V)} {h : List Nm} {a : List V} {f : Col → Nm} :
    ∀ {ds cs : List Col} {r : List V}, ds.length = cs.length →
    mapO (fun d => bindR h a envs (f d)) ds = some r →
    mapO (itemVal S q envs h a) ((ds.zip cs).map fun x => .ex (.name (f x.1)) (some (nm x.2))) =
      some (r.map fun v => [v])
  | [], [], r, _, hp => by
    simp only [mapO, Option.some.injEq] at hp
    subst hp
    rfl
  | [], _ :: _, _, hl, _ => by simp at hl
  | _ :: _, [], _, hl, _ => by simp at hl
  | d :: ds, c :: cs, r, hl, hp => by
    obtain ⟨v, vs, h1, h2, rfl⟩ := mapO_cons hp
    refine mapO_cons' (b := [v]) ?_ (zip_val (by simpa using hl) h2)
    show (bindR h a envs (f d)).map _ = _
    rw [h1]
    rfl

theorem zip_hdr (h : List Nm) {f : Col → Nm} : ∀ {ds cs : List Col}, ds.length = cs.length →
    ((ds.zip cs).map fun x => Item.ex (.name (f x.1)) (some (nm x.2))).flatMap (itemHdr h) = cs.map nm
  | [], [], _ => rfl
  | [], _ :: _, hl => by simp at hl
  | _ :: _, [], hl => by simp at hl
  | d :: ds, c :: cs, hl => by
    have := zip_hdr h (f := f) (ds := ds) (cs := cs) (by simpa using hl)
    simp only [List.zip_cons_cons, List.map_cons, List.flatMap_cons, itemHdr, this, List.singleton_append]

/-! ## A SELECT to which WHERE may be appended -/

/-- An entry of the SELECT list whose name denotes its value in WHERE. -/
def ItemOk (h : List Nm) : Item → Prop
  | .star => True
  | .ex _ (some m) => m ∉ h
  | .ex (.name m) none => m ∈ h
  | _ => False

theorem starVals_lk : ∀ {h : List Nm} {a : List V} {n : Nm} {v : V}, lk (h.filter starred) (starVals h a) n = some v →
    lk h a n = some v
  | [], _, _, _, e => by simp [lk] at e
  | x :: xs, [], n, v, e => by
    simp only [starVals] at e
    cases hf : (x :: xs).filter starred <;> simp [hf, lk] at e
  | x :: xs, u :: us, n, v, e => by
    simp only [starVals] at e
    by_cases hx : starred x = true
    · simp only [List.filter_cons, hx, if_true, lk] at e
      simp only [lk]
      split at e
      · rename_i he
        rw [if_pos he]
        exact e
      · rename_i he
        rw [if_neg he]
        exact starVals_lk e
    · have hx' : starred x = false := by simpa using hx
      simp only [List.filter_cons, hx', Bool.false_eq_true, if_false] at e
      have hm := lk_mem e
      have hne : x ≠ n := by
        rintro rfl
        simp [List.mem_filter, hx'] at hm
      simp only [lk, if_neg hne]
      exact starVals_lk e

theorem starVals_length : ∀ {h : List Nm} {a : List V}, a.length = h.length →
    (starVals h a).length = (h.filter starred).length
  | [], a, _ => by simp [starVals]
  | x :: xs, [], h => by simp at h
  | x :: xs, u :: us, h => by
    have ih := starVals_length (h := xs) (a := us) (by simpa using h)
    simp only [starVals, List.filter_cons]
    split <;> simp [ih]

theorem itemVal_length {q : SEnv V → List Tok → Option (Rel V)} {h : List Nm} {a : List V} (hl : a.length = h.length)
    {i : Item} (hi : ItemOk h i) {o : List V} (he : itemVal S q envs h a i = some o) :
    o.length = (itemHdr h i).length := by
  cases i with
  | star =>
    simp only [itemVal, Option.some.injEq] at he
    subst he
    exact starVals_length hl
  | agg f args m => simp [itemVal] at he
  | ex e m =>
    simp only [itemVal, Option.map_eq_some_iff] at he
    obtain ⟨v, _, rfl⟩ := he
    cases m with
    | some m => rfl
    | none => cases e <;> rfl

/-- In WHERE, the names of the result denote its values. -/
theorem items_scope {q : SEnv V → List Tok → Option (Rel V)} {h : List Nm} {a : List V} (hl : a.length = h.length) :
    ∀ {items : List Item} {os : List (List V)}, (∀ i ∈ items, ItemOk h i) →
    mapO (itemVal S q envs h a) items = some os → ∀ n v, lk (items.flatMap (itemHdr h)) os.flatten n = some v →
    lk h a n = some v ∨
      (lk h a n = none ∧ ∃ e, alias items n = some e ∧ evalX S q (bindR h a envs) e = some v)
  | [], os, _, hm, n, v, hv => by simp [lk] at hv
  | i :: is, os, hi, hm, n, v, hv => by
    obtain ⟨o, os', h1, h2, rfl⟩ := mapO_cons hm
    have ih := items_scope hl (fun i hi' => hi i (List.mem_cons_of_mem _ hi')) h2 n v
    have hlen := itemVal_length hl (hi i (List.mem_cons_self ..)) h1
    have hii := hi i (List.mem_cons_self ..)
    simp only [List.flatMap_cons, List.flatten_cons] at hv
    cases i with
    | star =>
      by_cases hn : n ∈ itemHdr h .star
      · left
        obtain ⟨u, hu⟩ := lk_isSome hlen hn
        have hu' := lk_append_left (b := is.flatMap (itemHdr h)) (us := os'.flatten) hu
        rw [hv] at hu'
        cases hu'
        simp only [itemVal, Option.some.injEq] at h1
        subst h1
        exact starVals_lk hu
      · rw [lk_append_right hlen hn] at hv
        exact ih hv
    | agg f args m => simp [ItemOk] at hii
    | ex e m =>
      simp only [itemVal, Option.map_eq_some_iff] at h1
      obtain ⟨u, hu, rfl⟩ := h1
      cases m with
      | some m =>
        simp only [itemHdr, List.singleton_append, lk] at hv
        simp only [ItemOk] at hii
        split at hv
        · rename_i hmn
          cases hv
          subst hmn
          exact Or.inr ⟨lk_none a hii, e, by simp [alias], hu⟩
        · rename_i hmn
          rcases ih hv with h3 | ⟨h3, e', h4, h5⟩
          · exact Or.inl h3
          · exact Or.inr ⟨h3, e', by simp [alias, hmn, h4], h5⟩
      | none =>
        cases e with
        | name m =>
          simp only [itemHdr, List.singleton_append, lk] at hv
          simp only [ItemOk] at hii
          split at hv
          · rename_i hmn
            cases hv
            subst hmn
            obtain ⟨x, hx⟩ := lk_isSome hl hii
            simp only [evalX, bindR, hx] at hu
            cases hu
            exact Or.inl hx
          · rename_i hmn
            rcases ih hv with h3 | ⟨h3, e', h4, h5⟩
            · exact Or.inl h3
            · exact Or.inr ⟨h3, e', by simp [alias, h4], h5⟩
        | null => simp [ItemOk] at hii
        | opt x => simp [ItemOk] at hii
        | lit k => simp [ItemOk] at hii
        | call f args => simp [ItemOk] at hii
        | scalar ts => simp [ItemOk] at hii
        | exists_ ts => simp [ItemOk] at hii
        | inq x ts => simp [ItemOk] at hii

/-- In WHERE, the columns of the result and the outer columns have their values. -/
theorem bare_ref {q : SEnv V → List Tok → Option (Rel V)} {h : List Nm} {a : List V} (hl : a.length = h.length)
    {items : List Item} {os : List (List V)} (hi : ∀ i ∈ items, ItemOk h i) {cols : List Col}
    (hh : items.flatMap (itemHdr h) = cols.map nm) (hinj : ∀ c ∈ cols, ∀ d ∈ cols, nm c = nm d → c = d)
    (hr : Ref nm envr envs) (hal : AlFree nm envr items) (hfree : ∀ d, envr d ≠ none → nm d ∉ h)
    (hm : mapO (itemVal S q envs h a) items = some os) :
    Ref nm (bindR cols os.flatten envr) (Query.scope S q items envs h a) := by
  intro c v e
  simp only [bindR] at e
  split at e
  · rename_i u hu
    cases e
    have := lk_map hu hinj
    rw [← hh] at this
    rcases items_scope hl hi hm _ _ this with h1 | ⟨h1, x, h2, h3⟩
    · simp only [Query.scope, h1]
    · simp only [Query.scope, h1, h2, h3]
  · have hne : envr c ≠ none := by rw [e]; simp
    simp only [Query.scope, lk_none a (hfree c hne), hal c hne]
    exact hr c v e

/-- The text is one SELECT to which WHERE may be appended, and it denotes these rows. -/
def BareF (S : Sem V) (db : Db V) (nm : Col → Nm) (q : SEnv V → List Tok → Option (Rel V)) (cte : CTE V) (envr : Env V)
    (envs : SEnv V) (s : Scan) (t : List Tok) (rows : List (List V)) : Prop :=
  ∃ items f fh L, items.any isAgg = false ∧
    (∀ w : Option SExpr, pCore (t ++ (w.map Tok.whr).toList) = some (⟨items, f, w, []⟩, [])) ∧
    (∃ r, t = .sel items :: r) ∧ evalFW S db q cte envs items f none = some (fh, L) ∧
    items.flatMap (itemHdr fh) = s.cols.map nm ∧
    mapO (fun a => (mapO (itemVal S q envs fh a) items).map List.flatten) L = some rows ∧
    ∀ a ∈ L, ∀ o, (mapO (itemVal S q envs fh a) items).map List.flatten = some o →
      Ref nm (bindR s.cols o envr) (Query.scope S q items envs fh a)

/-- Its value. -/
theorem BareF.val {n : Nat} {s : Scan} {t : List Tok} {rows : List (List V)}
    (hb : BareF S db nm (evalQ S db n cte) cte envr envs s t rows) :
    evalQ S db (n + 1) cte envs t = some (s.cols.map nm, rows) := by
  obtain ⟨items, f, fh, L, hn, hp, ⟨r, rfl⟩, he, hh, hm, _⟩ := hb
  have hc := hp none
  simp only [Option.map_none, Option.toList_none, List.append_nil] at hc
  rw [evalQ_core (o := []) (l := none) hc (by intro es r; simp)]
  simp only [evalCore, he, evalRows_sel hn hm, finish_plain (mapO_length hm), limited_none, hh]

/-- Its value with a WHERE clause. -/
theorem BareF.filter {n : Nat} {s : Scan} {t : List Tok} {rows out : List (List V)}
    (hb : BareF S db nm (evalQ S db n cte) cte envr envs s t rows) {x : SExpr} {p : List V → Option Bool}
    (hf : filtO p rows = some out)
    (hx : ∀ r env, r ∈ rows → Ref nm (bindR s.cols r envr) env → ∀ b, p r = some b →
      (evalX S (evalQ S db n cte) env x).map S.truth = some b) :
    evalQ S db (n + 1) cte envs (t ++ [.whr x]) = some (s.cols.map nm, out) := by
  obtain ⟨items, f, fh, L, hn, hp, ⟨r, rfl⟩, he, hh, hm, href⟩ := hb
  have hc := hp (some x)
  simp only [Option.map_some, Option.toList_some] at hc
  have hfm : ∃ cs, filtO (fun vs => (evalX S (evalQ S db n cte)
      (Query.scope S (evalQ S db n cte) items envs fh vs) x).map S.truth) L = some cs ∧
      mapO (fun a => (mapO (itemVal S (evalQ S db n cte) envs fh a) items).map List.flatten) cs = some out := by
    refine filtO_mapO hm hf fun a ha b hb y hy => ?_
    obtain ⟨b', hb', hbe⟩ := mapO_some hm a ha
    rw [hb] at hbe
    cases hbe
    exact hx b _ hb' (href a ha b hb) y hy
  obtain ⟨cs, h1, h2⟩ := hfm
  have hw : evalFW S db (evalQ S db n cte) cte envs items f (some x) = some (fh, cs) := by
    simp only [evalFW] at he ⊢
    split at he
    · exact absurd he (by simp)
    · rename_i h' L' hfr
      simp only [Option.some.injEq, Prod.mk.injEq] at he
      obtain ⟨rfl, rfl⟩ := he
      rw [h1]
      rfl
  rw [evalQ_core (o := []) (l := none) hc (by intro es r; simp)]
  simp only [evalCore, hw, evalRows_sel hn h2, finish_plain (mapO_length h2), limited_none, hh]

/-! ## ORDER BY -/

/-- The keys of the terms of an ORDER BY, from those of its items. -/
def expand : List OrdItem → List V → List V
  | i :: is, v :: vs => (match i.nulls with
      | .unspecified => [v]
      | _ => [v, v]) ++ expand is vs
  | _, _ => []

theorem then_assoc' (a b c : Ordering) : (a.then b).then c = a.then (b.then c) := by
  cases a <;> rfl

theorem cmpTerm_item (S : Sem V) (nm : Col → Nm) (i : OrdItem) (a b : V) (ts : List OTerm) (as bs : List V) :
    cmpTerms S (ordTerms nm i ++ ts) ((match i.nulls with | .unspecified => [a] | _ => [a, a]) ++ as)
      ((match i.nulls with | .unspecified => [b] | _ => [b, b]) ++ bs) = (cmpItem S i a b).then (cmpTerms S ts as bs) := by
  obtain ⟨c, d, nl⟩ := i
  cases nl with
  | unspecified =>
    simp only [ordTerms, List.nil_append, List.singleton_append, cmpTerms, cmpTerm, cmpItem, OrdItem.nullsFirst]
    by_cases ha : a = S.null <;> by_cases hb : b = S.null <;> cases d <;> simp [ha, hb]
  | first =>
    simp only [ordTerms, List.cons_append, List.nil_append, cmpTerms, cmpTerm, cmpItem, OrdItem.nullsFirst, ← then_assoc']
    congr 1
    by_cases ha : a = S.null <;> by_cases hb : b = S.null <;> cases d <;> simp [ha, hb] <;> rfl
  | last =>
    simp only [ordTerms, List.cons_append, List.nil_append, cmpTerms, cmpTerm, cmpItem, OrdItem.nullsFirst, ← then_assoc']
    congr 1
    by_cases ha : a = S.null <;> by_cases hb : b = S.null <;> cases d <;> simp [ha, hb] <;> rfl

/-- The terms compare as the items do. -/
theorem cmpTerms_items (S : Sem V) (nm : Col → Nm) : ∀ (items : List OrdItem) (a b : List V),
    a.length = items.length → b.length = items.length →
    cmpTerms S (items.flatMap (ordTerms nm)) (expand items a) (expand items b) = cmpItems S items a b
  | [], _, _, _, _ => by simp [cmpTerms, cmpItems]
  | _ :: _, [], _, h, _ => by simp at h
  | _ :: _, _ :: _, [], _, h => by simp at h
  | i :: is, a :: as, b :: bs, ha, hb => by
    have ih := cmpTerms_items S nm is as bs (by simpa using ha) (by simpa using hb)
    simp only [List.flatMap_cons, expand, cmpItems]
    rw [cmpTerm_item, ih]

/-- The values of the terms. -/
theorem expand_terms {f : Nm → Option V} : ∀ {items : List OrdItem} {k : List V},
    mapO (fun c => f (nm c)) (items.map (·.col)) = some k →
    mapO (fun t => f t.nm) (items.flatMap (ordTerms nm)) = some (expand items k)
  | [], k, h => by
    simp only [List.map_nil, mapO, Option.some.injEq] at h
    subst h
    rfl
  | i :: is, k, h => by
    obtain ⟨v, vs, h1, h2, rfl⟩ := mapO_cons h
    have ih := expand_terms h2
    simp only [List.flatMap_cons, expand]
    obtain ⟨c, d, nl⟩ := i
    cases nl with
    | unspecified => exact mapO_cons' h1 ih
    | first => exact mapO_cons' h1 (mapO_cons' h1 ih)
    | last => exact mapO_cons' h1 (mapO_cons' h1 ih)

theorem sortBy_expand (S : Sem V) (nm : Col → Nm) (items : List OrdItem) {α : Type} (keyed : List (List V × α))
    (hl : ∀ x ∈ keyed, x.1.length = items.length) :
    sortBy (cmpTerms S (items.flatMap (ordTerms nm))) (keyed.map fun x => (expand items x.1, x.2)) =
      sortBy (cmpItems S items) keyed := by
  simp only [sortBy]
  rw [← List.map_mergeSort (r := fun a b : List V × α => cmpItems S items a.1 b.1 != .gt)
    (f := fun x : List V × α => (expand items x.1, x.2))]
  · rw [List.map_map]
    rfl
  · intro a ha b hb
    rw [cmpTerms_items S nm items a.1 b.1 (hl a ha) (hl b hb)]
end

end Verif.Query
