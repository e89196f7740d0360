import Verif.Props.Literal

/-! # C260: Go maps as STRUCT parameters

Go iterates over a map in an order that it chooses anew each time (reflect's MapRange).  The code turns the entries into the fields of a
struct in that order (encoder.go:539-558) and then casts the struct to the type of the parameter (encoder.go:445-485). -/

namespace Verif.Literal

open Go Verif.Val Verif.Cast

/-- encoder.go:539-558: a map with string keys, its entries in the order of an iteration.  It becomes a struct value exactly like a Go struct
with these names (encoder.go:559-576), so it is represented as one. -/
def mapArg (es : List (List Char × GoArg)) : GoArg := .struct (es.map (·.1)) (es.map (·.2))

/-- The same argument, but for the order in which the maps in it are iterated.  `ty` is the type of the parameter; a map stands where the type
has a STRUCT. -/
inductive SameArg : Ty → GoArg → GoArg → Prop
  | refl (ty : Ty) (x : GoArg) : SameArg ty x x
  | ptr {ty : Ty} {x y : GoArg} : SameArg ty x y → SameArg ty (.ptr x) (.ptr y)
  | slice {e : Ty} {xs ys : List GoArg} : xs.length = ys.length →
      (∀ (i : Nat) (x y : GoArg), xs[i]? = some x → ys[i]? = some y → SameArg e x y) → SameArg (.arr e) (.slice xs) (.slice ys)
  | map {names : List (List Char)} {types : List Ty} {es ms es' : List (List Char × GoArg)} :
      (es.map (·.1)).Nodup → (∃ e ∈ es, e.1 ≠ []) → es.Perm ms → ms.map (·.1) = es'.map (·.1) →
      (∀ (i : Nat) (k : List Char) (x y : GoArg), ms[i]? = some (k, x) → es'[i]? = some (k, y) →
        (∀ t, (k, t) ∉ names.zip types) → x = y) →
      (∀ (i : Nat) (k : List Char) (x y : GoArg) (t : Ty), ms[i]? = some (k, x) → es'[i]? = some (k, y) → (k, t) ∈ names.zip types →
        SameArg t x y) →
      SameArg (.struct names types) (mapArg es) (mapArg es')

/-! ### Lists of arguments -/

theorem fromGoList_cons (x : GoArg) (xs : List GoArg) {vs : List Val} :
    fromGoList (x :: xs) = .ok vs ↔ ∃ u us, fromGo x = .ok u ∧ fromGoList xs = .ok us ∧ vs = u :: us := by
  rw [fromGoList]
  cases fromGo x <;> simp [Res.bind]
  rename_i u
  cases fromGoList xs <;> simp [eq_comm]

theorem fromGoList_length : ∀ {xs : List GoArg} {us : List Val}, fromGoList xs = .ok us → us.length = xs.length
  | [], us, h => by simp only [fromGoList, Res.ok.injEq] at h; subst h; rfl
  | x :: xs, us, h => by
    obtain ⟨u, us, _, h2, rfl⟩ := (fromGoList_cons x xs).1 h
    simp [fromGoList_length h2]

theorem fromGoList_get : ∀ {xs : List GoArg} {us : List Val}, fromGoList xs = .ok us → ∀ {i : Nat} {x : GoArg}, xs[i]? = some x →
    ∃ u, us[i]? = some u ∧ fromGo x = .ok u
  | [], _, _, i, x, hx => by simp at hx
  | x :: xs, us, h, i, y, hy => by
    obtain ⟨u, us, h1, h2, rfl⟩ := (fromGoList_cons x xs).1 h
    cases i with
    | zero => simp only [List.getElem?_cons_zero, Option.some.injEq] at hy; subst hy; exact ⟨u, by simp, h1⟩
    | succ i => simpa using fromGoList_get h2 (by simpa using hy)

theorem fromGoList_of_get : ∀ {xs : List GoArg}, (∀ x ∈ xs, ∃ u, fromGo x = .ok u) → ∃ us, fromGoList xs = .ok us
  | [], _ => ⟨[], rfl⟩
  | x :: xs, h => by
    obtain ⟨u, hu⟩ := h x (by simp)
    obtain ⟨us, hus⟩ := fromGoList_of_get (xs := xs) fun y hy => h y (by simp [hy])
    exact ⟨u :: us, (fromGoList_cons x xs).2 ⟨u, us, hu, hus, rfl⟩⟩

/-! ### The entries of a map -/

theorem lookup_eq_some {ps : List (List Char × Val)} (hn : (ps.map (·.1)).Nodup) {k : List Char} {v : Val} :
    ps.lookup k = some v ↔ (k, v) ∈ ps := by
  induction ps with
  | nil => simp
  | cons p ps ih =>
    obtain ⟨k', v'⟩ := p
    simp only [List.map_cons, List.nodup_cons] at hn
    have ih := ih hn.2
    rw [List.lookup_cons]
    by_cases h : k = k'
    · subst h
      have : ∀ w, (k, w) ∉ ps := fun w hw => hn.1 (List.mem_map_of_mem (f := (·.1)) hw)
      simp [this, eq_comm]
    · have hb : (k == k') = false := by simpa using h
      simp [hb, h, ih]

theorem lookup_rev_mem {ps : List (List Char × Val)} (hn : (ps.map (·.1)).Nodup) {k : List Char} {v : Val} :
    ps.reverse.lookup k = some v ↔ (k, v) ∈ ps := by
  rw [lookup_eq_some (by rw [List.map_reverse]; exact (List.reverse_perm _).nodup_iff.2 hn), List.mem_reverse]

/-- The entries as fields: a key has the value of its entry. -/
theorem entry_lookup {es : List (List Char × GoArg)} (hn : (es.map (·.1)).Nodup) {us : List Val} (h : fromGoList (es.map (·.2)) = .ok us)
    {k : List Char} {v : Val} :
    (List.zip (es.map (·.1)) us).reverse.lookup k = some v ↔ ∃ x, (k, x) ∈ es ∧ fromGo x = .ok v := by
  have hl := fromGoList_length h
  rw [lookup_rev_mem (by rw [List.map_fst_zip (by simp at hl ⊢; omega)]; exact hn)]
  constructor
  · intro hm
    obtain ⟨i, hi⟩ := List.getElem?_of_mem hm
    rw [List.getElem?_zip_eq_some] at hi
    obtain ⟨h1, h2⟩ := hi
    rw [List.getElem?_map] at h1
    cases he : es[i]? with
    | none => simp [he] at h1
    | some e =>
      obtain ⟨k', x⟩ := e
      simp [he] at h1
      subst h1
      obtain ⟨u, hu, hfx⟩ := fromGoList_get h (i := i) (x := x) (by simp [he])
      rw [hu] at h2
      simp only [Option.some.injEq] at h2
      subst h2
      exact ⟨x, List.mem_of_getElem? he, hfx⟩
  · rintro ⟨x, hm, hx⟩
    obtain ⟨i, hi⟩ := List.getElem?_of_mem hm
    obtain ⟨u, hu, hfx⟩ := fromGoList_get h (i := i) (x := x) (by simp [hi])
    rw [hx] at hfx
    simp only [Res.ok.injEq] at hfx
    subst hfx
    apply List.mem_of_getElem? (i := i)
    rw [List.getElem?_zip_eq_some]
    exact ⟨by simp [hi], hu⟩

theorem castFields_congr (other : List Char → Rat) : ∀ (names : List (List Char)) (types : List Ty) (m m' : List Char → Option Val),
    (∀ k t, (k, t) ∈ names.zip types → (m k).elim (Res.ok Val.null) (castValue other t) = (m' k).elim (Res.ok Val.null) (castValue other t)) →
    castFields other names types m = castFields other names types m'
  | [], _, _, _, _ => by simp [castFields]
  | _ :: _, [], _, _, _ => by simp [castFields]
  | k :: names, t :: types, m, m', h => by
    have h0 := h k t (by simp)
    rw [castFields, castFields, castFields_congr other names types m m' fun k' t' hk => h k' t' (by simp [hk])]
    cases hm : m k <;> cases hm' : m' k <;> simp only [hm, hm', Option.elim] at h0 ⊢ <;> rw [h0]

theorem castAll_congr (f g : Val → Res Val) : ∀ {us ws : List Val}, us.length = ws.length →
    (∀ (i : Nat) (u w : Val), us[i]? = some u → ws[i]? = some w → f u = g w) → castAll f us = castAll g ws
  | [], [], _, _ => rfl
  | u :: us, w :: ws, hl, h => by
    rw [castAll, castAll, h 0 u w rfl rfl, castAll_congr f g (by simpa using hl) fun i u' w' hu hw => h (i + 1) u' w' (by simpa using hu) (by simpa using hw)]

theorem sameArg (other : List Char → Rat) {ty : Ty} {x y : GoArg} (h : SameArg ty x y) :
    ∀ {u : Val}, fromGo x = .ok u → ∃ w, fromGo y = .ok w ∧ castValue other ty u = castValue other ty w := by
  induction h with
  | refl ty x => exact fun {u} hu => ⟨u, hu, rfl⟩
  | ptr _ ih => intro u hu; rw [fromGo] at hu ⊢; exact ih hu
  | @slice e xs ys hl _ ih =>
    intro u hu
    rw [fromGo] at hu
    cases hus : fromGoList xs with
    | err => simp [hus] at hu
    | panic => simp [hus] at hu
    | ok us =>
      simp only [hus, Res.bind'_ok, Res.ok.injEq] at hu
      subst hu
      obtain ⟨ws, hws⟩ := fromGoList_of_get (xs := ys) (by
        intro y hy
        obtain ⟨i, hi⟩ := List.getElem?_of_mem hy
        have hlt : i < xs.length := by rw [hl]; exact (List.getElem?_eq_some_iff.1 hi).1
        obtain ⟨u, _, hu⟩ := fromGoList_get hus (List.getElem?_eq_getElem hlt)
        obtain ⟨w, hw, _⟩ := ih i _ y (List.getElem?_eq_getElem hlt) hi hu
        exact ⟨w, hw⟩)
      refine ⟨.arr ws, by rw [fromGo, hws]; rfl, ?_⟩
      have hlu := fromGoList_length hus
      have hlw := fromGoList_length hws
      rw [castValue, castValue, castAll_congr (us := us) (ws := ws) (castValue other e) (castValue other e) (by omega) ?_]
      intro i u w hu hw
      have h1 : i < xs.length := by rw [← hlu]; exact (List.getElem?_eq_some_iff.1 hu).1
      have h2 : i < ys.length := by omega
      obtain ⟨u', hu', hfu⟩ := fromGoList_get hus (List.getElem?_eq_getElem h1)
      obtain ⟨w', hw', hfw⟩ := fromGoList_get hws (List.getElem?_eq_getElem h2)
      rw [hu] at hu'; rw [hw] at hw'
      simp only [Option.some.injEq] at hu' hw'
      subst hu'; subst hw'
      obtain ⟨w'', hw'', hc⟩ := ih i _ _ (List.getElem?_eq_getElem h1) (List.getElem?_eq_getElem h2) hfu
      rw [hfw] at hw''
      simp only [Res.ok.injEq] at hw''
      subst hw''
      exact hc
  | @map names types es ms es' hn hne hp hk hout hin ih =>
    intro u hu
    simp only [mapArg] at hu
    rw [fromGo] at hu
    cases hus : fromGoList (es.map (·.2)) with
    | err => simp [hus] at hu
    | panic => simp [hus] at hu
    | ok us =>
      simp only [hus, Res.bind'_ok, Res.ok.injEq] at hu
      subst hu
      have hlen : ms.length = es'.length := by simpa using congrArg List.length hk
      have hnm : (ms.map (·.1)).Nodup := (hp.map _).nodup_iff.1 hn
      have hn' : (es'.map (·.1)).Nodup := by rw [← hk]; exact hnm
      -- what an entry of the one order is in the other
      have key : ∀ {i : Nat} {k : List Char} {y : GoArg}, es'[i]? = some (k, y) → ∃ x, ms[i]? = some (k, x) := by
        intro i k y hi
        have h1 : (ms.map (·.1))[i]? = some k := by rw [hk]; simp [hi]
        rw [List.getElem?_map] at h1
        cases hm : ms[i]? with
        | none => simp [hm] at h1
        | some p => obtain ⟨k', x⟩ := p; simp [hm] at h1; subst h1; exact ⟨x, rfl⟩
      have key' : ∀ {i : Nat} {k : List Char} {x : GoArg}, ms[i]? = some (k, x) → ∃ y, es'[i]? = some (k, y) := by
        intro i k x hi
        have h1 : (es'.map (·.1))[i]? = some k := by rw [← hk]; simp [hi]
        rw [List.getElem?_map] at h1
        cases hm : es'[i]? with
        | none => simp [hm] at h1
        | some p => obtain ⟨k', y⟩ := p; simp [hm] at h1; subst h1; exact ⟨y, rfl⟩
      have hok : ∀ {k : List Char} {x : GoArg}, (k, x) ∈ es → ∃ u, fromGo x = .ok u := by
        intro k x hx
        obtain ⟨i, hi⟩ := List.getElem?_of_mem hx
        obtain ⟨u, _, h⟩ := fromGoList_get hus (i := i) (x := x) (by simp [hi])
        exact ⟨u, h⟩
      obtain ⟨ws, hws⟩ := fromGoList_of_get (xs := es'.map (·.2)) (by
        intro y hy
        simp only [List.mem_map] at hy
        obtain ⟨⟨k, y'⟩, hy, rfl⟩ := hy
        obtain ⟨i, hi⟩ := List.getElem?_of_mem hy
        obtain ⟨x, hx⟩ := key hi
        obtain ⟨u, hu⟩ := hok (hp.mem_iff.2 (List.mem_of_getElem? hx))
        by_cases ht : ∀ t, (k, t) ∉ names.zip types
        · rw [← hout i k x y' hx hi ht]; exact ⟨u, hu⟩
        · obtain ⟨t, ht⟩ : ∃ t, (k, t) ∈ names.zip types := Classical.byContradiction fun h => ht fun t h' => h ⟨t, h'⟩
          obtain ⟨w, hw, _⟩ := ih i k x y' t hx hi ht hu
          exact ⟨w, hw⟩)
      refine ⟨.struct (es'.map (·.1)) ws, by simp only [mapArg]; rw [fromGo, hws]; rfl, ?_⟩
      have hall : ∀ {fs : List (List Char × GoArg)}, (∃ e ∈ fs, e.1 ≠ []) → (fs.map (·.1)).all (fun k => decide (k = [])) = false := by
        rintro fs ⟨e, he, hne⟩
        rw [List.all_eq_false]
        exact ⟨e.1, List.mem_map_of_mem he, by simpa using hne⟩
      have hne' : ∃ e ∈ es', e.1 ≠ [] := by
        obtain ⟨⟨k, x⟩, he, hk0⟩ := hne
        obtain ⟨i, hi⟩ := List.getElem?_of_mem (hp.mem_iff.1 he)
        obtain ⟨y, hy⟩ := key' hi
        exact ⟨(k, y), List.mem_of_getElem? hy, hk0⟩
      rw [castValue, castValue, if_neg (by simp [hall hne]), if_neg (by simp [hall hne'])]
      rw [castFields_congr other names types _ _ ?_]
      intro k t ht
      cases hl : (List.zip (es.map (·.1)) us).reverse.lookup k with
      | none =>
        cases hl' : (List.zip (es'.map (·.1)) ws).reverse.lookup k with
        | none => rfl
        | some w =>
          obtain ⟨y, hy, _⟩ := (entry_lookup hn' hws).1 hl'
          obtain ⟨i, hi⟩ := List.getElem?_of_mem hy
          obtain ⟨x, hx⟩ := key hi
          have hxe := hp.mem_iff.2 (List.mem_of_getElem? hx)
          obtain ⟨u, hu⟩ := hok hxe
          have := (entry_lookup hn hus).2 ⟨x, hxe, hu⟩
          rw [hl] at this
          simp at this
      | some u =>
        obtain ⟨x, hx, hu⟩ := (entry_lookup hn hus).1 hl
        obtain ⟨i, hi⟩ := List.getElem?_of_mem (hp.mem_iff.1 hx)
        obtain ⟨y, hy⟩ := key' hi
        obtain ⟨w, hw, hc⟩ := ih i k x y t hi hy ht hu
        rw [(entry_lookup hn' hws).2 ⟨y, List.mem_of_getElem? hy, hw⟩]
        exact hc

/-- **C260**, the order: what is passed for a parameter does not depend on the order in which Go iterates over the maps in the argument.  (Whether a bad
argument is an error or a panic may.) -/
theorem C260_order (other : List Char → Rat) {ty : Ty} {x y : GoArg} (h : SameArg ty x y) {v : Val} (hv : param other ty x = .ok v) :
    param other ty y = .ok v := by
  unfold param at hv ⊢
  cases hx : fromGo x with
  | err => simp [hx] at hv
  | panic => simp [hx] at hv
  | ok u =>
    obtain ⟨w, hw, hc⟩ := sameArg other h hx
    rw [hx, Res.bind'_ok, hc] at hv
    rw [hw, Res.bind'_ok, hv]

/-- What is passed for a field: the value of the entry with its name, NULL if there is none. -/
def FieldOk (other : List Char → Rat) (es : List (List Char × GoArg)) (k : List Char) (t : Ty) (w : Val) : Prop :=
  (∀ x, (k, x) ∈ es → param other t x = .ok w) ∧ ((∀ x, (k, x) ∉ es) → w = .null)

/-- Full C260: a map that Go passes for a STRUCT is the struct of the type whose fields have the values of the entries with their names, and
NULL where there is no entry, in whatever order the entries come; it is passed if all its entries are. -/
def C260_full : Prop :=
  ∀ (other : List Char → Rat) (names : List (List Char)) (types : List Ty) (es : List (List Char × GoArg)),
    names.length = types.length → (es.map (·.1)).Nodup → (∀ e ∈ es, ∃ u, fromGo e.2 = .ok u) →
    (∀ k t x, (k, t) ∈ names.zip types → (k, x) ∈ es → ∃ w, param other t x = .ok w) →
    ∃ ws, param other (.struct names types) (mapArg es) = .ok (.struct names ws) ∧ ws.length = names.length ∧
      ∀ (i : Nat) (k : List Char) (t : Ty) (w : Val), (names.zip types)[i]? = some (k, t) → ws[i]? = some w → FieldOk other es k t w

theorem castFields_ok (other : List Char → Rat) : ∀ (names : List (List Char)) (types : List Ty) (m : List Char → Option Val),
    names.length = types.length →
    (∀ k t, (k, t) ∈ names.zip types → ∃ w, (m k).elim (Res.ok Val.null) (castValue other t) = .ok w) →
    ∃ ws, castFields other names types m = .ok ws ∧ ws.length = names.length ∧
      ∀ (i : Nat) (k : List Char) (t : Ty) (w : Val), (names.zip types)[i]? = some (k, t) → ws[i]? = some w →
        (m k).elim (Res.ok Val.null) (castValue other t) = .ok w
  | [], [], _, _, _ => ⟨[], by simp [castFields], rfl, by simp⟩
  | k :: names, t :: types, m, hl, h => by
    obtain ⟨w, hw⟩ := h k t (by simp)
    obtain ⟨ws, h1, h2, h3⟩ := castFields_ok other names types m (by simpa using hl) fun k' t' hk => h k' t' (by simp [hk])
    refine ⟨w :: ws, ?_, by simp [h2], ?_⟩
    · rw [castFields, h1]
      cases hm : m k <;> simp only [hm, Option.elim] at hw ⊢ <;> simp [hw]
    · intro i k' t' w' hz hw'
      cases i with
      | zero =>
        simp only [List.zip_cons_cons, List.getElem?_cons_zero, Option.some.injEq, Prod.mk.injEq] at hz hw'
        obtain ⟨rfl, rfl⟩ := hz
        subst hw'
        exact hw
      | succ i => exact h3 i k' t' w' (by simpa using hz) (by simpa using hw')

/-- **C260** for every map with a key that is not empty. -/
theorem C260_partial (other : List Char → Rat) (names : List (List Char)) (types : List Ty) (es : List (List Char × GoArg))
    (hl : names.length = types.length) (hn : (es.map (·.1)).Nodup) (hu : ∀ e ∈ es, ∃ u, fromGo e.2 = .ok u)
    (hw : ∀ k t x, (k, t) ∈ names.zip types → (k, x) ∈ es → ∃ w, param other t x = .ok w) (hne : ∃ e ∈ es, e.1 ≠ []) :
    ∃ ws, param other (.struct names types) (mapArg es) = .ok (.struct names ws) ∧ ws.length = names.length ∧
      ∀ (i : Nat) (k : List Char) (t : Ty) (w : Val), (names.zip types)[i]? = some (k, t) → ws[i]? = some w → FieldOk other es k t w := by
  obtain ⟨us, hus⟩ := fromGoList_of_get (xs := es.map (·.2)) (by
    intro x hx
    simp only [List.mem_map] at hx
    obtain ⟨e, he, rfl⟩ := hx
    exact hu e he)
  have hall : (es.map (·.1)).all (fun k => decide (k = [])) = false := by
    obtain ⟨e, he, hne⟩ := hne
    rw [List.all_eq_false]
    exact ⟨e.1, List.mem_map_of_mem he, by simpa using hne⟩
  obtain ⟨ws, h1, h2, h3⟩ := castFields_ok other names types (fun k => (List.zip (es.map (·.1)) us).reverse.lookup k) hl (by
    intro k t ht
    cases hlk : (List.zip (es.map (·.1)) us).reverse.lookup k with
    | none => exact ⟨.null, rfl⟩
    | some u =>
      obtain ⟨x, hx, hxu⟩ := (entry_lookup hn hus).1 hlk
      obtain ⟨w, hw⟩ := hw k t x ht hx
      exact ⟨w, by simpa [param, hxu] using hw⟩)
  refine ⟨ws, ?_, h2, ?_⟩
  · simp only [param, mapArg]
    rw [fromGo, hus]
    simp only [Res.bind'_ok]
    rw [castValue, if_neg (by simp [hall]), h1]
    rfl
  · intro i k t w hz hwi
    have := h3 i k t w hz hwi
    constructor
    · intro x hx
      obtain ⟨u, hxu⟩ := hu (k, x) hx
      rw [(entry_lookup hn hus).2 ⟨x, hx, hxu⟩] at this
      simpa [param, hxu] using this
    · intro hno
      cases hlk : (List.zip (es.map (·.1)) us).reverse.lookup k with
      | none => rw [hlk] at this; simpa [eq_comm] using this
      | some u =>
        obtain ⟨x, hx, _⟩ := (entry_lookup hn hus).1 hlk
        exact absurd hx (hno x)

/-- The empty map is a struct without fields, whatever the type. -/
theorem C260_empty (other : List Char → Rat) (names : List (List Char)) (types : List Ty) :
    param other (.struct names types) (mapArg []) = .ok (.struct [] []) := by
  simp [param, mapArg, fromGo, fromGoList, castValue]

/-- A map whose only key is empty keeps this key and the value that is not cast. -/
theorem C260_empty_key (other : List Char → Rat) (names : List (List Char)) (types : List Ty) (x : GoArg) (u : Val) (hu : fromGo x = .ok u) :
    param other (.struct names types) (mapArg [([], x)]) = .ok (.struct [[]] [u]) := by
  simp [param, mapArg, fromGo, fromGoList, hu, castValue]

theorem C260_full_false : ¬ C260_full := by
  intro h
  obtain ⟨ws, h1, h2, _⟩ := h (fun _ => 0) [['a']] [.int] [] rfl (by simp) (by simp) (by simp)
  rw [C260_empty] at h1
  simp at h1

/-- The hypotheses are met: {"a": 1, "b": "x"} and {"b": "x", "a": 1} for STRUCT<b STRING, a INT64, c BOOL>. -/
example : SameArg (.struct [['b'], ['a'], ['c']] [.str, .int, .bool]) (mapArg [(['a'], .int 1), (['b'], .str ['x'])])
      (mapArg [(['b'], .str ['x']), (['a'], .int 1)]) ∧
    param (fun _ => 0) (.struct [['b'], ['a'], ['c']] [.str, .int, .bool]) (mapArg [(['a'], .int 1), (['b'], .str ['x'])]) =
      .ok (.struct [['b'], ['a'], ['c']] [.str ['x'], .int 1, .null]) := by
  refine ⟨.map (by decide) ⟨_, by simp; exact .inl rfl, by simp⟩ (.swap _ _ _) rfl ?_ ?_, rfl⟩
  · intro i k x y hx hy _
    rw [hx] at hy
    simpa using hy
  · intro i k x y t hx hy _
    rw [hx] at hy
    simp at hy
    subst hy
    exact .refl _ _

end Verif.Literal
