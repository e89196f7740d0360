import Verif.Model.Structs
import Verif.Props.Logic

/-!
# C245: struct constructors and fields; C246: comparison of structs by position
-/

namespace Verif.Structs

open Go Verif.Val Logic

/-! ### C245 -/

theorem pairs_arguments : ∀ (names : List (List Char)) (vs : List Val), names.length = vs.length →
    pairs (arguments names vs) = .ok (names, vs)
  | [], [], _ => rfl
  | [], _ :: _, h => by simp at h
  | _ :: _, [], h => by simp at h
  | k :: names, v :: vs, h => by
    have ih := pairs_arguments names vs (by simpa using h)
    unfold arguments at ih ⊢
    rw [List.zip_cons_cons, List.flatMap_cons]
    simp only [List.cons_append, List.nil_append, pairs, Cast.toStr, Res.bind'_ok, ih]

theorem arguments_even (names : List (List Char)) (vs : List Val) : (arguments names vs).length % 2 = 0 := by
  unfold arguments
  induction names.zip vs with
  | nil => rfl
  | cons p ps ih => rw [List.flatMap_cons, List.length_append]; simp only [List.length_cons, List.length_nil]; omega

theorem construct_eq (names : List (List Char)) (vs : List Val) (h : names.length = vs.length) :
    construct names vs = .ok (.struct names vs) := by
  unfold construct makeStruct
  rw [if_neg (by rw [arguments_even]; decide), pairs_arguments names vs h]
  rfl

/-- **C245**: a field of a struct made of values is the value at its position, whatever the names of the fields are (they may be
missing or occur twice) and whether or not the value is NULL; a field of a NULL struct is NULL. -/
theorem C245 (names : List (List Char)) (vs : List Val) (h : names.length = vs.length) (i : Nat) (v : Val) (hv : vs[i]? = some v) :
    (construct names vs).bind (fun s => getField s i) = .ok v ∧ getField .null i = .ok .null := by
  rw [construct_eq names vs h]
  refine ⟨?_, rfl⟩
  show getField (.struct names vs) i = _
  simp only [getField, Val.isNull, structField, if_pos (Int.natCast_nonneg i), Int.toNat_natCast, hv, Bool.false_eq_true, if_false]

example : (construct [[], []] [.int 1, .null]).bind (fun s => getField s 1) = .ok .null := (C245 _ _ rfl 1 _ rfl).1
example : (construct [['a'], ['a']] [.int 1, .int 2]).bind (fun s => getField s 0) = .ok (.int 1) := (C245 _ _ rfl 0 _ rfl).1

/-! ### C246 -/

/-- Two lists of fields, pairwise of one type and without NULL. -/
def Fields (as bs : List Val) : Prop :=
  as.length = bs.length ∧ ∀ (i : Nat) a b, as[i]? = some a → bs[i]? = some b → SameRep a b ∧ NoNull a ∧ NoNull b

/-- Full C246: two structs, made with any names, are equal exactly if all their fields are; a struct is in a list exactly if it is equal
to one in it. -/
def C246_full : Prop :=
  ∀ (ka kb : List (List Char)) (as bs : List Val), ka.length = as.length → kb.length = bs.length → Fields as bs →
    (∃ r, bindCmp .eq [.struct ka as, .struct kb bs] = .ok (.bool r) ∧ (r = true ↔ as = bs)) ∧
    ∃ r, bindIn (.struct ka as) [.struct kb bs] = .ok (.bool r) ∧ (r = true ↔ as = bs)

theorem lookup_zip_mem {K V : Type} [BEq K] [LawfulBEq K] : ∀ (ks : List K) (vs : List V) (k : K), ks.length = vs.length → k ∈ ks →
    ∃ v, ((List.zip ks vs).reverse).lookup k = some v
  | [], _, _, _, h => by simp at h
  | k' :: ks, [], _, h, _ => by simp at h
  | k' :: ks, v :: vs, k, hl, h => by
    by_cases hm : k ∈ ks
    · obtain ⟨w, hw⟩ := lookup_zip_mem ks vs k (by simpa using hl) hm
      refine ⟨w, ?_⟩
      simp only [List.zip_cons_cons, List.reverse_cons, List.lookup_append, hw, Option.some_or]
    · have : k = k' := by simpa [hm] using h
      subst this
      exact ⟨v, lookup_zip_append k v ks vs hm⟩

theorem field_tail {ks : List (List Char)} {vs : List Val} (k k' : List Char) (v : Val) (hl : ks.length = vs.length) (h : k' ∈ ks) :
    field (k :: ks) (v :: vs) k' = field ks vs k' := by
  obtain ⟨w, hw⟩ := lookup_zip_mem ks vs k' hl h
  unfold field
  simp only [List.zip_cons_cons, List.reverse_cons, List.lookup_append, hw, Option.some_or]

/-- The fields whose names do not occur again. -/
def lasts : List (List Char) → List Val → List Val
  | k :: ks, v :: vs => if k ∈ ks then lasts ks vs else v :: lasts ks vs
  | _, _ => []

theorem decides_lasts (flip : Bool) (ka : List (List Char)) :
    ∀ (va : List Val) (kb : List (List Char)) (vb : List Val) (vb' : List Val),
    va.length = ka.length → vb'.length = ka.length →
    (∀ k ∈ ka, field kb vb k = field ka vb' k) →
    (∀ (i : Nat) a b, va[i]? = some a → vb'[i]? = some b → Decides flip a b) →
    ∃ r, cmpFields .eq flip ka va kb vb = .ok r ∧ (r = true ↔ lasts ka va = lasts ka vb') := by
  induction ka with
  | nil =>
    intro va kb vb vb' h1 h2 _ _
    have h1 : va = [] := List.length_eq_zero_iff.mp h1
    have h2 : vb' = [] := List.length_eq_zero_iff.mp h2
    subst h1 h2
    exact ⟨true, by simp [cmpFields], by simp⟩
  | cons k ka ih =>
    intro va kb vb vb' h1 h2 hf h
    cases va with
    | nil => simp at h1
    | cons a va => cases vb' with
      | nil => simp at h2
      | cons b vb' =>
        simp only [List.length_cons, Nat.add_right_cancel_iff] at h1 h2
        obtain ⟨r', h5, h6⟩ := ih va kb vb vb' h1 h2
          (fun k' hk' => by rw [hf k' (List.mem_cons_of_mem _ hk'), field_tail k k' b h2.symm hk'])
          (fun i a b ha hb => h (i + 1) a b (by simpa using ha) (by simpa using hb))
        by_cases hk : k ∈ ka
        · refine ⟨r', ?_, ?_⟩
          · simp only [cmpFields, hk, if_true]; exact h5
          · simp only [lasts, hk, if_true]; exact h6
        · obtain ⟨r, h3, h4⟩ := h 0 a b rfl rfl
          have hfk : field kb vb k = b := by
            rw [hf k (List.mem_cons_self ..)]
            unfold field
            rw [lookup_zip_append k b ka vb' hk]
          simp only [cmpFields, hk, if_false, hfk, h3, Res.bind'_ok, lasts]
          cases r
          · exact ⟨false, by simp, by have := mt h4.mpr; simp at this; simp [this]⟩
          · refine ⟨r', by simp [h5], ?_⟩
            have := h4.mp rfl
            simp [h6, this]

/-- **C246** structs with the same names: only the last field of each name counts. -/
theorem C246_partial (ks : List (List Char)) (as bs : List Val) (h : ks.length = as.length) (hf : Fields as bs) :
    (∃ r, bindCmp .eq [.struct ks as, .struct ks bs] = .ok (.bool r) ∧ (r = true ↔ lasts ks as = lasts ks bs)) ∧
    ∃ r, bindIn (.struct ks as) [.struct ks bs] = .ok (.bool r) ∧ (r = true ↔ lasts ks as = lasts ks bs) := by
  obtain ⟨r, h1, h2⟩ := decides_lasts true ks as ks bs bs h.symm (by rw [← hf.1]; exact h.symm) (fun _ _ => rfl) (fun i a b ha hb =>
    have := hf.2 i a b ha hb
    decides_of this.1 _ this.2.1 this.2.2)
  have e : cmp .eq (.struct ks as) (.struct ks bs) = .ok r := by
    unfold cmp cmpAux
    rw [if_pos rfl]
    exact h1
  refine ⟨⟨r, ?_, h2⟩, r, ?_, h2⟩
  · simp [bindCmp, existsNull, Val.isNull, opFn, e]
  · cases r <;> simp [bindIn, inScan, Val.isNull, e]

theorem lasts_nodup : ∀ (ks : List (List Char)) (vs : List Val), ks.length = vs.length → ks.Nodup → lasts ks vs = vs
  | [], [], _, _ => rfl
  | [], _ :: _, h, _ => by simp at h
  | _ :: _, [], h, _ => by simp at h
  | k :: ks, v :: vs, h, hn => by
    rw [List.nodup_cons] at hn
    simp only [lasts, hn.1, if_false]
    rw [lasts_nodup ks vs (by simpa using h) hn.2]

theorem lasts_unnamed : ∀ (n : Nat) (vs : List Val) (v : Val), vs.length = n → lasts (List.replicate (n + 1) []) (vs ++ [v]) = [v]
  | 0, [], v, _ => rfl
  | 0, _ :: _, _, h => by simp at h
  | n + 1, [], _, h => by simp at h
  | n + 1, w :: vs, v, h => by
    rw [List.replicate_succ, List.cons_append, lasts, if_pos (by simp)]
    exact lasts_unnamed n vs v (by simpa using h)

/-- **C246** with distinct names all fields count. -/
theorem C246_named (ks : List (List Char)) (as bs : List Val) (h : ks.length = as.length) (hn : ks.Nodup) (hf : Fields as bs) :
    (∃ r, bindCmp .eq [.struct ks as, .struct ks bs] = .ok (.bool r) ∧ (r = true ↔ as = bs)) ∧
    ∃ r, bindIn (.struct ks as) [.struct ks bs] = .ok (.bool r) ∧ (r = true ↔ as = bs) := by
  have := C246_partial ks as bs h hf
  rwa [lasts_nodup ks as h hn, lasts_nodup ks bs (h.trans hf.1) hn] at this

/-- **C246** of tuples such as (x, y), whose fields have no names, only the last field counts. -/
theorem C246_tuple (as bs : List Val) (a b : Val) (hf : Fields (as ++ [a]) (bs ++ [b])) :
    (∃ r, bindCmp .eq [.struct (List.replicate (as.length + 1) []) (as ++ [a]), .struct (List.replicate (as.length + 1) []) (bs ++ [b])]
      = .ok (.bool r) ∧ (r = true ↔ a = b)) ∧
    ∃ r, bindIn (.struct (List.replicate (as.length + 1) []) (as ++ [a])) [.struct (List.replicate (as.length + 1) []) (bs ++ [b])]
      = .ok (.bool r) ∧ (r = true ↔ a = b) := by
  have hl : bs.length = as.length := by have := hf.1; simp at this; omega
  have := C246_partial (List.replicate (as.length + 1) []) _ _ (by simp) hf
  rw [lasts_unnamed _ as a rfl, lasts_unnamed _ bs b hl] at this
  simpa using this

/-- (1, 2) = (3, 2) and (1, 2) IN ((3, 2)) are TRUE. -/
theorem C246_wrong : bindCmp .eq [.struct [[], []] [.int 1, .int 2], .struct [[], []] [.int 3, .int 2]] = .ok (.bool true) ∧
    bindIn (.struct [[], []] [.int 1, .int 2]) [.struct [[], []] [.int 3, .int 2]] = .ok (.bool true) := by
  have hf : Fields ([.int 1] ++ [.int 2]) ([.int 3] ++ [.int 2]) := ⟨rfl, fun i a b ha hb => by
    match i with
    | 0 => cases ha; cases hb; exact ⟨.int _ _, .int _, .int _⟩
    | 1 => cases ha; cases hb; exact ⟨.int _ _, .int _, .int _⟩
    | n + 2 => simp at ha⟩
  obtain ⟨⟨r, h1, h2⟩, q, h3, h4⟩ := C246_tuple [.int 1] [.int 3] (.int 2) (.int 2) hf
  rw [h2.2 rfl] at h1
  rw [h4.2 rfl] at h3
  exact ⟨h1, h3⟩

theorem C246_full_false : ¬ C246_full := by
  intro h
  obtain ⟨r, h1, h2⟩ := (h [[], []] [[], []] [.int 1, .int 2] [.int 3, .int 2] rfl rfl ⟨rfl, fun i a b ha hb => by
    match i with
    | 0 => cases ha; cases hb; exact ⟨.int _ _, .int _, .int _⟩
    | 1 => cases ha; cases hb; exact ⟨.int _ _, .int _, .int _⟩
    | n + 2 => simp at ha⟩).1
  rw [C246_wrong.1] at h1
  cases h1
  have := h2.1 rfl
  simp at this

end Verif.Structs
