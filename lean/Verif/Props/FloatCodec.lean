import Verif.Model.FloatCodec

/-!
# C269: arrays and structs keep their FLOAT64 and JSON values
-/

namespace Verif.FloatCodec

open Go

/-- What the client reads after `v` went through SQLite. -/
def stored (L : Lib) (n : Nat) (v : FVal) : Res FVal := (encode L v).bind fun i => decode L n (sqlite i)

mutual
/-- The depth of a value. -/
def depth : FVal → Nat
  | .null => 0
  | .flt _ => 0
  | .json _ => 1
  | .arr vs => depths vs + 1
  | .struct _ vs => depths vs + 1
@[inherit_doc depth] def depths : List FVal → Nat
  | [] => 0
  | v :: vs => max (depth v) (depths vs)
end

mutual
/-- A struct has as many names as fields. -/
def WF : FVal → Prop
  | .arr vs => WFs vs
  | .struct ks vs => ks.length = vs.length ∧ WFs vs
  | _ => True
@[inherit_doc WF] def WFs : List FVal → Prop
  | [] => True
  | v :: vs => WF v ∧ WFs vs
end

mutual
/-- Every FLOAT64 in the value is finite. -/
def Fin : FVal → Prop
  | .flt x => ∃ s k, x = .fin s k
  | .arr vs => Fins vs
  | .struct _ vs => Fins vs
  | _ => True
@[inherit_doc Fin] def Fins : List FVal → Prop
  | [] => True
  | v :: vs => Fin v ∧ Fins vs
end

/-- The value is no array or struct with a FLOAT64 in it that is not finite. -/
def Inside : FVal → Prop
  | .flt _ => True
  | v => Fin v

/-- The property: every value is read back. -/
def C269_full (L : Lib) : Prop := ∀ v, WF v → stored L (depth v) v = .ok v

mutual
theorem enc_ok (L : Lib) : ∀ v : FVal, WF v → Fin v → ∃ i, encode L v = .ok i ∧ i.ok = true ∧ sqlite i = i ∧
    ∀ n, depth v ≤ n → decode L n i = .ok v
  | .null, _, _ => ⟨.null, rfl, rfl, rfl, fun n _ => by cases n <;> rfl⟩
  | .flt x, _, h => by
    obtain ⟨s, k, rfl⟩ := h
    exact ⟨.num (.fin s k), rfl, rfl, rfl, fun n _ => by cases n <;> rfl⟩
  | .json s, _, _ => by
    refine ⟨.text (L.layout .json s), rfl, rfl, rfl, fun n hn => ?_⟩
    obtain ⟨m, rfl⟩ : ∃ m, n = m + 1 := ⟨n - 1, by simp only [depth] at hn; omega⟩
    simp only [decode, L.layout_ok, Res.bind'_ok]
  | .arr vs, hw, h => by
    obtain ⟨is, h1, h2, h3⟩ := encs_ok L vs hw h
    obtain ⟨t, h4, h5⟩ := L.list_ok is h2
    refine ⟨.text (L.layout .array t), by simp only [encode, h1, Res.bind'_ok, h4], rfl, rfl, fun n hn => ?_⟩
    obtain ⟨m, rfl⟩ : ∃ m, n = m + 1 := ⟨n - 1, by simp only [depth] at hn; omega⟩
    simp only [decode, L.layout_ok, Res.bind'_ok, h5, h3 m (by simp only [depth] at hn; omega)]
  | .struct ks vs, hw, h => by
    obtain ⟨is, h1, h2, h3⟩ := encs_ok L vs hw.2 h
    obtain ⟨t, h4, h5⟩ := L.obj_ok ks is h2
    have hl := encs_length L vs h1
    refine ⟨.text (L.layout .struct t), by simp only [encode, h1, Res.bind'_ok, h4], rfl, rfl, fun n hn => ?_⟩
    obtain ⟨m, rfl⟩ : ∃ m, n = m + 1 := ⟨n - 1, by simp only [depth] at hn; omega⟩
    have hk : ¬ ks.length < is.length := by rw [hl, hw.1]; omega
    simp only [decode, L.layout_ok, Res.bind'_ok, h5, h3 m (by simp only [depth] at hn; omega), if_neg hk]
theorem encs_ok (L : Lib) : ∀ vs : List FVal, WFs vs → Fins vs → ∃ is, encodes L vs = .ok is ∧ is.all Item.ok = true ∧
    ∀ n, depths vs ≤ n → decodeList (decode L n) is = .ok vs
  | [], _, _ => ⟨[], rfl, rfl, fun _ _ => rfl⟩
  | v :: vs, hw, h => by
    obtain ⟨i, h1, h2, _, h3⟩ := enc_ok L v hw.1 h.1
    obtain ⟨is, h4, h5, h6⟩ := encs_ok L vs hw.2 h.2
    refine ⟨i :: is, by simp only [encodes, h1, h4, Res.bind'_ok], by simp [h2, h5], fun n hn => ?_⟩
    simp only [depths] at hn
    simp only [decodeList, h3 n (by omega), h6 n (by omega), Res.bind'_ok]
theorem encs_length (L : Lib) : ∀ (vs : List FVal) {is : List Item}, encodes L vs = .ok is → is.length = vs.length
  | [], is, h => by simp only [encodes, Res.ok.injEq] at h; subst h; rfl
  | v :: vs, is, h => by
    simp only [encodes] at h
    cases h1 : encode L v with
    | ok i =>
      cases h2 : encodes L vs with
      | ok js =>
        rw [h1, h2] at h
        simp only [Res.bind'_ok, Res.ok.injEq] at h
        subst h
        simp [encs_length L vs h2]
      | err => rw [h1, h2] at h; simp [Res.bind] at h
      | panic => rw [h1, h2] at h; simp [Res.bind] at h
    | err => rw [h1] at h; simp [Res.bind] at h
    | panic => rw [h1] at h; simp [Res.bind] at h
end

mutual
theorem enc_bad (L : Lib) : ∀ v : FVal, WF v → ¬ Fin v → encode L v = .err ∨ ∃ x, v = .flt x ∧ (Item.num x).ok = false
  | .null, _, h => absurd trivial h
  | .flt x, _, h => by
    refine Or.inr ⟨x, rfl, ?_⟩
    cases x with
    | fin s k => exact absurd ⟨s, k, rfl⟩ h
    | inf s => rfl
    | nan => rfl
  | .json _, _, h => absurd trivial h
  | .arr vs, hw, h => by
    refine Or.inl ?_
    rcases encs_bad L vs hw h with h1 | ⟨is, h1, h2⟩
    · simp only [encode, h1, Res.bind]
    · simp only [encode, h1, L.list_err is h2, Res.bind]
  | .struct ks vs, hw, h => by
    refine Or.inl ?_
    rcases encs_bad L vs hw.2 h with h1 | ⟨is, h1, h2⟩
    · simp only [encode, h1, Res.bind]
    · simp only [encode, h1, L.obj_err ks is h2, Res.bind]
theorem encs_bad (L : Lib) : ∀ vs : List FVal, WFs vs → ¬ Fins vs → encodes L vs = .err ∨
    ∃ is, encodes L vs = .ok is ∧ is.all Item.ok = false
  | [], _, h => absurd trivial h
  | v :: vs, hw, h => by
    by_cases hv : Fin v
    · have hvs : ¬ Fins vs := fun h2 => h ⟨hv, h2⟩
      obtain ⟨i, h1, _⟩ := enc_ok L v hw.1 hv
      rcases encs_bad L vs hw.2 hvs with h2 | ⟨is, h2, h3⟩
      · exact Or.inl (by simp only [encodes, h1, h2, Res.bind])
      · exact Or.inr ⟨i :: is, by simp only [encodes, h1, h2, Res.bind'_ok], by simp [h3]⟩
    · rcases enc_bad L v hw.1 hv with h1 | ⟨x, rfl, h1⟩
      · exact Or.inl (by simp only [encodes, h1, Res.bind])
      · by_cases hvs : Fins vs
        · obtain ⟨is, h2, _⟩ := encs_ok L vs hw.2 hvs
          exact Or.inr ⟨.num x :: is, by simp only [encodes, encode, h2, Res.bind'_ok], by simp [h1]⟩
        · rcases encs_bad L vs hw.2 hvs with h2 | ⟨is, h2, _⟩
          · exact Or.inl (by simp only [encodes, encode, h2, Res.bind])
          · exact Or.inr ⟨.num x :: is, by simp only [encodes, encode, h2, Res.bind'_ok], by simp [h1]⟩
end

/-- An array or a struct with a NaN or an infinity anywhere in it cannot be stored: an error. -/
theorem C269_err (L : Lib) (v : FVal) (hw : WF v) (h : ¬ Inside v) (n : Nat) : stored L n v = .err := by
  have hf : ¬ Fin v := by
    intro hf
    cases v <;> first | exact h trivial | exact h hf
  rcases enc_bad L v hw hf with h1 | ⟨x, rfl, _⟩
  · simp only [stored, h1, Res.bind]
  · exact absurd trivial h

/-- A value is read back exactly when it is not NaN and all FLOAT64 inside its arrays and structs are finite. -/
theorem C269_iff (L : Lib) (v : FVal) (hw : WF v) : stored L (depth v) v = .ok v ↔ v ≠ .flt .nan ∧ Inside v := by
  constructor
  · intro h
    refine ⟨?_, ?_⟩
    · rintro rfl
      cases h
    · refine Classical.byContradiction fun hi => ?_
      rw [C269_err L v hw hi] at h
      cases h
  · rintro ⟨h1, h2⟩
    by_cases hf : Fin v
    · obtain ⟨i, h3, _, h4, h5⟩ := enc_ok L v hw hf
      simp only [stored, h3, Res.bind'_ok, h4, h5 _ (Nat.le_refl _)]
    · cases v with
      | flt x =>
        cases x with
        | nan => exact absurd rfl h1
        | inf s => rfl
        | fin s k => rfl
      | _ => exact absurd h2 hf

/-- NaN becomes NULL. -/
theorem C269_nan (L : Lib) (n : Nat) : stored L n (.flt .nan) = .ok .null := by cases n <;> rfl

/-- `[CAST('inf' AS FLOAT64)]` is an error. -/
theorem C269_full_false (L : Lib) : ¬ C269_full L := by
  intro h
  have hw : WF (.arr [.flt (.inf false)]) := ⟨trivial, trivial⟩
  have h1 := h _ hw
  rw [C269_iff L _ hw] at h1
  obtain ⟨s, k, e⟩ := h1.2.1
  cases e

/-! ### The assumptions can be met -/

/-- A list of texts as one text. -/
def pack (ls : List (List Char)) : List Char := ls.flatMap fun l => l.flatMap (fun c => ['c', c]) ++ ['e']

/-- And back; `acc` is the text read so far. -/
def unpack : List Char → List Char → List (List Char)
  | 'c' :: c :: r, acc => unpack r (acc ++ [c])
  | 'e' :: r, acc => acc :: unpack r []
  | _, _ => []

theorem unpack_one : ∀ (l r acc : List Char), unpack (l.flatMap (fun c => ['c', c]) ++ 'e' :: r) acc = (acc ++ l) :: unpack r []
  | [], r, acc => by simp [unpack]
  | c :: l, r, acc => by
    simp only [List.flatMap_cons, List.cons_append, List.nil_append]
    rw [unpack, unpack_one l r (acc ++ [c])]
    simp

theorem unpack_pack : ∀ ls, unpack (pack ls) [] = ls
  | [] => rfl
  | l :: ls => by
    have e : pack (l :: ls) = l.flatMap (fun c => ['c', c]) ++ 'e' :: pack ls := by simp [pack]
    rw [e, unpack_one, unpack_pack ls]
    simp

def wr : Item → List Char
  | .null => []
  | .num (.fin s k) => 'f' :: (if s then '-' else '+') :: List.replicate k '1'
  | .num _ => ['?']
  | .text s => 't' :: s

def rd : List Char → Item
  | 'f' :: c :: r => .num (.fin (c == '-') r.length)
  | 't' :: s => .text s
  | _ => .null

theorem rd_wr (i : Item) (h : i.ok = true) : rd (wr i) = i := by
  cases i with
  | null => rfl
  | text s => rfl
  | num x =>
    cases x with
    | fin s k => cases s <;> simp [wr, rd]
    | inf s => cases h
    | nan => cases h

theorem rd_wr_all : ∀ is : List Item, is.all Item.ok = true → (is.map wr).map rd = is
  | [], _ => rfl
  | i :: is, h => by
    simp only [List.all_cons, Bool.and_eq_true] at h
    rw [List.map_cons, List.map_cons, rd_wr i h.1, rd_wr_all is h.2]

/-- A library as assumed. -/
def lib : Lib where
  list is := if is.all Item.ok then .ok (pack (is.map wr)) else .err
  unlist t := .ok ((unpack t []).map rd)
  obj ks is := if is.all Item.ok then .ok (pack [pack ks, pack (is.map wr)]) else .err
  unobj t := match unpack t [] with
    | [a, b] => .ok (unpack a [], (unpack b []).map rd)
    | _ => .err
  layout h b := (match h with | .json => 'j' | .array => 'a' | .struct => 's') :: b
  unlayout t := match t with
    | 'j' :: b => .ok (.json, b)
    | 'a' :: b => .ok (.array, b)
    | 's' :: b => .ok (.struct, b)
    | _ => .err
  list_ok is h := ⟨pack (is.map wr), by simp [h], by rw [unpack_pack, rd_wr_all is h]⟩
  list_err is h := by simp [h]
  obj_ok ks is h := ⟨pack [pack ks, pack (is.map wr)], by simp [h], by simp only [unpack_pack, rd_wr_all is h]⟩
  obj_err ks is h := by simp [h]
  layout_ok h b := by cases h <;> rfl

/-- `[STRUCT(x AS x, JSON '{}' AS j), NULL]` for every finite x. -/
example (b : Bool) (k : Nat) : let v := FVal.arr [.struct [['x'], ['j']] [.flt (.fin b k), .json ['{', '}']], .null]
    stored lib (depth v) v = .ok v := by
  intro v
  have hw : WF v := ⟨⟨rfl, trivial, trivial, trivial⟩, trivial, trivial⟩
  have hi : Inside v := ⟨⟨⟨_, _, rfl⟩, trivial, trivial⟩, trivial, trivial⟩
  exact (C269_iff lib v hw).2 ⟨fun e => (nomatch e), hi⟩

end Verif.FloatCodec
