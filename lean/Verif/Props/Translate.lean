import Verif.Model.Strings
import Verif.Props.StringCut

/-! # C62: TRANSLATE -/

namespace Verif.Strings

open Go Val

/-- What becomes of one character (or byte) `x`: its counterpart in `t`, nothing if there is none, itself if
it is not in `s`. -/
def MapsTo {α} (s t : List α) (x : α) (r : List α) : Prop :=
  (x ∉ s → r = [x]) ∧ ∀ i : Nat, s[i]? = some x → r = t[i]?.toList

/-- `r` is `e` with every element mapped on its own. -/
def Translated {α} (s t e r : List α) : Prop := ∃ g, r = e.flatMap g ∧ ∀ x, MapsTo s t x (g x)

/-- Full C62: with distinct characters to translate, each is translated on its own. -/
def C62_full : Prop :=
  (∀ e s t : List Char, s.Nodup → ∃ r, translate (.str e) (.str s) (.str t) = .ok (.str r) ∧ Translated s t e r) ∧
  (∀ e s t : List UInt8, s.Nodup → ∃ r, translate (.bytes e) (.bytes s) (.bytes t) = .ok (.bytes r) ∧ Translated s t e r)

theorem index_single {α} [DecidableEq α] (c : α) (s : List α) :
    index [c] s = none ∧ c ∉ s ∨ ∃ a b, s = a ++ c :: b ∧ c ∉ a ∧ index [c] s = some a.length := by
  induction s with
  | nil => left; simp [index]
  | cons x s ih =>
    by_cases h : c = x
    · subst h
      right
      refine ⟨[], s, rfl, by simp, ?_⟩
      simp [index]
    · have hi : index [c] (x :: s) = (index [c] s).map (· + 1) := by
        simp [index, h]
      rcases ih with ⟨h1, h2⟩ | ⟨a, b, h1, h2, h3⟩
      · left; rw [hi, h1]; simp [h, h2]
      · right
        refine ⟨x :: a, b, by simp [h1], by simp [h, h2], ?_⟩
        rw [hi, h3]; simp

/-- Replacing a single element. -/
theorem replaceAll_single {α} [DecidableEq α] (c : α) (new : List α) : ∀ (n : Nat) (s : List α), s.length ≤ n →
    replaceAll s [c] new = s.flatMap fun x => if x = c then new else [x] := by
  have keep : ∀ a : List α, c ∉ a → (a.flatMap fun x => if x = c then new else [x]) = a := by
    intro a ha
    induction a with
    | nil => rfl
    | cons y a ih =>
      simp only [List.mem_cons, not_or] at ha
      rw [List.flatMap_cons, ih ha.2, if_neg (fun e => ha.1 e.symm)]; rfl
  intro n
  induction n with
  | zero =>
    intro s h
    have : s = [] := List.eq_nil_of_length_eq_zero (by omega)
    subst this
    simp [replaceAll, split, splitAux, join]
  | succ n ih =>
    intro s h
    unfold replaceAll
    rw [if_neg (by simp), split_eq (by simp)]
    rcases index_single c s with ⟨h1, h2⟩ | ⟨a, b, h1, h2, h3⟩
    · rw [h1]; simp only [join]; rw [keep s h2]
    · rw [h3]
      simp only
      have hne : split (s.drop (a.length + [c].length)) [c] ≠ [] := by
        unfold split; rw [if_neg (by simp)]; exact splitAux_ne _ _ _
      rw [join_cons _ _ hne]
      have e1 : s.take a.length = a := by rw [h1, List.take_left' rfl]
      have e2 : s.drop (a.length + [c].length) = b := by
        rw [h1, show a ++ c :: b = (a ++ [c]) ++ b by simp]; exact List.drop_left' (by simp)
      rw [e1, e2]
      have ih := ih b (by rw [h1] at h; simp at h; omega)
      unfold replaceAll at ih
      rw [if_neg (by simp)] at ih
      rw [ih, h1, List.flatMap_append, List.flatMap_cons, keep a h2, if_pos rfl, List.append_assoc]

/-- The characters to translate with their counterparts. -/
def pairs {α} : List α → List α → List (α × Option α)
  | [], _ => []
  | c :: s, [] => (c, none) :: pairs s []
  | c :: s, y :: t => (c, some y) :: pairs s t

/-- What the program does to one element: each translation in turn. -/
def chase {α} [DecidableEq α] : List (α × Option α) → α → List α
  | [], x => [x]
  | (c, r) :: ps, x => if x = c then (match r with | some y => chase ps y | none => []) else chase ps x

/-- What it should do. -/
def lookup {α} [DecidableEq α] : List (α × Option α) → α → List α
  | [], x => [x]
  | (c, r) :: ps, x => if x = c then r.toList else lookup ps x

theorem pairs_drop {α} (c : α) (s t : List α) (i : Nat) :
    pairs (c :: s) (t.drop i) = (c, t[i]?) :: pairs s (t.drop (i + 1)) := by
  cases h : t.drop i with
  | nil =>
    have hl : t.length ≤ i := by simpa using h
    rw [List.getElem?_eq_none hl, List.drop_of_length_le (by omega)]
    rfl
  | cons y r =>
    have e1 : t[i]? = some y := by
      have := congrArg (fun l => l[0]?) h
      simpa [List.getElem?_drop] using this
    have e2 : t.drop (i + 1) = r := by
      have := congrArg (List.drop 1) h
      simpa [List.drop_drop] using this
    rw [e1, e2]; rfl

theorem chase_flat {α} [DecidableEq α] (ps : List (α × Option α)) (c : α) (r : Option α) (e : List α) :
    (e.flatMap fun x => if x = c then r.toList else [x]).flatMap (chase ps) = e.flatMap (chase ((c, r) :: ps)) := by
  rw [List.flatMap_assoc]
  congr 1
  funext x
  simp only [chase]
  split
  · cases r <;> simp
  · simp

theorem translateLoop_eq {α} [DecidableEq α] (ch : UInt8 → α) (t : List UInt8) : ∀ (s : List UInt8) (i : Nat) (seen : List UInt8) (e : List α),
    s.Nodup → (∀ c ∈ s, c ∉ seen) →
    translateLoop ch t s i seen e = .ok (e.flatMap (chase (pairs (s.map ch) ((t.map ch).drop i))))
  | [], i, seen, e, _, _ => by simp [translateLoop, pairs, chase]
  | c :: s, i, seen, e, hn, hs => by
    have hn := List.nodup_cons.mp hn
    unfold translateLoop
    rw [if_neg (hs c List.mem_cons_self), replaceAll_single _ _ _ _ (Nat.le_refl _),
      translateLoop_eq ch t s (i + 1) (c :: seen) _ hn.2]
    · rw [List.map_cons, pairs_drop, ← chase_flat, List.getElem?_map]
      congr 3
      funext x
      cases t[i]? <;> simp
    · intro d hd
      simp only [List.mem_cons, not_or]
      exact ⟨fun e => hn.1 (e ▸ hd), hs d (List.mem_cons_of_mem _ hd)⟩

theorem translateLoop_dup {α} [DecidableEq α] (ch : UInt8 → α) (t : List UInt8) : ∀ (s : List UInt8) (i : Nat) (seen : List UInt8) (e : List α),
    (¬ s.Nodup ∨ ∃ c ∈ s, c ∈ seen) → translateLoop ch t s i seen e = .err
  | [], i, seen, e, h => by simp at h
  | c :: s, i, seen, e, h => by
    unfold translateLoop
    split
    · rfl
    · rename_i hc
      apply translateLoop_dup ch t s
      rcases h with h | ⟨d, hd, hd'⟩
      · by_cases hcs : c ∈ s
        · exact .inr ⟨c, hcs, List.mem_cons_self⟩
        · exact .inl fun hn => h (List.nodup_cons.mpr ⟨hcs, hn⟩)
      · rcases List.mem_cons.mp hd with rfl | hd
        · exact absurd hd' hc
        · exact .inr ⟨d, hd, List.mem_cons_of_mem _ hd'⟩

theorem lookup_mapsTo {α} [DecidableEq α] : ∀ (s t : List α), s.Nodup → ∀ x, MapsTo s t x (lookup (pairs s t) x)
  | [], t, _, x => ⟨fun _ => rfl, by simp⟩
  | c :: s, t, hn, x => by
    have hn := List.nodup_cons.mp hn
    obtain ⟨h1, h2⟩ := lookup_mapsTo s (t.drop 1) hn.2 x
    have e := pairs_drop c s t 0
    rw [List.drop_zero] at e
    rw [e]
    simp only [lookup]
    refine ⟨fun hx => ?_, fun i hi => ?_⟩
    · simp only [List.mem_cons, not_or] at hx
      rw [if_neg hx.1, h1 hx.2]
    · cases i with
      | zero =>
        simp at hi
        rw [if_pos hi.symm]
      | succ i =>
        rw [List.getElem?_cons_succ] at hi
        have hxs : x ∈ s := List.mem_of_getElem? hi
        rw [if_neg (fun e : x = c => hn.1 (e ▸ hxs)), h2 i hi, List.getElem?_drop, Nat.add_comm]

theorem mapsTo_unique {α} {s t : List α} {x : α} {r r' : List α} (h : MapsTo s t x r) (h' : MapsTo s t x r') : r = r' := by
  by_cases hx : x ∈ s
  · obtain ⟨i, hi⟩ := List.getElem?_of_mem hx
    rw [h.2 i hi, h'.2 i hi]
  · rw [h.1 hx, h'.1 hx]

/-- No character is translated into one that is translated into something else later on. -/
def Settled {α} (s t : List α) : Prop :=
  ∀ (i j : Nat) (y : α), i < j → s[j]? = some y → t[i]? = some y → t[j]? = some y

/-- The same, pair by pair. -/
def settled {α} [DecidableEq α] : List (α × Option α) → Prop
  | [] => True
  | (_, r) :: ps => (∀ y, r = some y → lookup ps y = [y]) ∧ settled ps

theorem lookup_not {α} [DecidableEq α] {c : α} : ∀ {ps : List (α × Option α)}, (∀ p ∈ ps, p.1 ≠ c) → lookup ps c = [c] ∧ chase ps c = [c]
  | [], _ => ⟨rfl, rfl⟩
  | (d, r) :: ps, h => by
    have hd : c ≠ d := fun e => h (d, r) List.mem_cons_self e.symm
    have ih := lookup_not (ps := ps) fun p hp => h p (List.mem_cons_of_mem _ hp)
    simp only [lookup, chase, if_neg hd]
    exact ih

theorem chase_lookup {α} [DecidableEq α] : ∀ {ps : List (α × Option α)}, (ps.map Prod.fst).Nodup →
    ((∀ x, chase ps x = lookup ps x) ↔ settled ps)
  | [], _ => by simp [chase, lookup, settled]
  | (c, r) :: ps, hn => by
    rw [List.map_cons] at hn
    have hn := List.nodup_cons.mp hn
    have ih := chase_lookup hn.2
    have hc := lookup_not (c := c) (ps := ps) fun p hp e => hn.1 (List.mem_map.mpr ⟨p, hp, e⟩)
    constructor
    · intro h
      have all : ∀ x, chase ps x = lookup ps x := by
        intro x
        by_cases hx : x = c
        · subst hx; rw [hc.1, hc.2]
        · have := h x
          simpa only [chase, lookup, if_neg hx] using this
      refine ⟨fun y hy => ?_, ih.mp all⟩
      subst hy
      have := h c
      simp only [chase, lookup, if_true] at this
      rw [← all, this]; rfl
    · rintro ⟨h1, h2⟩ x
      have all := ih.mpr h2
      simp only [chase, lookup]
      split
      · cases r with
        | none => rfl
        | some y => simp only [all, h1 y rfl, Option.toList]
      · exact all x

theorem pairs_keys {α} : ∀ (s t : List α), (pairs s t).map Prod.fst = s
  | [], t => rfl
  | c :: s, [] => by simp [pairs, pairs_keys s []]
  | c :: s, y :: t => by simp [pairs, pairs_keys s t]

theorem settled_iff {α} [DecidableEq α] : ∀ (s t : List α), s.Nodup → (settled (pairs s t) ↔ Settled s t)
  | [], t, _ => by simp [pairs, settled, Settled]
  | c :: s, t, hn => by
    have hn := List.nodup_cons.mp hn
    have ih := settled_iff s (t.drop 1) hn.2
    have e := pairs_drop c s t 0
    rw [List.drop_zero] at e
    rw [e]
    simp only [settled]
    rw [show 0 + 1 = 1 from rfl, ih]
    constructor
    · rintro ⟨h1, h2⟩ i j y hij hs ht
      cases j with
      | zero => omega
      | succ j =>
        rw [List.getElem?_cons_succ] at hs
        cases i with
        | zero =>
          have := (lookup_mapsTo s (t.drop 1) hn.2 y).2 j hs
          rw [h1 y ht, List.getElem?_drop, Nat.add_comm] at this
          cases hj : t[j + 1]? with
          | none => rw [hj] at this; simp at this
          | some z => rw [hj] at this; simp at this; rw [this]
        | succ i =>
          have := h2 i j y (by omega) hs (by rw [List.getElem?_drop, Nat.add_comm]; exact ht)
          rwa [List.getElem?_drop, Nat.add_comm] at this
    · intro h
      refine ⟨fun y hy => ?_, fun i j y hij hs ht => ?_⟩
      · have m := lookup_mapsTo s (t.drop 1) hn.2 y
        by_cases hx : y ∈ s
        · obtain ⟨j, hj⟩ := List.getElem?_of_mem hx
          rw [m.2 j hj, List.getElem?_drop, Nat.add_comm, h 0 (j + 1) y (by omega) (by rw [List.getElem?_cons_succ]; exact hj) hy]
          rfl
        · exact m.1 hx
      · rw [List.getElem?_drop, Nat.add_comm] at ht ⊢
        exact h (i + 1) (j + 1) y (by omega) (by rw [List.getElem?_cons_succ]; exact hs) ht

theorem flatMap_self {α} (f g : α → List α) (h : ∀ e : List α, e.flatMap f = e.flatMap g) (x : α) : f x = g x := by
  simpa using h [x]

theorem translated_iff {α} [DecidableEq α] {s t : List α} (hn : s.Nodup) :
    (∀ e, Translated s t e (e.flatMap (chase (pairs s t)))) ↔ Settled s t := by
  rw [← settled_iff s t hn, ← chase_lookup (by rw [pairs_keys]; exact hn)]
  constructor
  · intro h x
    obtain ⟨g, e, hg⟩ := h [x]
    simp only [List.flatMap_cons, List.flatMap_nil, List.append_nil] at e
    rw [e, mapsTo_unique (hg x) (lookup_mapsTo s t hn x)]
  · intro h e
    refine ⟨lookup (pairs s t), ?_, lookup_mapsTo s t hn⟩
    congr 1
    funext x
    exact h x

/-- **C62** TRANSLATE of BYTES, with distinct bytes to translate, is right for every value exactly when no byte
is translated into one that is translated later; with a byte given twice it is an error. -/
theorem C62_bytes_partial (s t : List UInt8) :
    (s.Nodup → ((∀ e, ∃ r, translate (.bytes e) (.bytes s) (.bytes t) = .ok (.bytes r) ∧ Translated s t e r) ↔ Settled s t)) ∧
    (¬ s.Nodup → ∀ e, translate (.bytes e) (.bytes s) (.bytes t) = .err) := by
  refine ⟨fun hn => ?_, fun hn e => ?_⟩
  · rw [← translated_iff hn]
    have eq : ∀ e, translate (.bytes e) (.bytes s) (.bytes t) = .ok (.bytes (e.flatMap (chase (pairs s t)))) := by
      intro e
      simp only [translate]
      rw [translateLoop_eq id t s 0 [] e hn (by simp)]
      simp only [List.map_id, List.drop_zero, Res.bind'_ok]
    constructor
    · intro h e
      obtain ⟨r, h1, h2⟩ := h e
      rw [eq] at h1
      simp only [Res.ok.injEq, Val.bytes.injEq] at h1
      rw [h1]; exact h2
    · intro h e
      exact ⟨_, eq e, h e⟩
  · simp only [translate]
    rw [translateLoop_dup id t s 0 [] e (.inl hn)]; rfl

theorem utf8_asciiBytes : ∀ {s : List Char}, (∀ c ∈ s, c.toNat < 128) → utf8 s = asciiBytes s
  | [], _ => rfl
  | c :: s, h => by
    rw [utf8_cons, ascii_enc (h c List.mem_cons_self), utf8_asciiBytes fun d hd => h d (List.mem_cons_of_mem _ hd)]
    rfl

theorem byteChar_ascii {c : Char} (h : c.toNat < 128) : byteChar (UInt8.ofNat c.toNat) = c := by
  unfold byteChar
  rw [UInt8.toNat_ofNat', Nat.mod_eq_of_lt (by omega)]
  simp

theorem asciiBytes_back {s : List Char} (h : ∀ c ∈ s, c.toNat < 128) : (asciiBytes s).map byteChar = s := by
  unfold asciiBytes
  rw [List.map_map]
  conv => rhs; rw [← List.map_id s]
  apply List.map_congr_left
  intro c hc
  exact byteChar_ascii (h c hc)

theorem nodup_of_map {α β} (f : α → β) : ∀ {l : List α}, (l.map f).Nodup → l.Nodup
  | [], _ => List.nodup_nil
  | a :: l, h => by
    rw [List.map_cons] at h
    have h := List.nodup_cons.mp h
    exact List.nodup_cons.mpr ⟨fun ha => h.1 (List.mem_map_of_mem ha), nodup_of_map f h.2⟩

theorem nodup_map_of_inj {α β} (f : α → β) : ∀ {l : List α}, (∀ x ∈ l, ∀ y ∈ l, f x = f y → x = y) → l.Nodup → (l.map f).Nodup
  | [], _, _ => List.nodup_nil
  | a :: l, hf, h => by
    have h := List.nodup_cons.mp h
    rw [List.map_cons]
    refine List.nodup_cons.mpr ⟨fun ha => ?_, nodup_map_of_inj f (fun x hx y hy => hf x (List.mem_cons_of_mem _ hx) y (List.mem_cons_of_mem _ hy)) h.2⟩
    obtain ⟨b, hb, e⟩ := List.mem_map.mp ha
    exact h.1 (hf b (List.mem_cons_of_mem _ hb) a List.mem_cons_self e ▸ hb)

/-- **C62** TRANSLATE of a STRING between ASCII characters: right for every string exactly when no character
is translated into one that is translated later; with a character given twice it is an error. -/
theorem C62_string_partial (s t : List Char) (hs : ∀ c ∈ s, c.toNat < 128) (ht : ∀ c ∈ t, c.toNat < 128) :
    (s.Nodup → ((∀ e, ∃ r, translate (.str e) (.str s) (.str t) = .ok (.str r) ∧ Translated s t e r) ↔ Settled s t)) ∧
    (¬ s.Nodup → ∀ e, translate (.str e) (.str s) (.str t) = .err) := by
  refine ⟨fun hn => ?_, fun hn e => ?_⟩
  · have hb : (asciiBytes s).Nodup := nodup_of_map byteChar (by rw [asciiBytes_back hs]; exact hn)
    rw [← translated_iff hn]
    have eq : ∀ e, translate (.str e) (.str s) (.str t) = .ok (.str (e.flatMap (chase (pairs s t)))) := by
      intro e
      simp only [translate]
      rw [utf8_asciiBytes hs, utf8_asciiBytes ht, translateLoop_eq byteChar _ _ 0 [] e hb (by simp), asciiBytes_back hs,
        asciiBytes_back ht]
      simp only [List.drop_zero, Res.bind'_ok]
    constructor
    · intro h e
      obtain ⟨r, h1, h2⟩ := h e
      rw [eq] at h1
      simp only [Res.ok.injEq, Val.str.injEq] at h1
      rw [h1]; exact h2
    · intro h e
      exact ⟨_, eq e, h e⟩
  · simp only [translate]
    rw [utf8_asciiBytes hs, translateLoop_dup byteChar _ _ 0 [] e]
    · rfl
    · left
      intro hb
      apply hn
      rw [← asciiBytes_back hs]
      refine nodup_map_of_inj byteChar ?_ hb
      intro x hx y hy e
      obtain ⟨c, hc, rfl⟩ := List.mem_map.mp hx
      obtain ⟨d, hd, rfl⟩ := List.mem_map.mp hy
      rw [byteChar_ascii (hs c hc), byteChar_ascii (hs d hd)] at e
      rw [e]

/-- TRANSLATE('ab', 'ab', 'ba') is 'aa'. -/
theorem C62_full_false : ¬ C62_full := by
  intro h
  have := ((C62_bytes_partial [97, 98] [98, 97]).1 (by decide)).mp (fun e => h.2 e _ _ (by decide))
  exact absurd (this 0 1 98 (by decide) rfl rfl) (by decide)

/-- A character that is not ASCII is not translated: TRANSLATE('é', 'é', 'e') is 'é'. -/
theorem C62_not_ascii : translate (.str ['é']) (.str ['é']) (.str ['e']) = .ok (.str ['é']) := by rfl
/-- Two of them can be taken for duplicates: TRANSLATE(s, 'éè', 'ee') is an error for every s. -/
theorem C62_not_ascii_dup (e : List Char) : translate (.str e) (.str ['é','è']) (.str ['e','e']) = .err := by
  simp only [translate]
  rw [translateLoop_dup]
  · rfl
  · left; decide

example : Settled ['a','b','c'] ['x','y'] := by
  intro i j y hij hs ht
  have hi : i < 2 := by
    have := (List.getElem?_eq_some_iff.mp ht).1
    simpa using this
  have hj : j < 3 := by
    have := (List.getElem?_eq_some_iff.mp hs).1
    simpa using this
  have : (i = 0 ∨ i = 1) ∧ (j = 1 ∨ j = 2) := by omega
  rcases this with ⟨rfl | rfl, rfl | rfl⟩ <;> simp at hs ht <;> subst hs <;> simp_all

end Verif.Strings
