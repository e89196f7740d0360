import Verif.Go.Basic
import Verif.Go.Utf8

/-!
# Go's slices and the packages strings and bytes

Part of the trusted model of Go.  The functions are on lists, for byte strings and for
strings taken as characters alike; `utf8_index` and `utf8_split` show that searching and
splitting the bytes of valid UTF-8 is searching and splitting the characters.
-/

namespace Verif.Go

/-- `xs[i:j]`; out of range is a run-time panic. -/
def slice {α} (xs : List α) (i j : Int) : Res (List α) :=
  if 0 ≤ i ∧ i ≤ j ∧ j ≤ xs.length then .ok ((xs.take j.toNat).drop i.toNat) else .panic

/-- strings.Repeat, bytes.Repeat for a count that is not negative (the overflow panic of a result
longer than an int is not modelled). -/
def repeatN {α} (xs : List α) : Nat → List α
  | 0 => []
  | n + 1 => xs ++ repeatN xs n

/-- strings.Repeat, bytes.Repeat: a negative count is a panic. -/
def goRepeat {α} (xs : List α) (n : Int) : Res (List α) := if n < 0 then .panic else .ok (repeatN xs n.toNat)

/-- strings.Index, bytes.Index: the first position where `t` starts. -/
def index {α} [DecidableEq α] (t : List α) : List α → Option Nat
  | [] => if t = [] then some 0 else none
  | c :: s => if t.isPrefixOf (c :: s) then some 0 else (index t s).map (· + 1)

/-- strings.Split, bytes.Split for a separator that is not empty. -/
def splitAux {α} [DecidableEq α] (d : List α) : Nat → List α → List (List α)
  | 0, s => [s]
  | n + 1, s => match index d s with
    | none => [s]
    | some k => s.take k :: splitAux d n (s.drop (k + d.length))

/-- strings.Split, and bytes.Split if the separator is not empty: an empty separator splits after every character. -/
def split {α} [DecidableEq α] (s d : List α) : List (List α) :=
  if d = [] then s.map fun c => [c] else splitAux d s.length s

/-- strings.Join -/
def join {α} (d : List α) : List (List α) → List α
  | [] => []
  | [x] => x
  | x :: xs => x ++ d ++ join d xs

/-- strings.ReplaceAll, and bytes.ReplaceAll if `old` is not empty: an empty `old` matches before every character and at the end. -/
def replaceAll {α} [DecidableEq α] (s old new : List α) : List α :=
  if old = [] then new ++ s.flatMap fun c => c :: new else join new (split s old)

/-- strings.TrimLeft with the cutset's characters. -/
def trimLeft {α} [DecidableEq α] (s cut : List α) : List α := s.dropWhile fun c => decide (c ∈ cut)
/-- strings.TrimRight -/
def trimRight {α} [DecidableEq α] (s cut : List α) : List α := (s.reverse.dropWhile fun c => decide (c ∈ cut)).reverse
/-- strings.Trim -/
def trim {α} [DecidableEq α] (s cut : List α) : List α := trimRight (trimLeft s cut) cut

/-! ### index -/

/-- `t` starts at position `k` of `s`. -/
def At {α} (t s : List α) (k : Nat) : Prop := t <+: s.drop k

theorem at_iff {α} {t s : List α} {k : Nat} (hk : k ≤ s.length) : At t s k ↔ ∃ a b, s = a ++ t ++ b ∧ a.length = k := by
  unfold At
  constructor
  · rintro ⟨b, hb⟩
    refine ⟨s.take k, b, ?_, by simp; omega⟩
    rw [List.append_assoc, hb, List.take_append_drop]
  · rintro ⟨a, b, rfl, rfl⟩
    rw [List.append_assoc, List.drop_left]
    exact ⟨b, rfl⟩

theorem index_some {α} [DecidableEq α] {t : List α} : ∀ {s : List α} {k : Nat},
    index t s = some k → k ≤ s.length ∧ At t s k ∧ ∀ j, j < k → ¬ At t s j
  | [], k, h => by
    unfold index at h
    split at h
    · rename_i e; cases h; subst e
      exact ⟨by simp, ⟨[], rfl⟩, fun j hj => by omega⟩
    · cases h
  | c :: s, k, h => by
    unfold index at h
    split at h
    · rename_i e; cases h
      exact ⟨by simp, List.isPrefixOf_iff_prefix.mp e, fun j hj => by omega⟩
    · rename_i e
      cases hi : index t s with
      | none => rw [hi] at h; cases h
      | some m =>
        rw [hi] at h; simp only [Option.map_some, Option.some.injEq] at h; subst h
        obtain ⟨h1, h2, h3⟩ := index_some hi
        refine ⟨by simp; omega, h2, fun j hj => ?_⟩
        cases j with
        | zero => exact fun hp => e (List.isPrefixOf_iff_prefix.mpr hp)
        | succ j => exact h3 j (by omega)

theorem index_none {α} [DecidableEq α] {t : List α} : ∀ {s : List α}, index t s = none → ∀ j, ¬ At t s j
  | [], h, j => by
    unfold index at h
    split at h
    · cases h
    · rename_i e
      rintro ⟨b, hb⟩
      rw [List.drop_nil, List.append_eq_nil_iff] at hb
      exact e hb.1
  | c :: s, h, j => by
    unfold index at h
    split at h
    · cases h
    · rename_i e
      cases j with
      | zero => exact fun hp => e (List.isPrefixOf_iff_prefix.mpr hp)
      | succ j =>
        have hn : index t s = none := by simpa using h
        exact index_none hn j

theorem index_eq_some {α} [DecidableEq α] {t s : List α} {k : Nat} (h1 : k ≤ s.length) (h2 : At t s k)
    (h3 : ∀ j, j < k → ¬ At t s j) : index t s = some k := by
  cases h : index t s with
  | none => exact absurd h2 (index_none h k)
  | some m =>
    obtain ⟨a, b, c⟩ := index_some h
    rcases Nat.lt_trichotomy m k with hm | rfl | hm
    · exact absurd b (h3 m hm)
    · rfl
    · exact absurd h2 (c k hm)

theorem index_eq_none {α} [DecidableEq α] {t s : List α} (h : ∀ j, ¬ At t s j) : index t s = none := by
  cases hi : index t s with
  | none => rfl
  | some k => exact absurd (index_some hi).2.1 (h k)

/-! ### UTF-8 is self-synchronising -/

/-- A continuation byte. -/
def cont (b : UInt8) : Prop := 128 ≤ b.toNat ∧ b.toNat < 192

theorem enc_shape (c : Char) : ∃ b rest, String.utf8EncodeChar c = b :: rest ∧ ¬ cont b ∧ ∀ x ∈ rest, cont x := by
  have hc := char_toNat_lt c
  simp only [String.utf8EncodeChar]
  generalize c.val.toNat = n at *
  have tail : ∀ m : Nat, cont (UInt8.ofNat (m % 64 + 128)) := by
    intro m; unfold cont; rw [UInt8.toNat_ofNat']; omega
  split
  · refine ⟨_, _, rfl, ?_, by simp⟩
    unfold cont; rw [UInt8.toNat_ofNat']; omega
  · split
    · refine ⟨_, _, rfl, ?_, by simpa using tail n⟩
      unfold cont; rw [UInt8.toNat_ofNat']; omega
    · split
      · refine ⟨_, _, rfl, ?_, by simpa only [List.mem_cons, List.not_mem_nil, or_false, forall_eq_or_imp, forall_eq] using ⟨tail (n / 64), tail n⟩⟩
        unfold cont; rw [UInt8.toNat_ofNat']; omega
      · refine ⟨_, _, rfl, ?_, by simpa only [List.mem_cons, List.not_mem_nil, or_false, forall_eq_or_imp, forall_eq] using ⟨tail (n / 4096), tail (n / 64), tail n⟩⟩
        unfold cont; rw [UInt8.toNat_ofNat']; omega

theorem enc_prefix_free {c d : Char} {x y : List UInt8}
    (h : String.utf8EncodeChar c ++ x = String.utf8EncodeChar d ++ y) : c = d ∧ x = y := by
  have hcd : c = d := by
    rcases Nat.lt_trichotomy c.val.toNat d.val.toNat with hl | he | hl
    · exact absurd (h ▸ utf8EncodeChar_lt hl x y) (List.lt_irrefl _)
    · exact Char.ext (UInt32.toNat_inj.mp he)
    · exact absurd (h ▸ utf8EncodeChar_lt hl y x) (List.lt_irrefl _)
  subst hcd
  exact ⟨rfl, List.append_cancel_left h⟩

theorem utf8_prefix : ∀ {t s : List Char}, utf8 t <+: utf8 s ↔ t <+: s
  | [], s => by simp
  | c :: t, [] => by
    obtain ⟨b, rest, e, _⟩ := enc_shape c
    simp [e]
  | c :: t, d :: s => by
    rw [utf8_cons, utf8_cons]
    constructor
    · rintro ⟨r, hr⟩
      rw [List.append_assoc] at hr
      obtain ⟨rfl, h⟩ := enc_prefix_free hr
      obtain ⟨q, hq⟩ := utf8_prefix.mp ⟨r, h⟩
      exact ⟨q, by rw [List.cons_append, hq]⟩
    · rintro ⟨r, hr⟩
      simp only [List.cons_append, List.cons.injEq] at hr
      obtain ⟨rfl, h⟩ := hr
      obtain ⟨q, hq⟩ := utf8_prefix.mpr ⟨r, h⟩
      exact ⟨q, by rw [List.append_assoc, hq]⟩

/-- Skipping continuation bytes. -/
theorem index_skip {b : UInt8} {t : List UInt8} (hb : ¬ cont b) : ∀ {rest s : List UInt8}, (∀ x ∈ rest, cont x) →
    index (b :: t) (rest ++ s) = (index (b :: t) s).map (· + rest.length)
  | [], s, _ => by simp
  | x :: rest, s, h => by
    have hx : x ≠ b := fun e => hb (e ▸ h x List.mem_cons_self)
    rw [List.cons_append, index]
    rw [if_neg]
    · rw [index_skip hb fun y hy => h y (List.mem_cons_of_mem _ hy)]
      cases index (b :: t) s <;> simp [Nat.add_assoc]
    · simp [List.isPrefixOf, Ne.symm hx]

/-- Searching the bytes of a string is searching its characters. -/
theorem utf8_index (t s : List Char) :
    index (utf8 t) (utf8 s) = (index t s).map fun k => (utf8 (s.take k)).length := by
  cases t with
  | nil =>
    cases hs : utf8 s <;> cases s <;> simp [index, List.isPrefixOf]
  | cons a t =>
    obtain ⟨b, rest, e, hb, _⟩ := enc_shape a
    induction s with
    | nil => simp [index, e]
    | cons c s ih =>
      by_cases hp : (a :: t) <+: (c :: s)
      · have h1 : index (a :: t) (c :: s) = some 0 := by
          rw [index, if_pos (List.isPrefixOf_iff_prefix.mpr hp)]
        have h2 : index (utf8 (a :: t)) (utf8 (c :: s)) = some 0 :=
          index_eq_some (by simp) (by simpa [At] using utf8_prefix.mpr hp) (fun j hj => by omega)
        rw [h1, h2]; rfl
      · have h1 : index (a :: t) (c :: s) = (index (a :: t) s).map (· + 1) := by
          rw [index, if_neg (fun h => hp (List.isPrefixOf_iff_prefix.mp h))]
        have hq : ¬ utf8 (a :: t) <+: utf8 (c :: s) := fun h => hp (utf8_prefix.mp h)
        obtain ⟨b', rest', e', _, hr'⟩ := enc_shape c
        have e1 : utf8 (a :: t) = b :: (rest ++ utf8 t) := by rw [utf8_cons, e]; rfl
        have e2 : utf8 (c :: s) = b' :: (rest' ++ utf8 s) := by rw [utf8_cons, e']; rfl
        have h2 : index (utf8 (a :: t)) (utf8 (c :: s)) = (index (utf8 (a :: t)) (rest' ++ utf8 s)).map (· + 1) := by
          rw [e2, index, if_neg]
          intro h
          rw [e2] at hq
          exact hq (List.isPrefixOf_iff_prefix.mp h)
        rw [h1, h2, e1, index_skip hb hr', ← e1, ih]
        cases index (a :: t) s with
        | none => rfl
        | some k => simp [e', Nat.add_comm]

/-! ### split and join -/

theorem join_cons {α} (d x : List α) {xs : List (List α)} (h : xs ≠ []) : join d (x :: xs) = x ++ d ++ join d xs := by
  cases xs with
  | nil => exact absurd rfl h
  | cons y ys => rfl

theorem splitAux_ne {α} [DecidableEq α] (d : List α) (n : Nat) (s : List α) : splitAux d n s ≠ [] := by
  cases n with
  | zero => simp [splitAux]
  | succ n => unfold splitAux; split <;> simp

theorem at_split {α} {t s : List α} {k : Nat} (hk : k ≤ s.length) (h : At t s k) :
    s.take k ++ t ++ s.drop (k + t.length) = s := by
  obtain ⟨a, b, rfl, rfl⟩ := (at_iff hk).mp h
  simp [List.append_assoc]

theorem join_splitAux {α} [DecidableEq α] (d : List α) : ∀ n s, join d (splitAux d n s) = s
  | 0, s => rfl
  | n + 1, s => by
    unfold splitAux
    split
    · rfl
    · rename_i k hk
      obtain ⟨h1, h2, _⟩ := index_some hk
      rw [join_cons _ _ (splitAux_ne _ _ _), join_splitAux d n]
      exact at_split h1 h2

theorem at_take {α} {t s : List α} {j k : Nat} (h : At t (s.take k) j) : At t s j := by
  obtain ⟨b, hb⟩ := h
  refine ⟨b ++ s.drop (max k j), ?_⟩
  rw [← List.append_assoc, hb, List.drop_take]
  by_cases hjk : j ≤ k
  · rw [Nat.max_eq_left hjk]
    rw [show s.drop k = (s.drop j).drop (k - j) by rw [List.drop_drop]; congr 1; omega]
    exact List.take_append_drop _ _
  · rw [Nat.max_eq_right (by omega), show k - j = 0 by omega]
    simp

theorem at_length {α} {t s : List α} {j : Nat} (h : At t s j) (ht : t ≠ []) : j + t.length ≤ s.length := by
  obtain ⟨b, hb⟩ := h
  have h1 := congrArg List.length hb
  simp only [List.length_append, List.length_drop] at h1
  have : t.length ≠ 0 := fun e => ht (List.eq_nil_of_length_eq_zero e)
  omega

theorem splitAux_pieces {α} [DecidableEq α] {d : List α} (hd : d ≠ []) : ∀ n s, s.length ≤ n →
    ∀ p ∈ splitAux d n s, ∀ j, ¬ At d p j
  | 0, s, hn, p, hp, j => by
    have : s = [] := List.eq_nil_of_length_eq_zero (by omega)
    subst this
    simp only [splitAux, List.mem_singleton] at hp
    subst hp
    rintro ⟨b, hb⟩
    rw [List.drop_nil, List.append_eq_nil_iff] at hb
    exact hd hb.1
  | n + 1, s, hn, p, hp, j => by
    unfold splitAux at hp
    split at hp
    · rename_i hi
      simp only [List.mem_singleton] at hp
      subst hp
      exact index_none hi j
    · rename_i k hk
      obtain ⟨h1, h2, h3⟩ := index_some hk
      have hdl : 0 < d.length := by
        rcases Nat.eq_zero_or_pos d.length with h | h
        · exact absurd (List.eq_nil_of_length_eq_zero h) hd
        · exact h
      rcases List.mem_cons.mp hp with rfl | hp
      · intro hj
        have hl := at_length hj hd
        simp only [List.length_take] at hl
        exact h3 j (by omega) (at_take hj)
      · exact splitAux_pieces hd n _ (by simp; omega) p hp j

theorem splitAux_fuel {α} [DecidableEq α] {d : List α} (hd : d ≠ []) : ∀ n m s, s.length ≤ n → s.length ≤ m →
    splitAux d n s = splitAux d m s
  | 0, 0, _, _, _ => rfl
  | 0, m + 1, s, hn, _ => by
    have : s = [] := List.eq_nil_of_length_eq_zero (by omega)
    subst this
    simp [splitAux, index, hd]
  | n + 1, 0, s, _, hm => by
    have : s = [] := List.eq_nil_of_length_eq_zero (by omega)
    subst this
    simp [splitAux, index, hd]
  | n + 1, m + 1, s, hn, hm => by
    unfold splitAux
    split
    · rfl
    · rename_i k hk
      have hdl : 0 < d.length := by
        rcases Nat.eq_zero_or_pos d.length with h | h
        · exact absurd (List.eq_nil_of_length_eq_zero h) hd
        · exact h
      rw [splitAux_fuel hd n m _ (by simp; omega) (by simp; omega)]

/-- The recursive description of split. -/
theorem split_eq {α} [DecidableEq α] {d : List α} (hd : d ≠ []) (s : List α) :
    split s d = match index d s with
      | none => [s]
      | some k => s.take k :: split (s.drop (k + d.length)) d := by
  unfold split
  simp only [if_neg hd]
  cases hs : s.length with
  | zero =>
    have : s = [] := List.eq_nil_of_length_eq_zero hs
    subst this
    simp [splitAux, index, hd]
  | succ n =>
    rw [splitAux]
    split
    · rfl
    · rename_i k hk
      have hdl : 0 < d.length := by
        rcases Nat.eq_zero_or_pos d.length with h | h
        · exact absurd (List.eq_nil_of_length_eq_zero h) hd
        · exact h
      simp only [List.cons.injEq, true_and]
      apply splitAux_fuel hd <;> simp <;> omega

theorem join_split {α} [DecidableEq α] {d : List α} (hd : d ≠ []) (s : List α) : join d (split s d) = s := by
  unfold split; rw [if_neg hd]; exact join_splitAux d _ s

theorem split_pieces {α} [DecidableEq α] {d : List α} (hd : d ≠ []) (s : List α) :
    ∀ p ∈ split s d, ∀ j, ¬ At d p j := by
  unfold split; rw [if_neg hd]; exact splitAux_pieces hd _ s (Nat.le_refl _)

theorem utf8_nonempty {s : List Char} (h : s ≠ []) : utf8 s ≠ [] := by
  cases s with
  | nil => exact absurd rfl h
  | cons c s =>
    obtain ⟨b, r, e, _⟩ := enc_shape c
    rw [utf8_cons, e]; simp

/-- Splitting the bytes is splitting the characters. -/
theorem utf8_split {d : List Char} (hd : d ≠ []) : ∀ (n : Nat) (s : List Char), s.length ≤ n →
    split (utf8 s) (utf8 d) = (split s d).map utf8 := by
  intro n
  induction n with
  | zero =>
    intro s h
    have : s = [] := List.eq_nil_of_length_eq_zero (by omega)
    subst this
    rw [split_eq (utf8_nonempty hd), split_eq hd, utf8_index]
    simp [index, hd]
  | succ n ih =>
    intro s h
    rw [split_eq (utf8_nonempty hd), split_eq hd, utf8_index]
    cases hk : index d s with
    | none => rfl
    | some k =>
      obtain ⟨h1, h2, _⟩ := index_some hk
      have e := at_split h1 h2
      have l : k + d.length ≤ s.length := at_length h2 hd
      have dl : 0 < d.length := List.length_pos_iff.mpr hd
      simp only [Option.map_some, List.map_cons]
      rw [← ih (s.drop (k + d.length)) (by simp; omega)]
      have e1 : utf8 s = utf8 (s.take k) ++ utf8 (s.drop k) := by rw [← utf8_append, List.take_append_drop]
      have e2 : utf8 s = utf8 (s.take k) ++ (utf8 d ++ utf8 (s.drop (k + d.length))) := by
        conv => lhs; rw [← e]
        rw [utf8_append, utf8_append, List.append_assoc]
      rw [e2, List.take_left' rfl, ← List.append_assoc, List.drop_left' (by simp)]

end Verif.Go
