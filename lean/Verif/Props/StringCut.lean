import Verif.Model.Strings

/-! # C57: SUBSTR; C58: LEFT, RIGHT, LPAD, RPAD, REPEAT, REVERSE -/

namespace Verif.Strings

open Go Val

theorem slice_ok {α} {xs : List α} {i j : Int} (h0 : 0 ≤ i) (h1 : i ≤ j) (h2 : j ≤ xs.length) :
    slice xs i j = .ok ((xs.take j.toNat).drop i.toNat) := by
  unfold slice; rw [if_pos ⟨h0, h1, h2⟩]

theorem slice_zero {α} {xs : List α} {j : Int} (h1 : 0 ≤ j) (h2 : j ≤ xs.length) : slice xs 0 j = .ok (xs.take j.toNat) := by
  rw [slice_ok (by omega) h1 h2]; rfl

/-! ### C57 -/

/-- What SUBSTR must be, on characters or on bytes: `f p n` is SUBSTR(s, p, n), `f p none` SUBSTR(s, p). -/
structure IsSubstr {α} (s : List α) (f : Int → Option Int → Res (List α)) : Prop where
  /-- from position p ≥ 1, n elements as far as there are any -/
  get : ∀ p : Nat, ∀ n : Nat, ∃ r, f (p + 1) (some n) = .ok r ∧ ∀ i : Nat, r[i]? = if i < n then s[p + i]? else none
  /-- without a length, everything from position p -/
  rest : ∀ p : Nat, f (p + 1) none = .ok (s.drop p)
  /-- -k is the k-th position from the end -/
  fromEnd : ∀ (k : Int) n, 1 ≤ k → k ≤ s.length → f (-k) n = f (s.length - k + 1) n
  /-- position 0 and positions before the start are position 1 -/
  zero : ∀ n, f 0 n = f 1 n
  before : ∀ (p : Int) n, p < -(s.length : Int) → f p n = f 1 n
  /-- a negative length is an error -/
  negative : ∀ p n, n < 0 → f p (some n) = .err
  /-- cutting in two and concatenating -/
  halves : ∀ k : Nat, ∃ a b, f 1 (some k) = .ok a ∧ f (k + 1) none = .ok b ∧ a ++ b = s

/-- Full C57: for STRING the positions are characters, for BYTES bytes. -/
def C57_full : Prop :=
  (∀ b, IsSubstr b (substrBytes b)) ∧
  (∀ s : List Char, ∃ f, IsSubstr s f ∧ ∀ p n, substrStr s p n = (f p n).bind fun r => .ok (utf8 r))

/-- SUBSTR with the right elements. -/
def good {α} (s : List α) (pos : Int) (n : Option Int) : Res (List α) :=
  (substrLen n s.length).bind fun l =>
    let start := substrPos pos s.length
    let stop := if start + l > s.length then (s.length : Int) else start + l
    slice s start stop

theorem substrPos_bound (pos : Int) (len : Nat) : 0 ≤ substrPos pos len ∧ substrPos pos len ≤ len := by
  unfold substrPos; repeat' split
  all_goals omega

theorem substrLen_bound {n : Option Int} {len : Nat} {l : Int} (h : substrLen n len = .ok l) : 0 ≤ l ∧ l ≤ len := by
  unfold substrLen at h
  split at h
  · cases h; omega
  · split at h
    · cases h
    · split at h <;> cases h <;> omega

theorem good_ok {α} (s : List α) (p : Nat) (l : Int) {n : Option Int} (h : substrLen n s.length = .ok l) :
    good s (p + 1) n = .ok ((s.drop p).take l.toNat) := by
  have hl := substrLen_bound h
  have hp : substrPos (p + 1) s.length = min (p : Int) s.length := by
    unfold substrPos; repeat' split
    all_goals omega
  unfold good
  rw [h]
  simp only [Res.bind'_ok, hp]
  rw [slice_ok (by omega) (by split <;> omega) (by split <;> omega)]
  congr 1
  apply List.ext_getElem?
  intro i
  rw [List.getElem?_drop, List.getElem?_take, List.getElem?_take, List.getElem?_drop]
  by_cases hps : p < s.length
  · rw [show (min (p : Int) s.length).toNat = p by omega]
    by_cases hc : (min (p : Int) s.length) + l > s.length
    · rw [if_pos hc]
      by_cases h1 : i < l.toNat
      · rw [if_pos h1]
        by_cases h2 : p + i < (s.length : Int).toNat
        · rw [if_pos h2]
        · rw [if_neg h2, List.getElem?_eq_none (by omega)]
      · rw [if_neg h1, if_neg (by omega)]
    · rw [if_neg hc]
      by_cases h1 : i < l.toNat
      · rw [if_pos h1, if_pos (by omega)]
      · rw [if_neg h1, if_neg (by omega)]
  · rw [List.getElem?_eq_none (l := s) (i := p + i) (by omega), List.getElem?_eq_none (l := s) (by omega)]
    simp

theorem substrLen_none (len : Int) : substrLen none len = .ok len := rfl
theorem substrLen_nat (n len : Nat) : substrLen (some (n : Int)) len = .ok (min (n : Int) len) := by
  simp only [substrLen]
  rw [if_neg (by omega)]
  split
  · congr 1; omega
  · congr 1; omega

theorem good_pos {α} (s : List α) {p q : Int} (h : substrPos p s.length = substrPos q s.length) (n : Option Int) :
    good s p n = good s q n := by unfold good; rw [h]

theorem good_isSubstr {α} (s : List α) : IsSubstr s (good s) := by
  constructor
  · intro p n
    refine ⟨_, good_ok s p _ (substrLen_nat n s.length), fun i => ?_⟩
    rw [List.getElem?_take, List.getElem?_drop]
    by_cases h : i < n
    · rw [if_pos h]
      split
      · rfl
      · rw [List.getElem?_eq_none (by omega)]
    · rw [if_neg h, if_neg (by omega)]
  · intro p
    rw [good_ok s p _ (substrLen_none _)]
    congr 1
    rw [List.take_of_length_le]
    simp
  · intro k n h1 h2
    apply good_pos
    unfold substrPos; repeat' split
    all_goals omega
  · intro n
    apply good_pos
    unfold substrPos; repeat' split
    all_goals omega
  · intro p n h
    apply good_pos
    unfold substrPos; repeat' split
    all_goals omega
  · intro p n h
    simp only [good, substrLen]
    rw [if_pos h]; rfl
  · intro k
    refine ⟨s.take k, s.drop k, ?_, ?_, List.take_append_drop k s⟩
    · rw [show (1 : Int) = ((0 : Nat) : Int) + 1 by omega, good_ok s 0 _ (substrLen_nat k s.length)]
      congr 1
      simp only [List.drop_zero]
      rcases Nat.le_total k s.length with h | h
      · rw [show (min (k : Int) s.length).toNat = k by omega]
      · rw [show (min (k : Int) s.length).toNat = s.length by omega, List.take_of_length_le (by omega),
          List.take_of_length_le h]
    · rw [good_ok s k _ (substrLen_none _)]
      congr 1
      rw [List.take_of_length_le]
      simp

/-- Two functions with the property agree. -/
theorem isSubstr_unique {α} {s : List α} {f g : Int → Option Int → Res (List α)} (hf : IsSubstr s f) (hg : IsSubstr s g)
    (p : Int) (n : Option Int) : f p n = g p n := by
  have pos : ∀ (p : Nat) (n : Option Int), f (p + 1) n = g (p + 1) n := by
    intro p n
    cases n with
    | none => rw [hf.rest, hg.rest]
    | some n =>
      by_cases h : n < 0
      · rw [hf.negative _ _ h, hg.negative _ _ h]
      · obtain ⟨m, rfl⟩ : ∃ m : Nat, n = m := ⟨n.toNat, by omega⟩
        obtain ⟨a, ha, ha'⟩ := hf.get p m
        obtain ⟨b, hb, hb'⟩ := hg.get p m
        rw [ha, hb]
        congr 1
        apply List.ext_getElem?
        intro i
        rw [ha', hb']
  have one : f 1 n = g 1 n := by simpa using pos 0 n
  rcases Int.lt_trichotomy p 0 with h | rfl | h
  · by_cases hb : p < -(s.length : Int)
    · rw [hf.before p n hb, hg.before p n hb, one]
    · have e1 := hf.fromEnd (-p) n (by omega) (by omega)
      have e2 := hg.fromEnd (-p) n (by omega) (by omega)
      rw [Int.neg_neg] at e1 e2
      rw [e1, e2, show (s.length : Int) - -p + 1 = (((s.length : Int) - -p).toNat : Int) + 1 by omega]
      exact pos _ n
  · rw [hf.zero, hg.zero, one]
  · rw [show p = ((p - 1).toNat : Int) + 1 by omega]
    exact pos _ n

/-- **C57** SUBSTR of BYTES is right. -/
theorem C57_bytes (b : List UInt8) : IsSubstr b (substrBytes b) := good_isSubstr b

theorem ascii_enc {c : Char} (h : c.toNat < 128) : String.utf8EncodeChar c = [UInt8.ofNat c.toNat] := by
  have h' : c.val.toNat < 128 := h
  simp only [String.utf8EncodeChar]
  rw [if_pos (by omega)]
  rfl

theorem utf8_ascii_length : ∀ {s : List Char}, (∀ c ∈ s, c.toNat < 128) → (utf8 s).length = s.length
  | [], _ => rfl
  | c :: s, h => by
    rw [utf8_cons, ascii_enc (h c List.mem_cons_self), List.length_append,
      utf8_ascii_length fun d hd => h d (List.mem_cons_of_mem _ hd)]
    simp; omega

theorem utf8_take_ascii {s : List Char} {k : Nat} (h : ∀ c ∈ s.take k, c.toNat < 128) :
    (utf8 s).take (s.take k).length = utf8 (s.take k) := by
  have e := utf8_ascii_length h
  have : utf8 s = utf8 (s.take k) ++ utf8 (s.drop k) := by rw [← utf8_append, List.take_append_drop]
  rw [this, List.take_append_of_le_length (by omega), List.take_of_length_le (by omega)]

theorem utf8_cut {s : List Char} {i j : Nat} (hij : i ≤ j) (hj : j ≤ s.length) (h : ∀ c ∈ s.take j, c.toNat < 128) :
    ((utf8 s).take j).drop i = utf8 ((s.take j).drop i) := by
  have e1 := utf8_take_ascii h
  rw [List.length_take, Nat.min_eq_left hj] at e1
  rw [e1]
  have hi : ∀ c ∈ (s.take j).take i, c.toNat < 128 := fun c hc => h c (List.mem_of_mem_take hc)
  have l1 := utf8_ascii_length hi
  rw [List.length_take, List.length_take, Nat.min_eq_left hj, Nat.min_eq_left hij] at l1
  have : utf8 (s.take j) = utf8 ((s.take j).take i) ++ utf8 ((s.take j).drop i) := by
    rw [← utf8_append, List.take_append_drop]
  rw [this, List.drop_left' l1]

theorem utf8_length_le (s : List Char) : s.length ≤ (utf8 s).length := by
  induction s with
  | nil => simp
  | cons c s ih =>
    obtain ⟨b, rest, e, _⟩ := enc_shape c
    rw [utf8_cons, e]; simp; omega

/-- **C57** SUBSTR of a STRING is right when the characters up to the end of the cut are ASCII (in
particular for every ASCII string). -/
theorem C57_string_partial (s : List Char) (p : Int) (n : Option Int)
    (h : ∀ l, substrLen n s.length = .ok l → ∀ c ∈ s.take (substrPos p s.length + l).toNat, c.toNat < 128) :
    ∃ f, IsSubstr s f ∧ substrStr s p n = (f p n).bind fun r => .ok (utf8 r) := by
  refine ⟨good s, good_isSubstr s, ?_⟩
  unfold substrStr substr good
  cases hl : substrLen n s.length with
  | err => rfl
  | panic => rfl
  | ok l =>
    have b1 := substrPos_bound p s.length
    have b2 := substrLen_bound hl
    have b3 := utf8_length_le s
    have h := h l hl
    simp only [Res.bind'_ok]
    rw [slice_ok (by omega) (by split <;> omega) (by split <;> omega),
      slice_ok (by omega) (by split <;> omega) (by split <;> omega)]
    simp only [Res.bind'_ok]
    congr 1
    apply utf8_cut
    · split <;> omega
    · split <;> omega
    · split
      · rename_i hc
        intro c hm
        apply h c
        have : s.take (s.length : Int).toNat = s := List.take_of_length_le (by omega)
        rw [this] at hm
        rw [List.take_of_length_le (by omega)]
        exact hm
      · exact h

/-- **C57** SUBSTR of a whole-ASCII string is right for all positions and lengths. -/
theorem C57_ascii_partial (s : List Char) (h : ∀ c ∈ s, c.toNat < 128) :
    ∃ f, IsSubstr s f ∧ ∀ p n, substrStr s p n = (f p n).bind fun r => .ok (utf8 r) := by
  refine ⟨good s, good_isSubstr s, fun p n => ?_⟩
  obtain ⟨f, hf, e⟩ := C57_string_partial s p n fun l _ c hc => h c (List.mem_of_mem_take hc)
  rw [e, isSubstr_unique hf (good_isSubstr s)]

theorem enc_long {c : Char} (h : 128 ≤ c.toNat) : 2 ≤ (String.utf8EncodeChar c).length := by
  have h' : 128 ≤ c.val.toNat := h
  simp only [String.utf8EncodeChar]
  rw [if_neg (by omega)]
  split
  · simp
  · split <;> simp

/-- **C57** a string starting with any character that is not ASCII is cut wrongly: SUBSTR(s, 1, 1) is a part
of its first character. -/
theorem C57_string_wrong (c : Char) (s : List Char) (h : 128 ≤ c.toNat) :
    ∀ f, IsSubstr (c :: s) f → substrStr (c :: s) 1 (some 1) ≠ (f 1 (some 1)).bind fun r => .ok (utf8 r) := by
  intro f hf e
  obtain ⟨r, hr, hg⟩ := hf.get 0 1
  have hr' : f 1 (some 1) = .ok r := by simpa using hr
  have hrc : r = [c] := by
    apply List.ext_getElem?
    intro i
    rw [hg]
    cases i with
    | zero => rfl
    | succ i => simp
  have hlen : substrLen (some 1) ((c :: s).length : Nat) = .ok 1 := by
    simp only [substrLen]
    rw [if_neg (by omega)]
    split
    · rename_i h1; simp at h1; omega
    · rfl
  have hpos : substrPos 1 ((c :: s).length : Nat) = 0 := by
    unfold substrPos; simp only [List.length_cons]; repeat' split
    all_goals omega
  have b3 := utf8_length_le (c :: s)
  rw [hr', hrc] at e
  unfold substrStr substr at e
  rw [hlen] at e
  simp only [Res.bind'_ok, hpos] at e
  rw [if_neg (by simp only [List.length_cons]; omega), slice_zero (by omega) (by simp only [List.length_cons] at *; omega)] at e
  simp only [Res.ok.injEq] at e
  have := congrArg List.length e
  have h2 := enc_long h
  rw [List.length_take, show utf8 [c] = String.utf8EncodeChar c by simp [utf8]] at this
  omega

theorem utf8_length_lt (s : List Char) (h : ∃ c ∈ s, 128 ≤ c.toNat) : s.length < (utf8 s).length := by
  induction s with
  | nil => simp at h
  | cons c s ih =>
    rw [utf8_cons, List.length_append, List.length_cons]
    by_cases hc : 128 ≤ c.toNat
    · have := enc_long hc
      have := utf8_length_le s
      omega
    · have h1 : ∃ c ∈ s, 128 ≤ c.toNat := by
        obtain ⟨d, hd, h2⟩ := h
        rcases List.mem_cons.1 hd with rfl | hd
        · exact absurd h2 hc
        · exact ⟨d, hd, h2⟩
      obtain ⟨b, rest, e, _⟩ := enc_shape c
      have := ih h1
      rw [e]; simp; omega

/-- **C57** exactly: SUBSTR of a STRING is right for all positions and lengths if and only if the string is ASCII.  Otherwise SUBSTR(s, 1) is
not s. -/
theorem C57_iff (s : List Char) :
    ((∃ f, IsSubstr s f ∧ ∀ p n, substrStr s p n = (f p n).bind fun r => .ok (utf8 r)) ↔ ∀ c ∈ s, c.toNat < 128) ∧
    ((∃ c ∈ s, 128 ≤ c.toNat) → substrStr s 1 none ≠ .ok (utf8 s)) := by
  have h2 : (∃ c ∈ s, 128 ≤ c.toNat) → substrStr s 1 none ≠ .ok (utf8 s) := by
    intro h e
    have hlt := utf8_length_lt s h
    have hpos : substrPos 1 (s.length : Nat) = 0 := by
      unfold substrPos
      have : s ≠ [] := by rintro rfl; simp at h
      have := List.length_pos_iff.2 this
      repeat' split
      all_goals omega
    unfold substrStr substr at e
    simp only [substrLen, Res.bind'_ok, hpos] at e
    rw [if_neg (by omega), slice_zero (by omega) (by omega)] at e
    simp only [Res.ok.injEq] at e
    have := congrArg List.length e
    rw [List.length_take] at this
    omega
  refine ⟨⟨?_, C57_ascii_partial s⟩, h2⟩
  rintro ⟨f, hf, e⟩ c hc
  false_or_by_contra
  rename_i hn
  have e1 := e 1 none
  have hr : f 1 none = .ok s := by simpa using hf.rest 0
  rw [hr, Res.bind'_ok] at e1
  exact h2 ⟨c, hc, by omega⟩ e1

example : substrStr ['a', 'é'] 1 none ≠ .ok (utf8 ['a', 'é']) := (C57_iff _).2 ⟨'é', by simp, by decide⟩

/-- SUBSTR('é', 1, 1) is half a character. -/
theorem C57_full_false : ¬ C57_full := by
  intro h
  obtain ⟨f, hf, e⟩ := h.2 ['é']
  exact C57_string_wrong 'é' [] (by decide) f hf (e 1 (some 1))

example : substrStr ['h','e','l','l','o'] (-3) (some 2) = .ok (utf8 ['l','l']) := by decide
example : ∀ c ∈ ['h','e','l','l','o'], c.toNat < 128 := by decide

/-! ### C58 -/

/-- Full C58 for STRING and BYTES: `sp` is the space. -/
def C58_full : Prop :=
  (∀ (s : List Char) (n : Int), 0 ≤ n →
    left (.str s) n = .ok (.str (s.take n.toNat)) ∧ right (.str s) n = .ok (.str (s.drop (s.length - n.toNat))) ∧
    repeatV (.str s) n = .ok (.str (List.replicate n.toNat s).flatten) ∧
    (∃ r, reverse (.str s) = .ok (.str r) ∧ reverse (.str r) = .ok (.str s))) ∧
  (∀ (s : List Char) (n : Int) (p : Option (List Char)), 0 ≤ n → p ≠ some [] →
    (∃ r, lpadStr s n p = .ok r ∧ r.length = n.toNat ∧ (s.length ≤ n.toNat → s <:+ r) ∧ (n.toNat ≤ s.length → r <+: s)) ∧
    (∃ r, rpadStr s n p = .ok r ∧ r.length = n.toNat ∧ (s.length ≤ n.toNat → s <+: r) ∧ (n.toNat ≤ s.length → r <+: s))) ∧
  (∀ (s : List UInt8) (n : Int) (p : Option (List UInt8)), 0 ≤ n → p ≠ some [] →
    (∃ r, lpadBytes s n p = .ok r ∧ r.length = n.toNat) ∧ (∃ r, rpadBytes s n p = .ok r ∧ r.length = n.toNat)) ∧
  (∀ (s : List Char) (n : Int), n < 0 → left (.str s) n = .err ∧ right (.str s) n = .err ∧ lpadStr s n none = .err ∧
    rpadStr s n none = .err ∧ repeatV (.str s) n = .err)

theorem leftL_ok {α} (s : List α) {n : Int} (h : 0 ≤ n) : leftL s n = .ok (s.take n.toNat) := by
  unfold leftL
  split
  · rw [List.take_of_length_le (by omega)]
  · exact slice_zero h (by omega)

theorem rightL_ok {α} (s : List α) {n : Int} (h : 0 ≤ n) : rightL s n = .ok (s.drop (s.length - n.toNat)) := by
  unfold rightL
  split
  · rw [show s.length - n.toNat = 0 by omega]; rfl
  · rw [slice_ok (by omega) (by omega) (by omega), show ((s.length : Int) - n).toNat = s.length - n.toNat by omega,
      List.take_of_length_le (by omega)]

/-- **C58** LEFT is the first n characters or bytes, RIGHT the last n; a negative n is an error. -/
theorem C58_left_right (s : List Char) (b : List UInt8) (n : Int) :
    (0 ≤ n → left (.str s) n = .ok (.str (s.take n.toNat)) ∧ left (.bytes b) n = .ok (.bytes (b.take n.toNat)) ∧
      right (.str s) n = .ok (.str (s.drop (s.length - n.toNat))) ∧
      right (.bytes b) n = .ok (.bytes (b.drop (b.length - n.toNat)))) ∧
    (n < 0 → left (.str s) n = .err ∧ left (.bytes b) n = .err ∧ right (.str s) n = .err ∧ right (.bytes b) n = .err) := by
  constructor
  · intro h
    simp [left, right, leftL_ok, rightL_ok, h, show ¬ n < 0 by omega]
  · intro h
    simp [left, right, h]

theorem repeatN_flatten {α} (s : List α) : ∀ n, repeatN s n = (List.replicate n s).flatten
  | 0 => rfl
  | n + 1 => by simp [repeatN, List.replicate_succ, repeatN_flatten s n]

/-- **C58** REPEAT is n copies; a negative n is a panic, not an error. -/
theorem C58_repeat_partial (s : List Char) (b : List UInt8) (n : Int) :
    (0 ≤ n → repeatV (.str s) n = .ok (.str (List.replicate n.toNat s).flatten) ∧
      repeatV (.bytes b) n = .ok (.bytes (List.replicate n.toNat b).flatten)) ∧
    (n < 0 → repeatV (.str s) n = .panic ∧ repeatV (.bytes b) n = .panic) := by
  constructor
  · intro h
    simp [repeatV, goRepeat, repeatN_flatten, show ¬ n < 0 by omega]
  · intro h
    simp [repeatV, goRepeat, h]

theorem swapEnds_reverse {α} : ∀ (n : Nat) (s : List α), s.length ≤ n → swapEnds n s = s.reverse
  | 0, s, h => by
    have : s = [] := List.eq_nil_of_length_eq_zero (by omega)
    subst this; rfl
  | n + 1, [], _ => rfl
  | n + 1, a :: rest, h => by
    unfold swapEnds
    simp only
    cases hr : rest.getLast? with
    | none =>
      have : rest = [] := by simpa using hr
      subst this; rfl
    | some z =>
      have hne : rest ≠ [] := by rintro rfl; simp at hr
      have e := List.dropLast_concat_getLast hne
      have hz : rest.getLast hne = z := by
        rw [List.getLast?_eq_some_getLast hne] at hr
        exact Option.some.inj hr
      rw [hz] at e
      simp only
      rw [swapEnds_reverse n rest.dropLast (by simp at h ⊢; omega), List.reverse_cons]
      conv => rhs; rw [← e]
      simp

theorem fromEnd_reverse {α} : ∀ s : List α, fromEnd s = s.reverse
  | [] => rfl
  | a :: s => by simp [fromEnd, fromEnd_reverse s]

/-- **C58** REVERSE reverses the characters or bytes, so doing it twice gives the value back. -/
theorem C58_reverse (s : List Char) (b : List UInt8) :
    reverse (.str s) = .ok (.str s.reverse) ∧ reverse (.bytes b) = .ok (.bytes b.reverse) ∧
    reverse (.str s.reverse) = .ok (.str s) ∧ reverse (.bytes b.reverse) = .ok (.bytes b) := by
  simp [reverse, swapEnds_reverse _ _ (Nat.le_refl _), fromEnd_reverse]
  rw [swapEnds_reverse _ _ (by simp), List.reverse_reverse]

theorem repeatN_length {α} (s : List α) (n : Nat) : (repeatN s n).length = n * s.length := by
  induction n with
  | zero => simp [repeatN]
  | succ n ih => simp [repeatN, ih, Nat.succ_mul]; omega

/-- The element at a position of a repeated list. -/
theorem repeatN_get {α} {s : List α} (hs : 0 < s.length) : ∀ (n i : Nat), i < n * s.length →
    (repeatN s n)[i]? = s[i % s.length]?
  | 0, i, h => by omega
  | n + 1, i, h => by
    rw [repeatN]
    by_cases hi : i < s.length
    · rw [List.getElem?_append_left hi, Nat.mod_eq_of_lt hi]
    · have h' : i - s.length < n * s.length := by rw [Nat.succ_mul] at h; omega
      rw [List.getElem?_append_right (by omega), repeatN_get hs n _ h']
      congr 1
      conv => rhs; rw [show i = i - s.length + s.length by omega, Nat.add_mod_right]

/-- The padding is `remain` long and repeats the pattern. -/
def Pads {α} (p : List α) (remain : Nat) (q : List α) : Prop := q.length = remain ∧ ∀ i : Nat, i < remain → q[i]? = p[i % p.length]?

theorem pad_enough {remain : Int} {m : Nat} (h0 : remain - m > 0) (hm : 0 < m) :
    0 ≤ (remain - m).tdiv m + 2 ∧ remain ≤ ((remain - m).tdiv m + 2) * m := by
  have h1 : 0 ≤ (remain - m).tdiv m := Int.tdiv_nonneg (by omega) (by omega)
  have h2 := Int.mul_tdiv_add_tmod (remain - m) m
  have h3 := Int.tmod_lt_of_pos (remain - m) (show (0 : Int) < m by omega)
  refine ⟨by omega, ?_⟩
  rw [Int.add_mul, Int.mul_comm ((remain - m).tdiv m)]
  omega

theorem pads_take {α} {p : List α} (hp : 0 < p.length) {remain : Int} (h0 : 0 < remain) :
    (repeated p remain).bind (fun q => slice q 0 remain) =
      .ok ((if remain - p.length > 0 then repeatN p ((remain - p.length).tdiv p.length + 2).toNat else p).take remain.toNat) := by
  unfold repeated
  by_cases h : remain - p.length > 0
  · rw [if_pos h, if_neg (by intro e; rw [e] at hp; simp at hp), if_pos h]
    obtain ⟨a, b⟩ := pad_enough h hp
    unfold goRepeat
    rw [if_neg (by omega)]
    simp only [Res.bind'_ok]
    rw [slice_zero (by omega)]
    rw [repeatN_length]
    have : ((((remain - p.length).tdiv p.length + 2).toNat * p.length : Nat) : Int) = ((remain - p.length).tdiv p.length + 2) * p.length := by
      rw [Int.natCast_mul, Int.toNat_of_nonneg a]
    rw [this]; exact b
  · rw [if_neg h, if_neg h]
    simp only [Res.bind'_ok]
    exact slice_zero (by omega) (by omega)

theorem pads_repeated {α} {p : List α} (hp : 0 < p.length) {remain : Int} (h0 : 0 < remain) :
    ∃ q, (repeated p remain).bind (fun q => slice q 0 remain) = .ok q ∧ Pads p remain.toNat q := by
  refine ⟨_, pads_take hp h0, ?_, ?_⟩
  · split
    · rename_i h
      obtain ⟨a, b⟩ := pad_enough h hp
      have : ((((remain - p.length).tdiv p.length + 2).toNat * p.length : Nat) : Int) = ((remain - p.length).tdiv p.length + 2) * p.length := by
        rw [Int.natCast_mul, Int.toNat_of_nonneg a]
      simp only [List.length_take, repeatN_length]
      omega
    · simp; omega
  · intro i hi
    rw [List.getElem?_take, if_pos hi]
    split
    · rename_i h
      obtain ⟨a, b⟩ := pad_enough h hp
      have : ((((remain - p.length).tdiv p.length + 2).toNat * p.length : Nat) : Int) = ((remain - p.length).tdiv p.length + 2) * p.length := by
        rw [Int.natCast_mul, Int.toNat_of_nonneg a]
      exact repeatN_get hp _ _ (by omega)
    · rw [Nat.mod_eq_of_lt (by omega)]

theorem padStr_ok {p : Option (List Char)} (hp : p ≠ some []) {remain : Int} (h0 : 0 < remain) :
    ∃ q, padStr remain p = .ok q ∧ Pads (p.getD [' ']) remain.toNat q := by
  cases p with
  | none =>
    refine ⟨List.replicate remain.toNat ' ', ?_, by simp, fun i hi => by simp [hi, Nat.mod_one]⟩
    have e : repeatN [' '] remain.toNat = List.replicate remain.toNat ' ' := by
      rw [repeatN_flatten]; induction remain.toNat with
      | zero => rfl
      | succ n ih => simp [List.replicate_succ, ih]
    unfold padStr goRepeat
    rw [if_neg (by omega)]
    simp only [Res.bind'_ok]
    rw [e, slice_zero (by omega) (by simp; omega), List.take_of_length_le (by simp)]
  | some p =>
    have : 0 < p.length := by
      cases p with
      | nil => exact absurd rfl hp
      | cons a p => simp
    exact pads_repeated this h0

/-- **C58** LPAD and RPAD of a STRING: exactly n characters; the string (or its first n characters) with the
pattern (or spaces) repeated in front of or behind it. -/
theorem C58_pad_string (s : List Char) (n : Int) (p : Option (List Char)) (hn : 0 ≤ n) (hp : p ≠ some []) :
    (n.toNat ≤ s.length → lpadStr s n p = .ok (s.take n.toNat) ∧ rpadStr s n p = .ok (s.take n.toNat)) ∧
    (s.length < n.toNat → ∃ q, Pads (p.getD [' ']) (n.toNat - s.length) q ∧
      lpadStr s n p = .ok (q ++ s) ∧ rpadStr s n p = .ok (s ++ q)) := by
  constructor
  · intro h
    unfold lpadStr rpadStr
    rw [if_pos (by omega), if_neg (by omega), if_pos (by omega), slice_zero hn (by omega)]
    exact ⟨rfl, rfl⟩
  · intro h
    obtain ⟨q, hq, hq'⟩ := padStr_ok hp (remain := n - s.length) (by omega)
    refine ⟨q, by rwa [show (n - (s.length : Int)).toNat = n.toNat - s.length by omega] at hq', ?_, ?_⟩
    · unfold lpadStr; rw [if_neg (by omega), hq]; rfl
    · unfold rpadStr; rw [if_neg (by omega), if_neg (by omega), hq]; rfl

/-- **C58** BYTES are padded right exactly when no pattern is given, the value is already long enough, or the
pattern is shorter than what is missing; otherwise LPAD and RPAD panic. -/
theorem C58_pad_bytes_partial (s : List UInt8) (n : Int) (p : List UInt8) (hn : 0 ≤ n) (hp : p ≠ []) :
    (n.toNat ≤ s.length → lpadBytes s n (some p) = .ok (s.take n.toNat) ∧ rpadBytes s n (some p) = .ok (s.take n.toNat)) ∧
    (s.length + p.length < n.toNat → ∃ q, Pads p (n.toNat - s.length) q ∧
      lpadBytes s n (some p) = .ok (q ++ s) ∧ rpadBytes s n (some p) = .ok (s ++ q)) ∧
    (s.length < n.toNat → n.toNat ≤ s.length + p.length →
      lpadBytes s n (some p) = .panic ∧ rpadBytes s n (some p) = .panic) := by
  have hpl : 0 < p.length := by
    cases p with
    | nil => exact absurd rfl hp
    | cons a p => simp
  refine ⟨fun h => ?_, fun h => ?_, fun h h' => ?_⟩
  · unfold lpadBytes rpadBytes
    rw [if_pos (by omega), if_neg (by omega), if_pos (by omega), slice_zero hn (by omega)]
    exact ⟨rfl, rfl⟩
  · obtain ⟨q, hq, hq'⟩ := pads_repeated hpl (remain := n - s.length) (by omega)
    have e : padBytes (n - s.length) (some p) = .ok q := by
      unfold padBytes
      unfold repeated at hq
      rw [if_pos (by omega), if_neg hp] at hq
      simp only
      rw [if_pos (by omega), if_neg hp]
      exact hq
    refine ⟨q, by rwa [show (n - (s.length : Int)).toNat = n.toNat - s.length by omega] at hq', ?_, ?_⟩
    · unfold lpadBytes; rw [if_neg (by omega), e]; rfl
    · unfold rpadBytes; rw [if_neg (by omega), if_neg (by omega), e]; rfl
  · have e : padBytes (n - s.length) (some p) = .panic := by
      unfold padBytes
      simp only
      rw [if_neg (by omega)]
      unfold slice
      rw [if_neg (by simp; omega)]
    unfold lpadBytes rpadBytes
    rw [if_neg (by omega), if_neg (by omega), if_neg (by omega), e]
    exact ⟨rfl, rfl⟩

/-- A negative length is a panic for LPAD and an error for RPAD; an empty pattern that is needed is a panic. -/
theorem C58_pad_negative (s : List Char) (n : Int) (p : Option (List Char)) :
    (n < 0 → lpadStr s n p = .panic ∧ rpadStr s n p = .err) ∧
    (s.length < n → lpadStr s n (some []) = .panic ∧ rpadStr s n (some []) = .panic) := by
  constructor
  · intro h
    unfold lpadStr rpadStr slice
    rw [if_pos (by omega), if_neg (by omega), if_pos h]
    exact ⟨rfl, rfl⟩
  · intro h
    have e : padStr (n - s.length) (some []) = .panic := by
      unfold padStr repeated
      simp only [List.length_nil]
      rw [if_pos (by omega)]; rfl
    unfold lpadStr rpadStr
    rw [if_neg (by omega), if_neg (by omega), if_neg (by omega), e]
    exact ⟨rfl, rfl⟩

theorem C58_full_false : ¬ C58_full := by
  intro h
  obtain ⟨⟨r, hr, _⟩, _⟩ := h.2.2.1 [97] 3 (some [120, 121]) (by decide) (by decide)
  rw [((C58_pad_bytes_partial [97] 3 [120, 121] (by decide) (by decide)).2.2 (by decide) (by decide)).1] at hr
  cases hr

example : lpadStr ['a','b','c'] 8 (some ['d','e','f']) = .ok ['d','e','f','d','e','a','b','c'] := by decide

end Verif.Strings
