import Verif.Model.Format
import Verif.Props.Cast

/-!
# FORMAT: C71, C72, C113, C114
-/

namespace Verif.Format

open Go Verif.Val Cast

/-! ### The loop -/

theorem run_fuel (ext : Param → List Val → Res (List Char)) : ∀ (n m : Nat) (s : List Char) (args : List Val), s.length ≤ n → s.length ≤ m →
    (∀ t d, directive t = .ok d → d.2.length < t.length) → run ext n s args = run ext m s args
  | 0, 0, _, _, _, _, _ => rfl
  | 0, m + 1, [], _, _, _, _ => rfl
  | n + 1, 0, [], _, _, _, _ => rfl
  | n + 1, m + 1, [], _, _, _, _ => rfl
  | 0, _, _ :: _, _, h, _, _ => by simp at h
  | _, 0, _ :: _, _, _, h, _ => by simp at h
  | n + 1, m + 1, c :: s, args, hn, hm, hd => by
    simp only [List.length_cons] at hn hm
    simp only [run]
    split
    · cases e : directive s with
      | err => rfl
      | panic => rfl
      | ok d =>
        have := hd s d e
        simp only [Res.bind'_ok]
        rw [run_fuel ext n m d.2 (args.drop (required d.1)) (by omega) (by omega) hd]
    · rw [run_fuel ext n m s args (by omega) (by omega) hd]

theorem parseFlag_length (s : List Char) : (parseFlag s).2.length ≤ s.length := by
  cases s with
  | nil => exact Nat.le_refl _
  | cons c s =>
    simp only [parseFlag]
    repeat' split
    all_goals simp

theorem dropWhile_length {α} (p : α → Bool) : ∀ l : List α, (l.dropWhile p).length ≤ l.length
  | [] => Nat.le_refl _
  | a :: l => by
    rw [List.dropWhile_cons]
    split
    · have := dropWhile_length p l; simp only [List.length_cons]; omega
    · exact Nat.le_refl _

theorem bind_ok {α β} {r : Res α} {f : α → Res β} {b : β} (h : r.bind f = .ok b) : ∃ a, r = .ok a ∧ f a = .ok b := by
  cases r with
  | ok a => exact ⟨a, rfl, h⟩
  | err => cases h
  | panic => cases h

theorem parseWidth_length {s : List Char} {r : Amount × List Char} (h : parseWidth s = .ok r) : r.2.length ≤ s.length := by
  have hl := dropWhile_length digit s
  unfold parseWidth at h
  cases e : s.dropWhile digit with
  | nil =>
    rw [e] at h
    obtain ⟨a, _, h⟩ := bind_ok h
    cases h
    simp
  | cons c t =>
    rw [e] at h hl
    simp only [List.length_cons] at hl
    simp only at h
    split at h
    · cases h; simp only; omega
    · obtain ⟨a, _, h⟩ := bind_ok h
      cases h
      simpa using hl

theorem parsePrecision_length {s : List Char} {r : Amount × List Char} (h : parsePrecision s = .ok r) : r.2.length ≤ s.length := by
  cases s with
  | nil => cases h; exact Nat.le_refl _
  | cons c s =>
    have hl := dropWhile_length digit s
    unfold parsePrecision at h
    simp only at h
    split at h
    · cases h; exact Nat.le_refl _
    · cases e : s.dropWhile digit with
      | nil =>
        rw [e] at h
        obtain ⟨a, _, h⟩ := bind_ok h
        cases h
        simp
      | cons c t =>
        rw [e] at h hl
        simp only [List.length_cons] at hl
        simp only at h
        split at h
        · cases h; simp only [List.length_cons]; omega
        · obtain ⟨a, _, h⟩ := bind_ok h
          cases h
          simp only [List.length_cons]; omega

theorem directive_length (t : List Char) (d : Param × List Char) (h : directive t = .ok d) : d.2.length < t.length := by
  unfold directive at h
  split at h
  · cases h
  · obtain ⟨w, hw, h⟩ := bind_ok h
    obtain ⟨p, hp, h⟩ := bind_ok h
    have h1 := parseFlag_length t
    have h2 := parseWidth_length hw
    have h3 := parsePrecision_length hp
    cases e : p.2 with
    | nil => rw [e] at h; cases h
    | cons c r =>
      rw [e] at h h3
      simp only [List.length_cons] at h3
      simp only at h
      split at h
      · cases h; simp only; omega
      · cases h

theorem run_enough (ext : Param → List Val → Res (List Char)) {n : Nat} {s : List Char} (args : List Val) (h : s.length ≤ n) :
    run ext n s args = format ext s args :=
  run_fuel ext n s.length s args h (Nat.le_refl _) directive_length

theorem format_lit (ext : Param → List Val → Res (List Char)) (c : Char) (s : List Char) (args : List Val) (h : c ≠ '%') :
    format ext (c :: s) args = (format ext s args).bind fun rest => .ok (c :: rest) := by
  have e : format ext (c :: s) args = run ext (s.length + 1) (c :: s) args := rfl
  rw [e]
  simp only [run, if_neg h]
  rfl

theorem format_dir (ext : Param → List Val → Res (List Char)) (s : List Char) (args : List Val) {d : Param × List Char} (h : directive s = .ok d) :
    format ext ('%' :: s) args =
      if args.length < required d.1 then .err
      else (validate d.1 (args.take (required d.1))).bind fun _ => (convert ext d.1 (args.take (required d.1))).bind fun text =>
        (format ext d.2 (args.drop (required d.1))).bind fun rest => .ok (text ++ rest) := by
  have e : format ext ('%' :: s) args = run ext (s.length + 1) ('%' :: s) args := rfl
  rw [e]
  simp only [run, if_true, h, Res.bind'_ok]
  rw [run_enough ext _ (by have := directive_length s d h; omega)]

/-! ### C71 -/

/-- A flag character or none. -/
def flagText : Flag → List Char
  | .none => []
  | .minus => ['-']
  | .plus => ['+']
  | .space => [' ']
  | .sharp => ['#']
  | .zero => ['0']
  | .quote => ['\'']

/-- The parts of a format: a character other than the percent sign, or a directive `%`, a flag, a width, a precision and a
conversion character.  Widths and precisions are numbers or `*`. -/
inductive Piece where
  | lit (c : Char)
  | dir (flag : Flag) (width precision : Amount) (spec : Char)

/-- The text of a width. -/
def amountText : Amount → List Char
  | .absent => []
  | .num n => decNat n
  | .arg => ['*']

/-- The text of a part. -/
def Piece.text : Piece → List Char
  | .lit c => [c]
  | .dir f w p s => '%' :: (flagText f ++ (amountText w ++ ((if p = .absent then [] else '.' :: amountText p) ++ [s])))

/-- The documented conversion characters. -/
def Piece.Valid : Piece → Prop
  | .lit c => c ≠ '%'
  | .dir f w p s => s ∈ ['d', 'i', 'o', 'x', 'X', 'f', 'F', 'e', 'E', 'g', 'G', 'p', 'P', 's', 't', 'T', '%'] ∧
      (∀ n, w = .num n → n ≤ 1000000 ∧ (f = .none → n ≠ 0)) ∧ (∀ n, p = .num n → n ≤ 1000000)

/-- The number of arguments a part takes: one, and one for each `*`. -/
def Piece.takes : Piece → Nat
  | .lit _ => 0
  | .dir _ w p s => if s = '%' then 0 else 1 + (if w = .arg then 1 else 0) + (if p = .arg then 1 else 0)

/-- The values a conversion character is for. -/
def Suits (s : Char) (v : Val) : Prop :=
  (s ∈ ['d', 'i'] ∧ ∃ i, v = .int i) ∨ (s ∈ ['o', 'x', 'X'] ∧ ∃ i, v = .int i ∧ 0 ≤ i) ∨
  (s ∈ ['f', 'F', 'e', 'E', 'g', 'G'] ∧ ∃ r big, v = .num r big) ∨ (s = 's' ∧ ∃ t, v = .str t)

/-- C71: FORMAT works part by part.  A part of the format takes its own arguments; literal characters are copied, `%%` is a
percent sign; a directive with arguments of the right types succeeds; too few or too many arguments are an error. -/
def C71_full : Prop := ∀ ext : Param → List Val → Res (List Char), (∀ p args, ∃ s, ext p args = .ok s) →
  (∀ (p : Piece) (f : List Char) (as bs : List Val), p.Valid → as.length = p.takes →
    format ext (p.text ++ f) (as ++ bs) = (format ext p.text as).bind fun x => (format ext f bs).bind fun y => .ok (x ++ y)) ∧
  (∀ c, c ≠ '%' → format ext [c] [] = .ok [c]) ∧ format ext ['%', '%'] [] = .ok ['%'] ∧
  (∀ (w p : Amount) (s : Char) (stars : List Val) (v : Val), (Piece.dir .none w p s).Valid → (∀ u ∈ stars, ∃ i, u = .int i) →
    stars.length + 1 = (Piece.dir .none w p s).takes → Suits s v → ∃ t, format ext (Piece.dir .none w p s).text (stars ++ [v]) = .ok t) ∧
  (∀ (p : Piece) (as : List Val), p.Valid → as.length < p.takes → format ext p.text as = .err) ∧
  (∀ (p : Piece) (as : List Val), p.Valid → p.takes < as.length → format ext p.text as = .err)

theorem digit_decNat (n : Nat) : ∀ c ∈ decNat n, digit c = true := by
  intro c hc
  unfold digit
  rw [decide_eq_true_iff]
  exact decNat_digits n c hc

theorem takeDrop {p : Char → Bool} {a b : List Char} (ha : ∀ x ∈ a, p x = true) (hb : ∀ x, b.head? = some x → p x = false) :
    (a ++ b).takeWhile p = a ∧ (a ++ b).dropWhile p = b := by
  induction a with
  | nil =>
    cases b with
    | nil => simp
    | cons x b => have := hb x rfl; simp [this]
  | cons y a ih =>
    have h1 := ha y (by simp)
    have h2 := ih fun x hx => ha x (by simp [hx])
    simp [h1, h2.1, h2.2]

theorem number_decNat {n : Nat} (h : n ≤ 1000000) : number (decNat n) = .ok (.num n) := by
  unfold number
  rw [if_neg (decNat_ne_nil n), parseNat_decNat]
  simp only
  rw [if_pos]
  unfold InI64
  omega

theorem parseWidth_text (a : Amount) (c : Char) (r : List Char) (hc : digit c = false) (h : c ≠ '*') (hn : ∀ n, a = .num n → n ≤ 1000000) :
    parseWidth (amountText a ++ c :: r) = .ok (a, c :: r) := by
  have hb : ∀ x, (c :: r).head? = some x → digit x = false := by intro x hx; cases hx; exact hc
  unfold parseWidth
  cases a with
  | absent =>
    obtain ⟨h1, h2⟩ := takeDrop (a := []) (b := c :: r) (by simp) hb
    simp only [amountText, h1, h2, if_neg h]
    rfl
  | num n =>
    obtain ⟨h1, h2⟩ := takeDrop (b := c :: r) (digit_decNat n) hb
    simp only [amountText, h1, h2, if_neg h, number_decNat (hn n rfl)]
    rfl
  | arg =>
    have e : amountText .arg ++ c :: r = '*' :: c :: r := rfl
    have e2 : List.dropWhile digit ('*' :: c :: r) = '*' :: c :: r := by rw [List.dropWhile_cons, if_neg (by decide)]
    rw [e, e2]
    simp only [if_true]

/-- The conversion characters are not digits, flags, `*` or `.`. -/
theorem spec_plain {s : Char} (h : s ∈ table) : digit s = false ∧ s ≠ '*' ∧ s ≠ '.' ∧ s ≠ '-' ∧ s ≠ '+' ∧ s ≠ ' ' ∧ s ≠ '#' ∧ s ≠ '0' ∧ s ≠ '\'' := by
  revert s
  decide

theorem parseFlag_text (f : Flag) (s : List Char) (h : f = .none → ∀ c, s.head? = some c → c ≠ '-' ∧ c ≠ '+' ∧ c ≠ ' ' ∧ c ≠ '#' ∧ c ≠ '0' ∧ c ≠ '\'') :
    parseFlag (flagText f ++ s) = (f, s) := by
  cases f with
  | none =>
    cases s with
    | nil => rfl
    | cons c s =>
      obtain ⟨h1, h2, h3, h4, h5, h6⟩ := h rfl c rfl
      show parseFlag (c :: s) = _
      simp [parseFlag, h1, h2, h3, h4, h5, h6]
  | minus => rfl
  | plus => rfl
  | space => rfl
  | sharp => rfl
  | zero => rfl
  | quote => rfl

/-- The text of an amount and what follows do not start like a flag. -/
theorem amount_head (w : Amount) (r : List Char) (hw : ∀ n, w = .num n → n ≠ 0)
    (hr : ∀ c, r.head? = some c → c ≠ '-' ∧ c ≠ '+' ∧ c ≠ ' ' ∧ c ≠ '#' ∧ c ≠ '0' ∧ c ≠ '\'') :
    ∀ c, (amountText w ++ r).head? = some c → c ≠ '-' ∧ c ≠ '+' ∧ c ≠ ' ' ∧ c ≠ '#' ∧ c ≠ '0' ∧ c ≠ '\'' := by
  cases w with
  | absent => exact hr
  | arg => intro c hc; cases hc; decide
  | num n =>
    intro c hc
    have hn := hw n rfl
    cases e : decNat n with
    | nil => exact absurd e (decNat_ne_nil n)
    | cons d ds =>
      simp only [amountText, e, List.cons_append, List.head?_cons, Option.some.injEq] at hc
      subst hc
      have hd := decNat_digits n d (by rw [e]; simp)
      refine ⟨?_, ?_, ?_, ?_, ?_, ?_⟩
      all_goals try (rintro rfl; revert hd; decide)
      rintro rfl
      have h0 := decNat_head0 n (by rw [e]; rfl)
      have h1 := parseNat_decNat n
      rw [h0] at h1
      have : some 0 = some n := h1
      cases this
      exact hn rfl

theorem directive_text (f : Flag) (w p : Amount) (s : Char) (rest : List Char) (hv : (Piece.dir f w p s).Valid) (hp : p ≠ .arg) :
    directive (flagText f ++ (amountText w ++ ((if p = .absent then [] else '.' :: amountText p) ++ s :: rest))) =
      .ok ({ flag := f, width := w, precision := p, spec := s }, rest) := by
  obtain ⟨hs, hw, hpn⟩ := hv
  have hs : s ∈ table := hs
  obtain ⟨g1, g2, g3, g4, g5, g6, g7, g8, g9⟩ := spec_plain hs
  have htail : ∃ c r, (if p = .absent then [] else '.' :: amountText p) ++ s :: rest = c :: r ∧ digit c = false ∧ c ≠ '*' ∧
      c ≠ '-' ∧ c ≠ '+' ∧ c ≠ ' ' ∧ c ≠ '#' ∧ c ≠ '0' ∧ c ≠ '\'' := by
    by_cases h : p = .absent
    · rw [if_pos h]; exact ⟨s, rest, rfl, g1, g2, g4, g5, g6, g7, g8, g9⟩
    · rw [if_neg h]; exact ⟨'.', _, rfl, by decide, by decide, by decide, by decide, by decide, by decide, by decide, by decide⟩
  obtain ⟨c, r, hc, c1, c2, c3⟩ := htail
  have hprec : parsePrecision (c :: r) = .ok (p, s :: rest) := by
    rw [← hc]
    cases p with
    | absent => simp [parsePrecision, g3]
    | arg => exact absurd rfl hp
    | num n =>
      have e : (if Amount.num n = .absent then [] else '.' :: amountText (.num n)) ++ s :: rest = '.' :: (decNat n ++ s :: rest) := by
        rw [if_neg (by simp)]; rfl
      rw [e]
      have hb : ∀ x, (s :: rest).head? = some x → digit x = false := by intro x hx; cases hx; exact g1
      obtain ⟨h1, h2⟩ := takeDrop (b := s :: rest) (digit_decNat n) hb
      simp only [parsePrecision, ne_eq, not_true_eq_false, if_false, h1, h2, if_neg g2, number_decNat (hpn n rfl)]
      rfl
  rw [hc]
  have hfl := parseFlag_text f (amountText w ++ c :: r) fun hf =>
    amount_head w (c :: r) (fun n hn => (hw n hn).2 hf) (by intro x hx; cases hx; exact c3)
  unfold directive
  rw [if_neg (by simp), hfl]
  simp only
  rw [parseWidth_text w c r c1 c2 fun n hn => (hw n hn).1]
  simp only [Res.bind'_ok, hprec]
  rw [if_pos hs]

/-- A precision `*` is always an error. -/
theorem directive_star (f : Flag) (w : Amount) (s : Char) (rest : List Char) (hv : (Piece.dir f w .arg s).Valid) :
    directive (flagText f ++ (amountText w ++ ('.' :: '*' :: s :: rest))) = .err := by
  obtain ⟨hs, hw, hpn⟩ := hv
  have hfl := parseFlag_text f (amountText w ++ '.' :: '*' :: s :: rest) fun hf =>
    amount_head w _ (fun n hn => (hw n hn).2 hf) (by intro x hx; cases hx; decide)
  unfold directive
  rw [if_neg (by simp), hfl]
  simp only
  rw [parseWidth_text w '.' _ (by decide) (by decide) fun n hn => (hw n hn).1]
  have e2 : List.dropWhile digit ('*' :: s :: rest) = '*' :: s :: rest := by rw [List.dropWhile_cons, if_neg (by decide)]
  simp only [Res.bind'_ok, parsePrecision, ne_eq, not_true_eq_false, if_false, e2, if_true]
  rw [if_neg (by decide)]

theorem format_star (ext : Param → List Val → Res (List Char)) (f : Flag) (w : Amount) (s : Char) (rest : List Char) (args : List Val) (hv : (Piece.dir f w .arg s).Valid) :
    format ext ((Piece.dir f w .arg s).text ++ rest) args = .err := by
  have e : (Piece.dir f w .arg s).text ++ rest = '%' :: (flagText f ++ (amountText w ++ ('.' :: '*' :: s :: rest))) := by
    simp [Piece.text, amountText]
  have e2 : format ext ('%' :: (flagText f ++ (amountText w ++ ('.' :: '*' :: s :: rest)))) args =
    run ext ((flagText f ++ (amountText w ++ ('.' :: '*' :: s :: rest))).length + 1) ('%' :: (flagText f ++ (amountText w ++ ('.' :: '*' :: s :: rest)))) args := rfl
  rw [e, e2]
  simp only [run, if_true, directive_star f w s rest hv]
  rfl

theorem piece_text (f : Flag) (w p : Amount) (s : Char) (rest : List Char) :
    (Piece.dir f w p s).text ++ rest = '%' :: (flagText f ++ (amountText w ++ ((if p = .absent then [] else '.' :: amountText p) ++ s :: rest))) := by
  simp [Piece.text]

theorem required_takes (f : Flag) (w p : Amount) (s : Char) : required { flag := f, width := w, precision := p, spec := s } = (Piece.dir f w p s).takes := rfl

theorem format_nil (ext : Param → List Val → Res (List Char)) (args : List Val) : format ext [] args = .ok [] := rfl

theorem bind_assoc' {α β γ} (r : Res α) (f : α → Res β) (g : β → Res γ) : (r.bind f).bind g = r.bind fun a => (f a).bind g := by
  cases r <;> rfl

/-- FORMAT works part by part. -/
theorem C71_parts (ext : Param → List Val → Res (List Char)) (p : Piece) (f : List Char) (as bs : List Val) (hv : p.Valid) (hl : as.length = p.takes) :
    format ext (p.text ++ f) (as ++ bs) = (format ext p.text as).bind fun x => (format ext f bs).bind fun y => .ok (x ++ y) := by
  cases p with
  | lit c =>
    have ha : as = [] := List.eq_nil_of_length_eq_zero hl
    subst ha
    have h1 : format ext [c] [] = .ok [c] := by rw [format_lit ext c [] [] hv]; rfl
    show format ext (c :: f) bs = (format ext [c] []).bind _
    rw [format_lit ext c f bs hv, h1]
    rfl
  | dir fl w p s =>
    by_cases hp : p = .arg
    · subst hp
      have h1 := format_star ext fl w s f (as ++ bs) hv
      have h2 := format_star ext fl w s [] as hv
      rw [List.append_nil] at h2
      rw [h1, h2]
      rfl
    · have d1 := directive_text fl w p s f hv hp
      have d2 := directive_text fl w p s [] hv hp
      have e2 := piece_text fl w p s []
      rw [List.append_nil] at e2
      rw [piece_text, e2, format_dir ext _ _ d1, format_dir ext _ _ d2]
      simp only [required_takes, ← hl]
      rw [if_neg (by simp), if_neg (by omega)]
      have t1 : (as ++ bs).take as.length = as := by simp
      have t2 : (as ++ bs).drop as.length = bs := by simp
      have t3 : as.take as.length = as := List.take_length
      rw [t1, t2, t3, List.drop_length]
      simp only [bind_assoc', format_nil, Res.bind'_ok, List.append_nil]

/-- Too few arguments are an error. -/
theorem C71_few (ext : Param → List Val → Res (List Char)) (p : Piece) (as : List Val) (hv : p.Valid) (hl : as.length < p.takes) : format ext p.text as = .err := by
  cases p with
  | lit c => simp [Piece.takes] at hl
  | dir fl w p s =>
    have e2 := piece_text fl w p s []
    rw [List.append_nil] at e2
    by_cases hp : p = .arg
    · subst hp
      have h2 := format_star ext fl w s [] as hv
      rwa [List.append_nil] at h2
    · rw [e2, format_dir ext _ _ (directive_text fl w p s [] hv hp)]
      exact if_pos hl

theorem fits_suits {s : Char} {v : Val} (h : Suits s v) : fits s v = .ok () := by
  unfold Suits at h
  rcases h with ⟨hs, i, rfl⟩ | ⟨hs, i, rfl, hi⟩ | ⟨hs, r, big, rfl⟩ | ⟨rfl, t, rfl⟩
  · simp only [List.mem_cons, List.not_mem_nil, or_false] at hs
    rcases hs with rfl | rfl <;> rfl
  · simp only [List.mem_cons, List.not_mem_nil, or_false] at hs
    have : ¬ i < 0 := by omega
    rcases hs with rfl | rfl | rfl <;> simp [fits, this]
  · simp only [List.mem_cons, List.not_mem_nil, or_false] at hs
    rcases hs with rfl | rfl | rfl | rfl | rfl | rfl <;> rfl
  · rfl

theorem suits_ne {s : Char} {v : Val} (h : Suits s v) : s ≠ '%' := by
  rintro rfl
  unfold Suits at h
  simp at h

/-- A directive without flag and without `.*` succeeds. -/
theorem C71_typed (ext : Param → List Val → Res (List Char)) (hx : ∀ p args, ∃ s, ext p args = .ok s) (w p : Amount) (s : Char) (stars : List Val) (v : Val)
    (hv : (Piece.dir .none w p s).Valid) (hst : ∀ u ∈ stars, ∃ i, u = .int i) (hl : stars.length + 1 = (Piece.dir .none w p s).takes) (hs : Suits s v)
    (hp : p ≠ .arg) : ∃ t, format ext (Piece.dir .none w p s).text (stars ++ [v]) = .ok t := by
  have e2 := piece_text .none w p s []
  rw [List.append_nil] at e2
  have hne := suits_ne hs
  have hreq : required { flag := .none, width := w, precision := p, spec := s } = (stars ++ [v]).length := by
    rw [required_takes, ← hl]; simp
  rw [e2, format_dir ext _ _ (directive_text .none w p s [] hv hp)]
  simp only [hreq]
  rw [if_neg (by omega), List.take_length, List.drop_length]
  have hstars : stars.length = (if w = .arg then 1 else 0) + (if p = .arg then 1 else 0) := by
    simp only [Piece.takes, if_neg hne] at hl
    omega
  have hval : validate { flag := .none, width := w, precision := p, spec := s } (stars ++ [v]) = .ok () := by
    unfold validate
    rw [if_neg hne]
    simp only [← hstars]
    rw [List.take_left, List.drop_left, if_pos]
    · exact fits_suits hs
    · rw [List.all_eq_true]
      intro u hu
      obtain ⟨i, rfl⟩ := hst u hu
      rfl
  rw [hval, Res.bind'_ok]
  have hint : ∀ i, v = .int i → ∃ t, integer { flag := .none, width := w, precision := p, spec := s } (stars ++ [v]) = .ok t := by
    rintro i rfl
    have hr : ∃ n, widthOf w (stars ++ [.int i]) = (n, [.int i]) := by
      rw [if_neg hp, Nat.add_zero] at hstars
      cases w with
      | absent =>
        have : stars = [] := List.eq_nil_of_length_eq_zero hstars
        subst this
        exact ⟨0, rfl⟩
      | num n =>
        have : stars = [] := List.eq_nil_of_length_eq_zero hstars
        subst this
        exact ⟨n, rfl⟩
      | arg =>
        match stars, hstars, hst with
        | [u], _, hst =>
          obtain ⟨j, rfl⟩ := hst u (by simp)
          exact ⟨j.toNat, rfl⟩
    obtain ⟨n, hr⟩ := hr
    unfold integer
    simp only [hr]
    exact ⟨_, rfl⟩
  have hconv : ∃ t, convert ext { flag := .none, width := w, precision := p, spec := s } (stars ++ [v]) = .ok t := by
    unfold Suits at hs
    rcases hs with ⟨hs, i, hi⟩ | ⟨hs, i, hi, _⟩ | ⟨hs, r, big, rfl⟩ | ⟨rfl, t, rfl⟩
    · obtain ⟨t, ht⟩ := hint i hi
      refine ⟨t, ?_⟩
      simp only [List.mem_cons, List.not_mem_nil, or_false] at hs
      rcases hs with rfl | rfl <;> simpa [convert] using ht
    · obtain ⟨t, ht⟩ := hint i hi
      refine ⟨t, ?_⟩
      simp only [List.mem_cons, List.not_mem_nil, or_false] at hs
      rcases hs with rfl | rfl | rfl <;> simpa [convert] using ht
    · obtain ⟨t, ht⟩ := hx { flag := .none, width := w, precision := p, spec := s } (stars ++ [.num r big])
      refine ⟨t, ?_⟩
      simp only [List.mem_cons, List.not_mem_nil, or_false] at hs
      rcases hs with rfl | rfl | rfl | rfl | rfl | rfl <;> simpa [convert] using ht
    · match stars, hst with
      | [], _ => exact ⟨t, rfl⟩
      | u :: us, hst =>
        obtain ⟨j, rfl⟩ := hst u (by simp)
        exact ⟨decInt j, rfl⟩
  obtain ⟨t, ht⟩ := hconv
  exact ⟨t, by simp [ht, format_nil]⟩

/-- C71, partial.  Missing: `%.*f` is always an error, and too many arguments are ignored. -/
theorem C71_partial (ext : Param → List Val → Res (List Char)) (hx : ∀ p args, ∃ s, ext p args = .ok s) :
    (∀ (p : Piece) (f : List Char) (as bs : List Val), p.Valid → as.length = p.takes →
      format ext (p.text ++ f) (as ++ bs) = (format ext p.text as).bind fun x => (format ext f bs).bind fun y => .ok (x ++ y)) ∧
    (∀ c, c ≠ '%' → format ext [c] [] = .ok [c]) ∧ format ext ['%', '%'] [] = .ok ['%'] ∧
    (∀ (w p : Amount) (s : Char) (stars : List Val) (v : Val), (Piece.dir .none w p s).Valid → (∀ u ∈ stars, ∃ i, u = .int i) →
      stars.length + 1 = (Piece.dir .none w p s).takes → Suits s v → p ≠ .arg → ∃ t, format ext (Piece.dir .none w p s).text (stars ++ [v]) = .ok t) ∧
    (∀ (p : Piece) (as : List Val), p.Valid → as.length < p.takes → format ext p.text as = .err) :=
  ⟨C71_parts ext, fun c hc => by rw [format_lit ext c [] [] hc]; rfl, rfl, C71_typed ext hx, C71_few ext⟩

/-- FORMAT("%.*f", 2, NUMERIC "1.5") -/
theorem C71_full_false : ¬ C71_full := by
  intro h
  have hv : (Piece.dir .none .absent .arg 'f').Valid := ⟨by decide, by simp, by simp⟩
  obtain ⟨t, ht⟩ := (h (fun _ _ => .ok []) (fun _ _ => ⟨_, rfl⟩)).2.2.2.1 .absent .arg 'f' [.int 2] (.num (mkRat 3 2) false) hv (by simp) rfl
    (.inr (.inr (.inl ⟨by decide, _, _, rfl⟩)))
  have := format_star (fun _ _ => .ok []) .none .absent 'f' [] ([.int 2] ++ [.num (mkRat 3 2) false]) hv
  rw [List.append_nil, ht] at this
  cases this

/-- FORMAT("%d", 1, 2) is 1. -/
theorem C71_many_false : ¬ ∀ (ext : Param → List Val → Res (List Char)) (p : Piece) (as : List Val), p.Valid → p.takes < as.length → format ext p.text as = .err := by
  intro h
  have := h (fun _ _ => .ok []) (.dir .none .absent .absent 'd') [.int 1, .int 2] ⟨by decide, by simp, by simp⟩ (by decide)
  have e : format (fun _ _ => .ok []) (Piece.dir .none .absent .absent 'd').text [.int 1, .int 2] = .ok ['1'] := rfl
  rw [e] at this
  cases this

example : (Piece.dir .none (.num 5) .absent 'd').Valid ∧ Suits 'd' (.int 7) ∧ (Piece.dir .none .arg .absent 'd').takes = 2 :=
  ⟨⟨by decide, by simp, by simp⟩, .inl ⟨by decide, _, rfl⟩, rfl⟩

/-! ### C72: thousands separators -/

/-- Three digits. -/
def three (n : Nat) : List Char := [digitChar (n / 100 % 10), digitChar (n / 10 % 10), digitChar (n % 10)]

/-- Digits in groups of three from the right, with commas. -/
def grouped (n : Nat) : List Char := if n < 1000 then decNat n else grouped (n / 1000) ++ ',' :: three n
termination_by n
decreasing_by omega

/-- C72: FORMAT("%'d", n) is the sign and the digits in groups of three. -/
def C72_full : Prop := ∀ (ext : Param → List Val → Res (List Char)) (v : Int),
  format ext ['%', '\'', 'd'] [.int v] = .ok ((if v < 0 then ['-'] else []) ++ grouped v.natAbs)

theorem format_quote (ext : Param → List Val → Res (List Char)) (v : Int) : format ext ['%', '\'', 'd'] [.int v] = .ok (commas 0 (decInt v).reverse).reverse := by
  have e : format ext ['%', '\'', 'd'] [.int v] = .ok ((commas 0 (decInt v).reverse).reverse ++ []) := rfl
  rw [e, List.append_nil]

theorem commas_mod (cs : List Char) : ∀ a b : Nat, a % 3 = b % 3 → commas a cs = commas b cs := by
  induction cs with
  | nil => intros; rfl
  | cons c cs ih =>
    intro a b h
    cases cs with
    | nil => rfl
    | cons d ds =>
      have h1 : (a + 1) % 3 = (b + 1) % 3 := by omega
      simp only [commas, h1, ih (a + 1) (b + 1) h1]

theorem commas_snoc (c : Char) : ∀ (cs : List Char) (k : Nat), cs ≠ [] → commas k (cs ++ [c]) = commas k cs ++ (if (k + cs.length) % 3 = 0 then [',', c] else [c])
  | [d], k, _ => by
    simp only [List.cons_append, List.nil_append, commas, List.length_cons, List.length_nil]
    split <;> simp_all
  | d :: e :: es, k, _ => by
    have ih := commas_snoc c (e :: es) (k + 1) (by simp)
    have hk : k + (d :: e :: es).length = k + 1 + (e :: es).length := by simp only [List.length_cons]; omega
    rw [hk]
    have e1 : (d :: e :: es) ++ [c] = d :: ((e :: es) ++ [c]) := rfl
    have e2 : ∀ l : List Char, l ≠ [] → commas k (d :: l) = if (k + 1) % 3 = 0 then d :: ',' :: commas (k + 1) l else d :: commas (k + 1) l := by
      intro l hl
      cases l with
      | nil => exact absurd rfl hl
      | cons x l => rfl
    rw [e1, e2 _ (by simp), e2 (e :: es) (by simp), ih]
    split <;> simp

theorem decNat_thousand (n : Nat) (h : 1000 ≤ n) : decNat n = decNat (n / 1000) ++ three n := by
  have h1 := decNat_eq n
  rw [if_neg (by omega)] at h1
  have h2 := decNat_eq (n / 10)
  rw [if_neg (by omega)] at h2
  have h3 := decNat_eq (n / 10 / 10)
  rw [if_neg (by omega)] at h3
  rw [h1, h2, h3]
  have e1 : n / 10 / 10 / 10 = n / 1000 := by omega
  have e2 : n / 10 / 10 % 10 = n / 100 % 10 := by omega
  rw [e1, e2]
  simp [three]

theorem commas_short (cs : List Char) (h : cs.length ≤ 3) : commas 0 cs = cs := by
  match cs, h with
  | [], _ => rfl
  | [_], _ => rfl
  | [_, _], _ => rfl
  | [_, _, _], _ => rfl

theorem decNat_short (n : Nat) (h : n < 1000) : (decNat n).length ≤ 3 := by
  rw [decNat_eq]
  split
  · simp
  · rw [decNat_eq]
    split
    · simp
    · rw [decNat_eq, if_pos (by omega)]; simp

/-- The commas of a number that is not negative. -/
theorem commas_nat (n : Nat) : (commas 0 (decNat n).reverse).reverse = grouped n := by
  induction n using Nat.strongRecOn with
  | _ n ih =>
    rw [grouped]
    split
    · rename_i h
      rw [commas_short _ (by simpa using decNat_short n h), List.reverse_reverse]
    · rename_i h
      have ih' := ih (n / 1000) (by omega)
      rw [decNat_thousand n (by omega), List.reverse_append]
      have hne : (decNat (n / 1000)).reverse ≠ [] := by simpa using decNat_ne_nil _
      cases e : (decNat (n / 1000)).reverse with
      | nil => exact absurd e hne
      | cons d ds =>
        rw [e] at ih'
        have e2 : commas 0 ((three n).reverse ++ d :: ds) = (three n).reverse ++ ',' :: commas 3 (d :: ds) := rfl
        rw [e2, commas_mod (d :: ds) 3 0 rfl, ← ih']
        simp

/-- C72, partial: right exactly unless the number is negative with a number of digits divisible by three, when there is a
comma after the sign. -/
theorem C72_partial (ext : Param → List Val → Res (List Char)) (v : Int) :
    format ext ['%', '\'', 'd'] [.int v] = .ok ((if v < 0 then ['-'] else []) ++ grouped v.natAbs) ↔ ¬ (v < 0 ∧ (decNat v.natAbs).length % 3 = 0) := by
  rw [format_quote]
  by_cases hv : v < 0
  · have hd : decInt v = '-' :: decNat v.natAbs := by unfold decInt; rw [if_pos hv]
    have hne : (decNat v.natAbs).reverse ≠ [] := by simpa using decNat_ne_nil _
    rw [if_pos hv, hd, List.reverse_cons, commas_snoc _ _ _ hne, ← commas_nat v.natAbs]
    simp only [Nat.zero_add, List.length_reverse, hv, true_and, List.reverse_append]
    by_cases hl : (decNat v.natAbs).length % 3 = 0
    · rw [if_pos hl]
      simp [hl]
    · rw [if_neg hl]
      simp [hl]
  · have hd : decInt v = decNat v.natAbs := by unfold decInt; rw [if_neg hv]
    rw [if_neg hv, hd, ← commas_nat v.natAbs]
    simp [hv]

/-- FORMAT("%'d", -100) is -,100. -/
theorem C72_full_false : ¬ C72_full := by
  intro h
  have := (C72_partial (fun _ _ => .ok []) (-100)).1 (h _ _)
  exact this ⟨by decide, by decide⟩

example : grouped 1234567 = ['1', ',', '2', '3', '4', ',', '5', '6', '7'] := by
  rw [grouped, if_neg (by decide), grouped, if_neg (by decide), grouped, if_pos (by decide)]
  rfl

/-! ### C113: widths -/

/-- `text` padded on the left to `w` characters. -/
def Padded (w : Nat) (text out : List Char) : Prop := ∃ k, out = List.replicate k ' ' ++ text ∧ out.length = max w text.length

/-- C113: FORMAT("%5d", n) and FORMAT("%5s", s) are the number and the text, padded with spaces on the left to the width. -/
def C113_full : Prop := ∀ (ext : Param → List Val → Res (List Char)) (w : Nat), 1 ≤ w → w ≤ 1000000 →
  (∀ v : Int, ∃ out, format ext (['%'] ++ (decNat w ++ ['d'])) [.int v] = .ok out ∧ Padded w (decInt v) out) ∧
  (∀ s : List Char, ∃ out, format ext (['%'] ++ (decNat w ++ ['s'])) [.str s] = .ok out ∧ Padded w s out)

theorem directive_width (w : Nat) (h1 : 1 ≤ w) (h2 : w ≤ 1000000) (s : Char) (hs : s ∈ table) :
    directive (decNat w ++ [s]) = .ok ({ flag := .none, width := .num w, precision := .absent, spec := s }, []) := by
  have := directive_text .none (.num w) .absent s [] ⟨hs, by intro n hn; cases hn; exact ⟨h2, fun _ => by omega⟩, by simp⟩ (by simp)
  simpa [flagText, amountText] using this

theorem format_width_d (ext : Param → List Val → Res (List Char)) (w : Nat) (h1 : 1 ≤ w) (h2 : w ≤ 1000000) (v : Int) :
    format ext (['%'] ++ (decNat w ++ ['d'])) [.int v] = .ok (List.replicate (w - (decInt v).length) ' ' ++ decInt v) := by
  have hd := directive_width w h1 h2 'd' (by decide)
  show format ext ('%' :: (decNat w ++ ['d'])) [.int v] = _
  rw [format_dir ext _ _ hd]
  have e : integer { flag := .none, width := .num w, precision := .absent, spec := 'd' } [.int v] = .ok (sprintf false w 'd' v) := rfl
  have e2 : sprintf false w 'd' v = List.replicate (w - (decInt v).length) ' ' ++ decInt v := by
    unfold sprintf
    simp only
    rw [if_neg (by omega)]
    have hdig : verbDigits 'd' v.natAbs = decNat v.natAbs := rfl
    rw [hdig]
    unfold decInt
    by_cases hv : v < 0
    · simp only [if_pos hv, Bool.false_eq_true, if_false, List.length_cons, List.length_nil, List.cons_append, List.nil_append]
      congr 2
      omega
    · simp [if_neg hv]
  have e3 : convert ext { flag := .none, width := .num w, precision := .absent, spec := 'd' } [.int v] = .ok (sprintf false w 'd' v) := rfl
  have e4 : required { flag := .none, width := .num w, precision := .absent, spec := 'd' } = 1 := rfl
  simp only [e4, List.length_cons, List.length_nil, Nat.zero_add, Nat.lt_irrefl, if_false]
  have e5 : validate { flag := .none, width := .num w, precision := .absent, spec := 'd' } [.int v] = .ok () := rfl
  show (validate _ [.int v]).bind _ = _
  rw [e5, Res.bind'_ok]
  show (convert ext _ [.int v]).bind _ = _
  rw [e3, Res.bind'_ok, e2]
  show Res.ok (_ ++ []) = _
  rw [List.append_nil]

theorem format_width_s (ext : Param → List Val → Res (List Char)) (w : Nat) (h1 : 1 ≤ w) (h2 : w ≤ 1000000) (s : List Char) :
    format ext (['%'] ++ (decNat w ++ ['s'])) [.str s] = .ok s := by
  have hd := directive_width w h1 h2 's' (by decide)
  show format ext ('%' :: (decNat w ++ ['s'])) [.str s] = _
  rw [format_dir ext _ _ hd]
  show Res.ok (s ++ []) = _
  rw [List.append_nil]

/-- C113, partial: numbers are padded, texts exactly when they need not be.  Missing: texts that are shorter. -/
theorem C113_partial (ext : Param → List Val → Res (List Char)) (w : Nat) (h1 : 1 ≤ w) (h2 : w ≤ 1000000) :
    (∀ v : Int, ∃ out, format ext (['%'] ++ (decNat w ++ ['d'])) [.int v] = .ok out ∧ Padded w (decInt v) out) ∧
    (∀ s : List Char, (∃ out, format ext (['%'] ++ (decNat w ++ ['s'])) [.str s] = .ok out ∧ Padded w s out) ↔ w ≤ s.length) := by
  constructor
  · intro v
    refine ⟨_, format_width_d ext w h1 h2 v, _, rfl, ?_⟩
    simp only [List.length_append, List.length_replicate]
    omega
  · intro s
    rw [format_width_s ext w h1 h2 s]
    constructor
    · rintro ⟨out, h, k, _, hl⟩
      cases h
      omega
    · intro h
      exact ⟨s, rfl, 0, rfl, by omega⟩

/-- FORMAT("%5s", "a") is "a". -/
theorem C113_full_false : ¬ C113_full := by
  intro h
  have := (C113_partial (fun _ _ => .ok []) 5 (by decide) (by decide)).2 ['a']
  have := this.1 ((h _ 5 (by decide) (by decide)).2 ['a'])
  exact absurd this (by decide)

/-- FORMAT("%*s", 5, "a") is 5. -/
theorem C113_star_false (ext : Param → List Val → Res (List Char)) (w : Int) (s : List Char) : format ext ['%', '*', 's'] [.int w, .str s] = .ok (decInt w) := by
  have e : format ext ['%', '*', 's'] [.int w, .str s] = .ok (decInt w ++ []) := rfl
  rw [e, List.append_nil]

/-- Zeros go between the sign and the digits. -/
theorem C113_zero (ext : Param → List Val → Res (List Char)) (v : Int) :
    format ext ['%', '0', '8', 'd'] [.int v] = .ok ((if v < 0 then ['-'] else []) ++ (List.replicate (8 - (decInt v).length) '0' ++ decNat v.natAbs)) := by
  have e : format ext ['%', '0', '8', 'd'] [.int v] = .ok (sprintf true 8 'd' v ++ []) := rfl
  rw [e, List.append_nil]
  unfold sprintf
  have hdig : verbDigits 'd' v.natAbs = decNat v.natAbs := rfl
  simp only [hdig]
  rw [if_neg (by decide)]
  unfold decInt
  by_cases hv : v < 0
  · simp only [if_pos hv, if_true, List.length_cons, List.length_nil]
    congr 4
    omega
  · simp [if_neg hv]

/-! ### C114: signs -/

/-- C114: FORMAT("%+d", n) has a sign for every number, FORMAT("% d", n) a space instead of the plus sign. -/
def C114_full : Prop := ∀ (ext : Param → List Val → Res (List Char)) (v : Int),
  format ext ['%', '+', 'd'] [.int v] = .ok ((if v < 0 then '-' else '+') :: decNat v.natAbs) ∧
  format ext ['%', ' ', 'd'] [.int v] = .ok ((if v < 0 then '-' else ' ') :: decNat v.natAbs)

theorem sprintf_plain (v : Int) : sprintf false 0 'd' v = decInt v := by
  unfold sprintf decInt
  have hdig : verbDigits 'd' v.natAbs = decNat v.natAbs := rfl
  simp only [hdig]
  rw [if_neg (by decide)]
  by_cases hv : v < 0
  · simp [if_pos hv]
  · simp [if_neg hv]

/-- C114, partial: `%+d` is right exactly for numbers other than 0, `% d` exactly for numbers that are not negative. -/
theorem C114_partial (ext : Param → List Val → Res (List Char)) (v : Int) :
    (format ext ['%', '+', 'd'] [.int v] = .ok ((if v < 0 then '-' else '+') :: decNat v.natAbs) ↔ v ≠ 0) ∧
    (format ext ['%', ' ', 'd'] [.int v] = .ok ((if v < 0 then '-' else ' ') :: decNat v.natAbs) ↔ 0 ≤ v) := by
  have e1 : format ext ['%', '+', 'd'] [.int v] = .ok (((if v > 0 then ['+'] else []) ++ sprintf false 0 'd' v) ++ []) := rfl
  have e2 : format ext ['%', ' ', 'd'] [.int v] = .ok ((' ' :: sprintf false 0 'd' v) ++ []) := rfl
  rw [e1, e2, List.append_nil, List.append_nil, sprintf_plain]
  unfold decInt
  rcases Int.lt_trichotomy v 0 with h | rfl | h
  · have h' : ¬ v > 0 := by omega
    simp only [if_pos h, if_neg h', List.nil_append, true_iff, Res.ok.injEq, List.cons.injEq]
    refine ⟨by omega, ?_⟩
    constructor
    · rintro ⟨h1, _⟩; exact absurd h1 (by decide)
    · omega
  · constructor
    · constructor
      · intro h; injection h with h; exact absurd h (by decide)
      · intro h; exact absurd rfl h
    · simp
  · have h' : ¬ v < 0 := by omega
    have h'' : v > 0 := h
    simp only [if_neg h', if_pos h'', List.cons_append, List.nil_append, true_iff]
    omega

/-- FORMAT("%+d", 0) is 0. -/
theorem C114_full_false : ¬ C114_full := by
  intro h
  exact (C114_partial (fun _ _ => .ok []) 0).1.1 (h _ 0).1 rfl

/-! ### C125: hexadecimal and octal numbers -/

/-- A text of digits of a kind that denotes `n` in a base, without zeros in front. -/
def Numeral (base : Nat) (digit : Char → Prop) (n : Nat) (s : List Char) : Prop :=
  s ≠ [] ∧ (∀ c ∈ s, digit c) ∧ value base s = n ∧ (s.head? = some '0' → s = ['0'])

/-- The digits of `%x`, `%X` and `%o`. -/
def LowerHex (c : Char) : Prop := (48 ≤ c.toNat ∧ c.toNat ≤ 57) ∨ (97 ≤ c.toNat ∧ c.toNat ≤ 102)
@[inherit_doc LowerHex] def UpperHex (c : Char) : Prop := (48 ≤ c.toNat ∧ c.toNat ≤ 57) ∨ (65 ≤ c.toNat ∧ c.toNat ≤ 70)
@[inherit_doc LowerHex] def Octal (c : Char) : Prop := 48 ≤ c.toNat ∧ c.toNat ≤ 55

instance (c : Char) : Decidable (LowerHex c) := by unfold LowerHex; infer_instance
instance (c : Char) : Decidable (UpperHex c) := by unfold UpperHex; infer_instance
instance (c : Char) : Decidable (Octal c) := by unfold Octal; infer_instance

/-- The value of one digit. -/
theorem value_digit : ∀ n : Nat, n < 16 → ∀ base, value base [hexDigit n] = n ∧ value base [upper (hexDigit n)] = n := by
  have key : ∀ n : Nat, n < 16 → value 0 [hexDigit n] = n ∧ value 0 [upper (hexDigit n)] = n := by decide
  intro n hn base
  have := key n hn
  simp only [value, List.foldl_cons, List.foldl_nil, Nat.zero_mul] at this ⊢
  exact this

theorem value_append (base : Nat) (s : List Char) (c : Char) : value base (s ++ [c]) = value base s * base + value base [c] := by
  simp only [value, List.foldl_append, List.foldl_cons, List.foldl_nil, Nat.zero_mul, Nat.zero_add]

theorem hexDigit_facts : ∀ n : Nat, n < 16 → LowerHex (hexDigit n) ∧ UpperHex (upper (hexDigit n)) ∧ (n < 8 → Octal (hexDigit n)) ∧
    (hexDigit n = '0' → n = 0) ∧ (upper (hexDigit n) = '0' → n = 0) := by decide

/-- The digits of a number, after any change of letters that keeps the values. -/
theorem baseDigits_numeral (b : Nat) (hb : 2 ≤ b) (hb' : b ≤ 16) (g : Char → Char) (ok : Char → Prop)
    (hv : ∀ n, n < b → ∀ base, value base [g (hexDigit n)] = n) (ho : ∀ n, n < b → ok (g (hexDigit n))) (h0 : ∀ n, n < b → g (hexDigit n) = '0' → n = 0) :
    ∀ (f n : Nat), n < f → Numeral b ok n ((baseDigits b f n).map g) ∧ (((baseDigits b f n).map g).head? = some '0' → n = 0)
  | 0, n, h => by omega
  | f + 1, n, h => by
    unfold baseDigits
    by_cases hn : n < b
    · rw [if_pos hn]
      refine ⟨⟨by simp, ?_, ?_, ?_⟩, ?_⟩
      · intro c hc
        simp only [List.map_cons, List.map_nil, List.mem_cons, List.not_mem_nil, or_false] at hc
        rw [hc]
        exact ho n hn
      · exact hv n hn b
      · intro e
        simp only [List.map_cons, List.map_nil, List.head?_cons, Option.some.injEq] at e
        rw [List.map_cons, e]
        rfl
      · intro e
        simp only [List.map_cons, List.map_nil, List.head?_cons, Option.some.injEq] at e
        exact h0 n hn e
    · rw [if_neg hn]
      have hlt : n / b < n := Nat.div_lt_self (by omega) (by omega)
      have hpos : 0 < n / b := Nat.div_pos (by omega) (by omega)
      have hm : n % b < b := Nat.mod_lt _ (by omega)
      obtain ⟨⟨h1, h2, h3, _⟩, h5⟩ := baseDigits_numeral b hb hb' g ok hv ho h0 f (n / b) (by omega)
      have hne : baseDigits b f (n / b) ≠ [] := fun e => h1 (by rw [e]; rfl)
      have hhead : (((baseDigits b f (n / b) ++ [hexDigit (n % b)]).map g).head?) = ((baseDigits b f (n / b)).map g).head? := by
        obtain ⟨c, cs, e⟩ := List.exists_cons_of_ne_nil hne
        rw [e]
        rfl
      have hno : ((baseDigits b f (n / b) ++ [hexDigit (n % b)]).map g).head? ≠ some '0' := by
        rw [hhead]
        intro e
        have := h5 e
        omega
      refine ⟨⟨by simp, ?_, ?_, fun e => absurd e hno⟩, fun e => absurd e hno⟩
      · intro c hc
        rw [List.map_append, List.mem_append] at hc
        rcases hc with hc | hc
        · exact h2 c hc
        · simp only [List.map_cons, List.map_nil, List.mem_cons, List.not_mem_nil, or_false] at hc
          rw [hc]
          exact ho _ hm
      · rw [List.map_append]
        show value b (_ ++ [g (hexDigit (n % b))]) = n
        rw [value_append, h3, hv _ hm]
        exact Nat.div_add_mod' n b

/-- C125: FORMAT("%x", n), FORMAT("%X", n) and FORMAT("%o", n) are the hexadecimal text with small letters, with capital letters,
and the octal text of n, without zeros in front; negative numbers are an error. -/
theorem C125 (ext : Param → List Val → Res (List Char)) :
    (∀ n : Nat, (∃ s, format ext ['%', 'x'] [.int n] = .ok s ∧ Numeral 16 LowerHex n s) ∧
      (∃ s, format ext ['%', 'X'] [.int n] = .ok s ∧ Numeral 16 UpperHex n s) ∧
      (∃ s, format ext ['%', 'o'] [.int n] = .ok s ∧ Numeral 8 Octal n s)) ∧
    (∀ v : Int, v < 0 → format ext ['%', 'x'] [.int v] = .err ∧ format ext ['%', 'X'] [.int v] = .err ∧ format ext ['%', 'o'] [.int v] = .err) := by
  constructor
  · intro n
    have hnn : ¬ ((n : Int) < 0) := by omega
    have hsp : ∀ c : Char, sprintf false 0 c (n : Int) = verbDigits c n := by
      intro c
      unfold sprintf
      have e : ((n : Int)).natAbs = n := rfl
      simp only [if_neg hnn, e]
      rw [if_neg (by decide)]
      simp
    have hf : ∀ c ∈ ['x', 'X', 'o'], format ext ['%', c] [.int n] = .ok (verbDigits c n) := by
      intro c hc
      simp only [List.mem_cons, List.not_mem_nil, or_false] at hc
      have hd : directive [c] = .ok ({ flag := .none, width := .absent, precision := .absent, spec := c }, []) := by
        rcases hc with rfl | rfl | rfl <;> rfl
      rw [format_dir ext _ _ hd]
      have e4 : required { flag := .none, width := .absent, precision := .absent, spec := c } = 1 := by rcases hc with rfl | rfl | rfl <;> rfl
      simp only [e4, List.length_cons, List.length_nil, Nat.zero_add, Nat.lt_irrefl, if_false]
      have e5 : validate { flag := .none, width := .absent, precision := .absent, spec := c } [.int n] = .ok () := by
        have : fits c (.int n) = .ok () := by
          rcases hc with rfl | rfl | rfl <;> (unfold fits; simp [hnn])
        rcases hc with rfl | rfl | rfl <;> exact this
      show (validate _ [.int n]).bind _ = _
      rw [e5, Res.bind'_ok]
      have e6 : convert ext { flag := .none, width := .absent, precision := .absent, spec := c } [.int n] = .ok (sprintf false 0 c n) := by
        rcases hc with rfl | rfl | rfl <;> rfl
      show (convert ext _ [.int n]).bind _ = _
      rw [e6, Res.bind'_ok, hsp]
      show Res.ok (_ ++ []) = _
      rw [List.append_nil]
    refine ⟨⟨_, hf 'x' (by decide), ?_⟩, ⟨_, hf 'X' (by decide), ?_⟩, ⟨_, hf 'o' (by decide), ?_⟩⟩
    · have := (baseDigits_numeral 16 (by decide) (by decide) id LowerHex (fun m hm base => (value_digit m hm base).1)
        (fun m hm => (hexDigit_facts m hm).1) (fun m hm => (hexDigit_facts m hm).2.2.2.1) (n + 1) n (by omega)).1
      rw [List.map_id] at this
      exact this
    · exact (baseDigits_numeral 16 (by decide) (by decide) upper UpperHex (fun m hm base => (value_digit m hm base).2)
        (fun m hm => (hexDigit_facts m hm).2.1) (fun m hm => (hexDigit_facts m hm).2.2.2.2) (n + 1) n (by omega)).1
    · have := (baseDigits_numeral 8 (by decide) (by decide) id Octal (fun m hm base => (value_digit m (by omega) base).1)
        (fun m hm => (hexDigit_facts m (by omega)).2.2.1 hm) (fun m hm => (hexDigit_facts m (by omega)).2.2.2.1) (n + 1) n (by omega)).1
      rw [List.map_id] at this
      exact this
  · intro v hv
    have hf : ∀ c ∈ ['x', 'X', 'o'], format ext ['%', c] [.int v] = .err := by
      intro c hc
      simp only [List.mem_cons, List.not_mem_nil, or_false] at hc
      have hd : directive [c] = .ok ({ flag := .none, width := .absent, precision := .absent, spec := c }, []) := by
        rcases hc with rfl | rfl | rfl <;> rfl
      rw [format_dir ext _ _ hd]
      have e4 : required { flag := .none, width := .absent, precision := .absent, spec := c } = 1 := by rcases hc with rfl | rfl | rfl <;> rfl
      simp only [e4, List.length_cons, List.length_nil, Nat.zero_add, Nat.lt_irrefl, if_false]
      have e5 : validate { flag := .none, width := .absent, precision := .absent, spec := c } [.int v] = .err := by
        have : fits c (.int v) = .err := by
          rcases hc with rfl | rfl | rfl <;> (unfold fits; simp [hv])
        rcases hc with rfl | rfl | rfl <;> exact this
      show (validate _ [.int v]).bind _ = _
      rw [e5]
      rfl
    exact ⟨hf 'x' (by decide), hf 'X' (by decide), hf 'o' (by decide)⟩

example : format (fun _ _ => .err) ['%', 'X'] [.int 48879] = .ok ['B', 'E', 'E', 'F'] := by decide

end Verif.Format
