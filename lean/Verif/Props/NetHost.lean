import Verif.Model.NetHost
import Verif.Lemmas.NamePath

/-! # C227, C228: NET.HOST, NET.PUBLIC_SUFFIX and NET.REG_DOMAIN -/

namespace Verif.NetHost
open Verif.Go Verif.NamePath Verif.NamePath.Spec

/-! ### Labels -/

theorem splitDot_append (a b : List Char) : splitDot (a ++ '.' :: b) = splitDot a ++ splitDot b := by
  induction a with
  | nil => rfl
  | cons c a ih =>
    rw [List.cons_append, splitDot, ih]
    by_cases hc : c = '.'
    · simp only [hc, if_true, splitDot, List.cons_append]
    · simp only [hc, if_false, splitDot]
      cases h : splitDot a with
      | nil => exact absurd h (splitDot_ne_nil a)
      | cons x xs => rfl

theorem join_dotted (ls : List (List Char)) : join ['.'] ls = dotted ls := by
  induction ls with
  | nil => rfl
  | cons x xs ih =>
    cases xs with
    | nil => rfl
    | cons y ys =>
      rw [dotted_cons x (by simp), ← ih, join]
      · simp
      · simp

theorem splitDot_dotted (ls : List (List Char)) (h0 : ls ≠ []) (h : ∀ l ∈ ls, '.' ∉ l) : splitDot (dotted ls) = ls := by
  induction ls with
  | nil => exact absurd rfl h0
  | cons x xs ih =>
    by_cases hx : xs = []
    · subst hx
      exact splitDot_of_noDot (h x (by simp))
    · rw [dotted_cons x hx, splitDot_append, ih hx (fun l hl => h l (by simp [hl])), splitDot_of_noDot (h x (by simp))]
      rfl

/-- `p` is the end of `h`, from the beginning of a label. -/
def Ends (p h : List Char) : Prop := h = p ∨ ∃ pre, h = pre ++ '.' :: p

theorem ends_iff (p h : List Char) : Ends p h ↔ ∃ pre, splitDot h = pre ++ splitDot p := by
  constructor
  · rintro (rfl | ⟨pre, rfl⟩)
    · exact ⟨[], rfl⟩
    · exact ⟨_, splitDot_append _ _⟩
  · rintro ⟨pre, e⟩
    have := dotted_splitDot h
    by_cases hp : pre = []
    · subst hp
      rw [List.nil_append] at e
      left
      rw [← this, e, dotted_splitDot]
    · right
      rw [e, dotted_append hp (splitDot_ne_nil p), dotted_splitDot] at this
      exact ⟨_, this.symm⟩

/-- The last `n` labels. -/
theorem last_labels (h : List Char) (n : Nat) (h1 : 1 ≤ n) (h2 : n ≤ (splitDot h).length) (p : List Char) :
    p = join ['.'] ((splitDot h).drop ((splitDot h).length - n)) ↔ Ends p h ∧ (splitDot p).length = n := by
  rw [join_dotted, ends_iff]
  have hne : (splitDot h).drop ((splitDot h).length - n) ≠ [] := by
    intro e
    have := congrArg List.length e
    simp only [List.length_drop, List.length_nil] at this
    omega
  constructor
  · rintro rfl
    rw [splitDot_dotted _ hne (fun l hl => splitDot_noDot h l (List.mem_of_mem_drop hl))]
    refine ⟨⟨(splitDot h).take ((splitDot h).length - n), (List.take_append_drop _ _).symm⟩, ?_⟩
    rw [List.length_drop]
    omega
  · rintro ⟨⟨pre, e⟩, hn⟩
    have : (splitDot h).drop ((splitDot h).length - n) = splitDot p := by
      rw [e, List.length_append, hn, Nat.add_sub_cancel, List.drop_left]
    rw [this, dotted_splitDot]

theorem ends_unique {h p q : List Char} (hp : Ends p h) (hq : Ends q h) (hl : (splitDot p).length = (splitDot q).length) : p = q := by
  obtain ⟨a, ea⟩ := (ends_iff p h).1 hp
  obtain ⟨b, eb⟩ := (ends_iff q h).1 hq
  rw [ea] at eb
  have := (List.append_inj' eb hl).2
  rw [← dotted_splitDot p, this, dotted_splitDot]

/-! ### Consecutive dots -/

/-- Two or more dots between two characters that are no dots. -/
def InnerDots (s : List Char) : Prop := ∃ a c n d b, s = a ++ c :: (List.replicate n '.' ++ d :: b) ∧ c ≠ '.' ∧ d ≠ '.' ∧ 2 ≤ n

theorem dotsAfter_iff (s : List Char) (k : Nat) : dotsAfter k s = true ↔
    (∃ n d b, s = List.replicate n '.' ++ d :: b ∧ d ≠ '.' ∧ 2 ≤ k + n) ∨ InnerDots s := by
  induction s generalizing k with
  | nil =>
    simp only [dotsAfter, Bool.false_eq_true, false_iff]
    rintro (⟨n, d, b, e, _⟩ | ⟨a, c, n, d, b, e, _⟩)
    · have := congrArg List.length e
      simp at this
    · have := congrArg List.length e
      simp at this
  | cons x s ih =>
    have hin : InnerDots (x :: s) ↔ (x ≠ '.' ∧ ∃ n d b, s = List.replicate n '.' ++ d :: b ∧ d ≠ '.' ∧ 2 ≤ n) ∨ InnerDots s := by
      constructor
      · rintro ⟨a, c, n, d, b, e, hc, hd, hn⟩
        cases a with
        | nil =>
          rw [List.nil_append, List.cons.injEq] at e
          obtain ⟨rfl, e⟩ := e
          exact .inl ⟨hc, n, d, b, e, hd, hn⟩
        | cons y a =>
          rw [List.cons_append, List.cons.injEq] at e
          exact .inr ⟨a, c, n, d, b, e.2, hc, hd, hn⟩
      · rintro (⟨hx, n, d, b, rfl, hd, hn⟩ | ⟨a, c, n, d, b, rfl, hc, hd, hn⟩)
        · exact ⟨[], x, n, d, b, rfl, hx, hd, hn⟩
        · exact ⟨x :: a, c, n, d, b, rfl, hc, hd, hn⟩
    rw [hin, dotsAfter]
    by_cases hx : x = '.'
    · subst hx
      rw [if_pos rfl, ih]
      constructor
      · rintro (⟨n, d, b, rfl, hd, hn⟩ | h)
        · exact .inl ⟨n + 1, d, b, by rw [List.replicate_succ]; rfl, hd, by omega⟩
        · exact .inr (.inr h)
      · rintro (⟨n, d, b, e, hd, hn⟩ | ⟨h, _⟩ | h)
        · cases n with
          | zero =>
            rw [List.replicate_zero, List.nil_append, List.cons.injEq] at e
            exact absurd e.1.symm hd
          | succ n =>
            rw [List.replicate_succ, List.cons_append, List.cons.injEq] at e
            exact .inl ⟨n, d, b, e.2, hd, by omega⟩
        · exact absurd rfl h
        · exact .inr h
    · rw [if_neg hx, Bool.or_eq_true, decide_eq_true_iff, ih]
      constructor
      · rintro (h | ⟨n, d, b, rfl, hd, hn⟩ | h)
        · exact .inl ⟨0, x, s, rfl, hx, by omega⟩
        · exact .inr (.inl ⟨hx, n, d, b, rfl, hd, by omega⟩)
        · exact .inr (.inr h)
      · rintro (⟨n, d, b, e, hd, hn⟩ | ⟨_, n, d, b, rfl, hd, hn⟩ | h)
        · cases n with
          | zero => exact .inl (by omega)
          | succ n =>
            rw [List.replicate_succ, List.cons_append, List.cons.injEq] at e
            exact absurd e.1 hx
        · exact .inr (.inl ⟨n, d, b, rfl, hd, by omega⟩)
        · exact .inr (.inr h)

theorem dotsInside_iff (s : List Char) : dotsInside s = true ↔ InnerDots s := by
  induction s with
  | nil =>
    simp only [dotsInside, Bool.false_eq_true, false_iff]
    rintro ⟨a, c, n, d, b, e, _⟩
    have := congrArg List.length e
    simp at this
  | cons x s ih =>
    rw [dotsInside]
    by_cases hx : x = '.'
    · rw [if_pos hx, ih]
      constructor
      · rintro ⟨a, c, n, d, b, rfl, h⟩
        exact ⟨x :: a, c, n, d, b, rfl, h⟩
      · rintro ⟨a, c, n, d, b, e, hc, h⟩
        cases a with
        | nil =>
          rw [List.nil_append, List.cons.injEq] at e
          exact absurd (e.1.symm.trans hx) hc
        | cons y a =>
          rw [List.cons_append, List.cons.injEq] at e
          exact ⟨a, c, n, d, b, e.2, hc, h⟩
    · rw [if_neg hx, dotsAfter_iff]
      constructor
      · rintro (⟨n, d, b, rfl, hd, hn⟩ | ⟨a, c, n, d, b, rfl, h⟩)
        · exact ⟨[], x, n, d, b, rfl, hx, hd, by omega⟩
        · exact ⟨x :: a, c, n, d, b, rfl, h⟩
      · rintro ⟨a, c, n, d, b, e, hc, hd, hn⟩
        cases a with
        | nil =>
          rw [List.nil_append, List.cons.injEq] at e
          exact .inl ⟨n, d, b, e.2, hd, by omega⟩
        | cons y a =>
          rw [List.cons_append, List.cons.injEq] at e
          exact .inr ⟨a, c, n, d, b, e.2, hc, hd, hn⟩

/-! ### C228 -/

theorem suffix_labels {w : Web} (hw : w.Lawful) {h e : List Char} (he : w.toASCII h = some e) :
    1 ≤ (splitDot (w.suffix e).1).length ∧ (splitDot (w.suffix e).1).length ≤ (splitDot h).length := by
  constructor
  · exact List.length_pos_iff.2 (splitDot_ne_nil _)
  · rw [← hw.labels h e he]
    obtain ⟨pre, e'⟩ := (ends_iff (w.suffix e).1 e).1 (hw.suffix e)
    rw [e', List.length_append]
    omega

/-- The part of a host that the public suffix list matches: as many labels, as they are written in the host. -/
def Suffix (w : Web) (h p : List Char) : Prop :=
  ¬ InnerDots h ∧ ∃ e, w.toASCII h = some e ∧ (w.suffix e).2 = true ∧ Ends p h ∧ (splitDot p).length = (splitDot (w.suffix e).1).length

theorem publicSuffix_cases {w : Web} (hw : w.Lawful) (h : List Char) :
    (publicSuffix w h = .err ∧ ¬ InnerDots h ∧ w.toASCII h = none) ∨
    ∃ p, publicSuffix w h = .ok p ∧ (Suffix w h p ∨ (p = [] ∧ ∀ q, ¬ Suffix w h q)) := by
  unfold publicSuffix
  by_cases hd : dotsInside h = true
  · right
    rw [if_pos hd]
    exact ⟨[], rfl, .inr ⟨rfl, fun q hq => hq.1 ((dotsInside_iff h).1 hd)⟩⟩
  · rw [if_neg hd]
    have hd' : ¬ InnerDots h := fun hi => hd ((dotsInside_iff h).2 hi)
    cases he : w.toASCII h with
    | none => exact .inl ⟨rfl, hd', rfl⟩
    | some e =>
      right
      simp only
      by_cases hi : (w.suffix e).2 = false
      · rw [if_pos hi]
        refine ⟨[], rfl, .inr ⟨rfl, ?_⟩⟩
        rintro q ⟨_, e', he', hi', _⟩
        rw [he] at he'
        cases he'
        rw [hi] at hi'
        cases hi'
      · have hl := suffix_labels hw he
        rw [if_neg hi, if_neg (by omega)]
        refine ⟨_, rfl, .inl ⟨hd', e, he, by simpa using hi, (last_labels h _ hl.1 hl.2 _).1 rfl⟩⟩

/-- The host of a URL as it is written: that of the text, or, if the text has none, that of the text without outer spaces after `//`. -/
def IsHost (w : Web) (v host : List Char) : Prop :=
  (w.parse v = some host ∧ host ≠ []) ∨ (w.parse v = some [] ∧ w.parse (['/', '/'] ++ w.trimSpace v) = some host)

theorem isHost_iff (w : Web) (v host : List Char) : IsHost w v host ↔ parseURL w v = some host := by
  unfold IsHost parseURL
  cases h : w.parse v with
  | none => simp
  | some a =>
    by_cases ha : a = []
    · subst ha
      simp only [if_true, Option.some.injEq, true_and]
      constructor
      · rintro (⟨h1, h2⟩ | h1)
        · exact absurd h1.symm h2
        · exact h1
      · exact fun h1 => .inr h1
    · simp only [if_neg ha, Option.some.injEq]
      constructor
      · rintro (⟨h1, _⟩ | ⟨h1, _⟩)
        · exact h1
        · exact absurd h1 ha
      · rintro rfl
        exact .inl ⟨rfl, ha⟩

/-- C228 at full strength, for every parser of URLs and every list of public suffixes: NET.PUBLIC_SUFFIX is the part of the host that the list matches;
NET.REG_DOMAIN is this part with the label before it; they fail together; NULL gives NULL. -/
def C228_full : Prop := ∀ w : Web, w.Lawful →
  (∀ v p, netPublicSuffix w (some v) = .ok (some p) ↔ p ≠ [] ∧ ∃ host, IsHost w v host ∧ Suffix w (hostname host) p) ∧
  (∀ v d, netRegDomain w (some v) = .ok (some d) ↔
    ∃ host p l, IsHost w v host ∧ netPublicSuffix w (some v) = .ok (some p) ∧ '.' ∉ l ∧ d = l ++ '.' :: p ∧ Ends d (hostname host)) ∧
  (∀ v, netRegDomain w (some v) = .err ↔ netPublicSuffix w (some v) = .err) ∧
  (∀ v, netPublicSuffix w (some v) ≠ .panic ∧ netRegDomain w (some v) ≠ .panic) ∧
  netPublicSuffix w none = .ok none ∧ netRegDomain w none = .ok none

theorem suffix_unique {w : Web} {h p q : List Char} (hp : Suffix w h p) (hq : Suffix w h q) : p = q := by
  obtain ⟨_, e, he, _, h1, h2⟩ := hp
  obtain ⟨_, e', he', _, h3, h4⟩ := hq
  rw [he] at he'
  cases he'
  exact ends_unique h1 h3 (h2.trans h4.symm)

theorem public_iff {w : Web} (hw : w.Lawful) (v p : List Char) :
    netPublicSuffix w (some v) = .ok (some p) ↔ p ≠ [] ∧ ∃ host, parseURL w v = some host ∧ Suffix w (hostname host) p := by
  unfold netPublicSuffix
  simp only
  cases hv : parseURL w v with
  | none =>
    constructor
    · intro h; simp at h
    · rintro ⟨_, _, h, _⟩; cases h
  | some host =>
    simp only
    rcases publicSuffix_cases hw (hostname host) with ⟨h1, _, h3⟩ | ⟨q, h1, h2⟩
    · rw [h1]
      constructor
      · intro h; cases h
      · rintro ⟨_, host', e, _, e', he', _⟩
        cases e
        rw [h3] at he'
        cases he'
    · rw [h1]
      simp only [Res.bind, Res.ok.injEq]
      constructor
      · intro h
        split at h
        · cases h
        · rename_i hq
          cases h
          rcases h2 with h2 | h2
          · exact ⟨hq, host, rfl, h2⟩
          · exact absurd h2.1 hq
      · rintro ⟨hp, host', e, hs⟩
        cases e
        rcases h2 with h2 | h2
        · have := suffix_unique h2 hs
          subst this
          rw [if_neg hp]
        · exact absurd hs (h2.2 p)

theorem ends_nil_host {d : List Char} (l p : List Char) (h : Ends (l ++ '.' :: p) d) : d ≠ [] := by
  rcases h with rfl | ⟨pre, rfl⟩ <;> simp

theorem reg_iff {w : Web} (hw : w.Lawful) (v d : List Char) : netRegDomain w (some v) = .ok (some d) ↔
    ∃ host p l, parseURL w v = some host ∧ netPublicSuffix w (some v) = .ok (some p) ∧ '.' ∉ l ∧ d = l ++ '.' :: p ∧ Ends d (hostname host) := by
  have hpub := public_iff hw v
  unfold netRegDomain
  simp only
  cases hv : parseURL w v with
  | none =>
    constructor
    · intro h; simp at h
    · rintro ⟨_, _, _, h, _⟩; cases h
  | some host =>
    simp only
    generalize hh : hostname host = h
    rcases publicSuffix_cases hw h with ⟨h1, _, h3⟩ | ⟨q, h1, h2⟩
    · rw [h1]
      constructor
      · intro h; cases h
      · rintro ⟨host', p, l, e, hp, _⟩
        obtain ⟨_, host2, e2, _, e', he', _⟩ := (hpub p).1 hp
        rw [hv] at e2
        cases e2
        rw [hh, h3] at he'
        cases he'
    · rw [h1]
      simp only [Res.bind, Res.ok.injEq]
      constructor
      · intro hr
        split at hr
        · cases hr
        · rename_i hn
          simp only [not_or] at hn
          obtain ⟨hn1, hn2, hn3⟩ := hn
          have h2 := h2.resolve_right (fun h => hn2 h.1)
          have h2' := h2
          have hk : (splitDot h).length - (splitDot q).length - 1 = (splitDot h).length - ((splitDot q).length + 1) := by omega
          rw [hk] at hr
          simp only [Option.some.injEq] at hr
          obtain ⟨hd, hlen⟩ := (last_labels h _ (by omega) (by omega) d).1 hr.symm
          obtain ⟨pre, epre⟩ := (ends_iff d h).1 hd
          obtain ⟨_, _, _, _, hq, _⟩ := h2
          obtain ⟨pre2, epre2⟩ := (ends_iff q h).1 hq
          obtain ⟨l, ls, el⟩ : ∃ l ls, splitDot d = l :: ls := by
            cases hs : splitDot d with
            | nil => exact absurd hs (splitDot_ne_nil d)
            | cons l ls => exact ⟨l, ls, rfl⟩
          have els : ls = splitDot q := by
            rw [epre, el] at epre2
            have e3 : (pre ++ [l]) ++ ls = pre2 ++ splitDot q := by rw [← epre2]; simp
            rw [el, List.length_cons] at hlen
            exact (List.append_inj' e3 (by omega)).2
          refine ⟨host, q, l, rfl, (hpub q).2 ⟨hn2, host, hv, by rw [hh]; exact h2'⟩, splitDot_noDot d l (by rw [el]; simp), ?_, by rw [hh]; exact hd⟩
          rw [← dotted_splitDot d, el, els, dotted_cons l (splitDot_ne_nil q), dotted_splitDot]
      · rintro ⟨host', p, l, e, hp, hl, rfl, hd⟩
        cases e
        rw [hh] at hd
        obtain ⟨hp0, host2, e2, hs⟩ := (hpub p).1 hp
        rw [hv] at e2
        cases e2
        rw [hh] at hs
        have h2 := h2.resolve_right (fun h => h.2 p hs)
        have := suffix_unique h2 hs
        subst this
        have hlen : (splitDot (l ++ '.' :: q)).length = (splitDot q).length + 1 := by
          rw [splitDot_append, splitDot_of_noDot hl]
          simp
        have hle : (splitDot q).length + 1 ≤ (splitDot h).length := by
          obtain ⟨pre, e⟩ := (ends_iff _ h).1 hd
          rw [e, List.length_append, hlen]
          omega
        rw [if_neg]
        · rw [show (splitDot h).length - (splitDot q).length - 1 = (splitDot h).length - ((splitDot q).length + 1) by omega,
            ← (last_labels h _ (by omega) hle _).2 ⟨hd, hlen⟩]
        · simp only [not_or]
          exact ⟨ends_nil_host l q hd, hp0, by omega⟩

/-- C228, partial: everything but NULL. -/
theorem C228_partial (w : Web) (hw : w.Lawful) :
    (∀ v p, netPublicSuffix w (some v) = .ok (some p) ↔ p ≠ [] ∧ ∃ host, IsHost w v host ∧ Suffix w (hostname host) p) ∧
    (∀ v d, netRegDomain w (some v) = .ok (some d) ↔
      ∃ host p l, IsHost w v host ∧ netPublicSuffix w (some v) = .ok (some p) ∧ '.' ∉ l ∧ d = l ++ '.' :: p ∧ Ends d (hostname host)) ∧
    (∀ v, netRegDomain w (some v) = .err ↔ netPublicSuffix w (some v) = .err) ∧
    (∀ v, netPublicSuffix w (some v) ≠ .panic ∧ netRegDomain w (some v) ≠ .panic) := by
  simp only [isHost_iff]
  refine ⟨public_iff hw, reg_iff hw, ?_, ?_⟩
  · intro v
    unfold netRegDomain netPublicSuffix
    simp only
    cases parseURL w v with
    | none => simp
    | some host =>
      simp only
      cases publicSuffix w (hostname host) <;> simp [Res.bind]
  · intro v
    unfold netRegDomain netPublicSuffix
    simp only
    cases parseURL w v with
    | none => simp
    | some host =>
      simp only
      rcases publicSuffix_cases hw (hostname host) with ⟨h1, _⟩ | ⟨q, h1, _⟩ <;> rw [h1] <;> simp [Res.bind]

/-- NULL panics. -/
theorem C228_null_panics (w : Web) : netPublicSuffix w none = .panic ∧ netRegDomain w none = .panic := ⟨rfl, rfl⟩

/-- Without a colon in a text: none found. -/
theorem lastColon_none (s : List Char) (h : ':' ∉ s) : lastColon s = none := by
  induction s with
  | nil => rfl
  | cons c s ih =>
    simp only [List.mem_cons, not_or] at h
    rw [lastColon, ih h.2]
    simp only
    rw [if_neg (fun e => h.1 e.symm)]

theorem lastColon_iff (s a b : List Char) : lastColon s = some (a, b) ↔ ∃ r, b = ':' :: r ∧ s = a ++ b ∧ ':' ∉ r := by
  induction s generalizing a b with
  | nil =>
    simp only [lastColon, reduceCtorEq, false_iff]
    rintro ⟨r, rfl, e, _⟩
    have := congrArg List.length e
    simp at this
  | cons c s ih =>
    rw [lastColon]
    cases h : lastColon s with
    | none =>
      simp only
      have hno : ':' ∉ s := by
        intro hm
        obtain ⟨x, y, e, hy⟩ : ∃ x y, s = x ++ ':' :: y ∧ ':' ∉ y := by
          clear h ih
          induction s with
          | nil => simp at hm
          | cons d s ih =>
            by_cases hs : ':' ∈ s
            · obtain ⟨x, y, e, hy⟩ := ih hs
              exact ⟨d :: x, y, by rw [e]; rfl, hy⟩
            · rcases List.mem_cons.1 hm with rfl | h
              · exact ⟨[], s, rfl, hs⟩
              · exact absurd h hs
        have := (ih x (':' :: y)).2 ⟨y, rfl, e, hy⟩
        rw [h] at this
        cases this
      constructor
      · intro he
        split at he
        · rename_i hc
          cases he
          exact ⟨s, rfl, by rw [hc]; rfl, hno⟩
        · cases he
      · rintro ⟨r, rfl, e, hr⟩
        cases a with
        | nil =>
          rw [List.nil_append, List.cons.injEq] at e
          rw [if_pos e.1, e.2]
        | cons d a =>
          rw [List.cons_append, List.cons.injEq] at e
          exact absurd (by rw [e.2]; simp) hno
    | some p =>
      obtain ⟨x, y⟩ := p
      simp only [Option.some.injEq, Prod.mk.injEq]
      obtain ⟨r, rfl, e, hr⟩ := (ih x y).1 h
      constructor
      · rintro ⟨rfl, rfl⟩
        exact ⟨r, rfl, by rw [e]; rfl, hr⟩
      · rintro ⟨r', rfl, e', hr'⟩
        cases a with
        | nil =>
          rw [List.nil_append, List.cons.injEq] at e'
          exact absurd (by rw [← e'.2, e]; simp) hr'
        | cons d a =>
          rw [List.cons_append, List.cons.injEq] at e'
          have := (ih a (':' :: r')).2 ⟨r', rfl, e'.2, hr'⟩
          rw [h] at this
          simp only [Option.some.injEq, Prod.mk.injEq] at this
          exact ⟨by rw [e'.1, this.1], this.2⟩

/-- A port: nothing, or a colon and digits, possibly none. -/
def Port (s : List Char) : Prop := s = [] ∨ ∃ r, s = ':' :: r ∧ ∀ d ∈ r, 48 ≤ d.toNat ∧ d.toNat ≤ 57

/-- stripPort takes the port away. -/
theorem stripPort_spec (host : List Char) : ∃ port, host = stripPort host ++ port ∧ Port port ∧
    (port = [] → ∀ a r, host = a ++ ':' :: r → ¬ Port (':' :: r)) := by
  unfold stripPort
  have hval : ∀ r, validOptionalPort (':' :: r) = true ↔ Port (':' :: r) := by
    intro r
    simp only [validOptionalPort, decide_true, Bool.true_and, List.all_eq_true, decide_eq_true_iff, Port, List.cons.injEq, true_and, reduceCtorEq, false_or]
    constructor
    · exact fun h => ⟨r, rfl, h⟩
    · rintro ⟨_, rfl, h⟩; exact h
  have hcol : ∀ r, Port (':' :: r) → ':' ∉ r := by
    rintro r (h | ⟨r', e, h⟩) hm
    · cases h
    · cases e
      have := h _ hm
      revert this
      decide
  cases h : lastColon host with
  | none =>
    refine ⟨[], by simp, .inl rfl, ?_⟩
    intro _ a r e hp
    have := (lastColon_iff host a (':' :: r)).2 ⟨r, rfl, e, hcol r hp⟩
    rw [h] at this
    cases this
  | some p =>
    obtain ⟨a, b⟩ := p
    obtain ⟨r, rfl, e, hr⟩ := (lastColon_iff host a b).1 h
    simp only
    split
    · rename_i hv
      exact ⟨':' :: r, e, (hval r).1 hv, fun h => by cases h⟩
    · rename_i hv
      refine ⟨[], by simp, .inl rfl, ?_⟩
      intro _ a' r' e' hp
      have := (lastColon_iff host a' (':' :: r')).2 ⟨r', rfl, e', hcol r' hp⟩
      rw [h] at this
      simp only [Option.some.injEq, Prod.mk.injEq, List.cons.injEq, true_and] at this
      exact hv ((hval r).2 (by rw [this.2]; exact hp))

/-- The hosts url.Parse returns: an opening bracket is closed at the end or before the port. -/
def Bracketed (host : List Char) : Prop := host.head? = some '[' → ∃ x port, host = '[' :: (x ++ ']' :: port) ∧ Port port

/-- C227: for every parser of URLs that brackets hosts properly, NET.HOST is the host of the URL as it is written, without its port, and NULL for a URL
that cannot be parsed or has no host; NULL for NULL. -/
theorem C227 (w : Web) (v : List Char) :
    netHost w none = .ok none ∧
    ((∀ host, ¬ IsHost w v host) → netHost w (some v) = .ok none) ∧
    (∀ host, IsHost w v host → Bracketed host → ∃ h port, host = h ++ port ∧ Port port ∧
      (port = [] → ∀ a r, host = a ++ ':' :: r → ¬ Port (':' :: r)) ∧
      netHost w (some v) = .ok (if h = [] ∨ h = ['[', ']'] then none else some h)) := by
  refine ⟨rfl, ?_, ?_⟩
  · intro h
    have hn : parseURL w v = none := Option.eq_none_iff_forall_ne_some.2 fun host e => h host ((isHost_iff w v host).2 e)
    simp only [netHost, hn]
  · intro host hh hb
    rw [isHost_iff] at hh
    obtain ⟨port, e, hp, hmax⟩ := stripPort_spec host
    refine ⟨stripPort host, port, e, hp, hmax, ?_⟩
    simp only [netHost, hh]
    by_cases hbr : host.head? = some '['
    · obtain ⟨x, port', e', hp'⟩ := hb hbr
      -- both ports are the same
      have hs : stripPort host = '[' :: (x ++ [']']) := by
        rcases hp' with rfl | ⟨r', rfl, hr'⟩
        · rcases hp with rfl | ⟨r, rfl, hr⟩
          · rw [List.append_nil] at e
            rw [← e, e']
          · exfalso
            have h1 : host.getLast? = some ']' := by rw [e', ← List.cons_append]; exact List.getLast?_concat
            rw [e, List.getLast?_append] at h1
            have h2 : (':' :: r).getLast? = some ']' := by
              cases hg : (':' :: r).getLast? with
              | none => simp at hg
              | some y => rw [hg] at h1; simpa using h1
            have h3 := List.mem_of_getLast? h2
            rcases List.mem_cons.1 h3 with h3 | h3
            · exact absurd h3 (by decide)
            · have := hr _ h3
              revert this
              decide
        · have hc : ∀ r : List Char, (∀ d ∈ r, 48 ≤ d.toNat ∧ d.toNat ≤ 57) → ':' ∉ r := by
            intro r hr hm
            have := hr _ hm
            revert this
            decide
          rcases hp with rfl | ⟨r, rfl, hr⟩
          · exact absurd (.inr ⟨r', rfl, hr'⟩) (hmax rfl ('[' :: (x ++ [']'])) r' (by rw [e']; simp))
          · have l1 := (lastColon_iff host (stripPort host) (':' :: r)).2 ⟨r, rfl, e, hc r hr⟩
            have l2 := (lastColon_iff host ('[' :: (x ++ [']'])) (':' :: r')).2 ⟨r', rfl, by rw [e']; simp, hc r' hr'⟩
            rw [l1] at l2
            simp only [Option.some.injEq, Prod.mk.injEq] at l2
            exact l2.1
      have hl : ('[' :: (x ++ [']'])).getLast? = some ']' := by rw [← List.cons_append]; exact List.getLast?_concat
      have hn : hostname host = x := by
        unfold hostname
        rw [hs, if_pos ⟨rfl, hl⟩, List.drop_succ_cons, List.drop_zero, List.dropLast_concat]
      rw [hs, if_pos hbr, hn]
      by_cases hx : x = []
      · subst hx; simp
      · rw [if_neg hx, if_neg]
        rintro (h | h)
        · cases h
        · simp only [List.cons.injEq, true_and] at h
          cases x with
          | nil => exact hx rfl
          | cons y x => simp at h
    · have hsb : (stripPort host).head? ≠ some '[' := by
        intro h
        apply hbr
        rw [e]
        cases hs : stripPort host with
        | nil => rw [hs] at h; cases h
        | cons c r => rw [hs] at h; exact h
      have hn : hostname host = stripPort host := by
        unfold hostname
        rw [if_neg (fun h => hsb h.1)]
      rw [hn, if_neg hbr]
      have : stripPort host ≠ ['[', ']'] := by
        intro h
        rw [h] at hsb
        exact hsb rfl
      by_cases hn : stripPort host = []
      · simp [hn]
      · rw [if_neg hn, if_neg (by simp [hn, this])]

/-! ### A small web -/

/-- One suffix of two labels, otherwise the last label is one; every URL is a host. -/
def demo : Web where
  parse s := some s
  trimSpace s := s
  toASCII h := some (h.map Char.toLower)
  suffix e :=
    if ["co".toList, "uk".toList].isSuffixOf (splitDot e) then ("co.uk".toList, true)
    else (dotted ((splitDot e).drop ((splitDot e).length - 1)), true)

theorem map_dot {f : Char → Char} (h : ∀ c, f c = '.' ↔ c = '.') (s : List Char) : (splitDot (s.map f)).length = (splitDot s).length := by
  induction s with
  | nil => rfl
  | cons c s ih =>
    rw [List.map_cons, splitDot, splitDot]
    by_cases hc : c = '.'
    · rw [if_pos ((h c).2 hc), if_pos hc, List.length_cons, List.length_cons, ih]
    · rw [if_neg (fun e => hc ((h c).1 e)), if_neg hc]
      cases h1 : splitDot (s.map f) with
      | nil => exact absurd h1 (splitDot_ne_nil _)
      | cons a b =>
        cases h2 : splitDot s with
        | nil => exact absurd h2 (splitDot_ne_nil _)
        | cons a' b' => rw [h1, h2] at ih; exact ih

theorem toLower_dot (c : Char) : c.toLower = '.' ↔ c = '.' := by
  constructor
  · intro h
    unfold Char.toLower at h
    split at h
    · rename_i hc
      exfalso
      have := congrArg Char.toNat h
      revert this
      have h1 := hc.1
      have h2 := hc.2
      simp only [Char.toNat]
      intro h3
      have : c.val + ('a'.val - 'A'.val) = '.'.val := UInt32.toNat_inj.1 h3
      revert this h1 h2
      generalize c.val = x
      intro h1 h2 h3
      have h1' : 65 ≤ x.toNat := h1
      have h2' : x.toNat ≤ 90 := h2
      have h3' := congrArg UInt32.toNat h3
      rw [UInt32.toNat_add] at h3'
      have e1 : ('a'.val - 'A'.val).toNat = 32 := by decide
      have e2 : ('.'.val).toNat = 46 := by decide
      omega
    · exact h
  · rintro rfl; decide

theorem demo_lawful : demo.Lawful where
  labels h e he := by
    cases he
    exact map_dot toLower_dot h
  suffix e := by
    show Ends _ _
    rw [ends_iff]
    unfold demo
    dsimp only
    split
    · rename_i hs
      obtain ⟨t, ht⟩ := List.isSuffixOf_iff_suffix.1 hs
      exact ⟨t, by rw [← ht]; rfl⟩
    · have h0 := List.length_pos_iff.2 (splitDot_ne_nil e)
      have := ((last_labels e 1 (by omega) (by omega) _).1 rfl).1
      rw [join_dotted] at this
      exact (ends_iff _ _).1 this

/-- `WWW.Example.co.uk:80`: host, suffix and domain; two dots in the middle; a suffix alone. -/
theorem demo_web :
    netHost demo (some "WWW.Example.co.uk:80".toList) = .ok (some "WWW.Example.co.uk".toList) ∧
    netPublicSuffix demo (some "WWW.Example.Co.uk:80".toList) = .ok (some "Co.uk".toList) ∧
    netRegDomain demo (some "WWW.Example.co.uk:80".toList) = .ok (some "Example.co.uk".toList) ∧
    netRegDomain demo (some "a..b.com".toList) = .ok none ∧ netRegDomain demo (some "co.uk".toList) = .ok none ∧
    netHost demo (some "[::1]:80".toList) = .ok (some "[::1]".toList) := by decide_cbv

/-- NULL. -/
theorem C228_full_false : ¬ C228_full := by
  intro h
  have := (h demo demo_lawful).2.2.2.2.1
  cases this

example : Bracketed "[::1]:80".toList := fun _ => ⟨"::1".toList, ":80".toList, rfl, .inr ⟨"80".toList, rfl, by decide⟩⟩

end Verif.NetHost
