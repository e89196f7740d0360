import Verif.Model.WithText
import Verif.Props.WildcardText

/-!
# C280: the names of WITH
-/

namespace Verif.WithText

open Schema WildcardText

/-- C280: an entry of WITH may have any name. -/
def C280_full : Prop := ∀ (first : Bool) (name : List Char), name ≠ [] → '`' ∉ name → Char.ofNat 0 ∉ name → readHead (head first name) = some name

/-- The characters of a token. -/
def size : T → Nat
  | .word w => w.length
  | .quoted s => s.length + 2
  | _ => 1

/-- The characters of all tokens. -/
def sizes : List T → Nat
  | [] => 0
  | t :: ts => size t + sizes ts

/-- The characters read of a token. -/
def got : St → Nat
  | .idle => 0
  | .word a => a.length
  | .q a => a.length + 1
  | .qe a => a.length + 2

theorem sizes_append : ∀ (a b : List T), sizes (a ++ b) = sizes a + sizes b
  | [], b => by simp [sizes]
  | t :: a, b => by simp [sizes, sizes_append a b, Nat.add_assoc]

theorem idle_size {c : Char} {r : List T × St} (h : idleStep c = some r) : sizes r.1 + got r.2 ≤ 1 := by
  unfold idleStep at h
  repeat' split at h
  all_goals cases h
  all_goals simp [sizes, size, got]

theorem step_size {st : St} {c : Char} {r : List T × St} (h : step st c = some r) : sizes r.1 + got r.2 ≤ got st + 1 := by
  cases st with
  | idle => simpa [got] using idle_size h
  | word a =>
    simp only [step] at h
    split at h
    · cases h; simp [sizes, got]
    · obtain ⟨x, hx, rfl⟩ := Option.map_eq_some_iff.1 h
      have := idle_size hx
      simp only [sizes, size]
      show _ + got x.2 ≤ _
      simp only [show got (.word a) = a.length from rfl]
      omega
  | q a =>
    simp only [step] at h
    repeat' split at h
    all_goals cases h
    all_goals simp [sizes, got]
  | qe a =>
    simp only [step] at h
    split at h
    · cases h; simp [sizes, got]
    · obtain ⟨x, hx, rfl⟩ := Option.map_eq_some_iff.1 h
      have := idle_size hx
      simp only [sizes, size]
      show _ + got x.2 ≤ _
      simp only [show got (.qe a) = a.length + 2 from rfl]
      omega

theorem lex_size : ∀ (x : List Char) {st : St} {ts : List T}, lex st (x ++ [' ', '(']) = some ts → sizes ts ≤ got st + x.length + 1
  | [], st, ts, h => by
    have h0 : idleStep ' ' = some ([], .idle) := by decide
    have h1 : idleStep '(' = some ([.lpar], .idle) := by decide
    have h2 : isIdChar ' ' = false := by decide
    cases st with
    | q a => simp [lex_cons, step, lex, show (' ' : Char) ≠ '`' by decide] at h
    | _ =>
      simp [lex_cons, step, h0, h1, h2, lex] at h
      subst h
      simp [sizes, size, got]
  | c :: x, st, ts, h => by
    rw [List.cons_append, lex_cons] at h
    cases hs : step st c with
    | none => rw [hs] at h; cases h
    | some r =>
      rw [hs] at h
      obtain ⟨us, hu, rfl⟩ := Option.map_eq_some_iff.1 h
      have h1 := lex_size x hu
      have h2 := step_size hs
      rw [sizes_append, List.length_cons]
      omega

/-- A word that is being read is a bare name so far. -/
def Good : St → Prop
  | .word a => Bare a
  | _ => True

theorem idle_good {c : Char} {r : List T × St} (h : idleStep c = some r) : (∀ w, .word w ∉ r.1) ∧ Good r.2 := by
  unfold idleStep at h
  repeat' split at h
  all_goals cases h
  all_goals simp_all [Good, Bare]

theorem step_good {st : St} {c : Char} {r : List T × St} (hg : Good st) (h : step st c = some r) : (∀ w, .word w ∈ r.1 → Bare w) ∧ Good r.2 := by
  cases st with
  | idle => exact ⟨fun w hw => absurd hw ((idle_good h).1 w), (idle_good h).2⟩
  | word a =>
    simp only [step] at h
    split at h
    · rename_i hc
      cases h
      refine ⟨by simp, ?_⟩
      cases a with
      | nil => exact hg.elim
      | cons x s =>
        refine ⟨hg.1, fun y hy => ?_⟩
        rcases List.mem_append.1 hy with hy | hy
        · exact hg.2 y hy
        · simp only [List.mem_singleton] at hy; subst hy; exact hc
    · obtain ⟨x, hx, rfl⟩ := Option.map_eq_some_iff.1 h
      refine ⟨fun w hw => ?_, (idle_good hx).2⟩
      rcases List.mem_cons.1 hw with hw | hw
      · cases hw; exact hg
      · exact absurd hw ((idle_good hx).1 w)
  | q a =>
    simp only [step] at h
    repeat' split at h
    all_goals cases h
    all_goals simp [Good]
  | qe a =>
    simp only [step] at h
    split at h
    · cases h; simp [Good]
    · obtain ⟨x, hx, rfl⟩ := Option.map_eq_some_iff.1 h
      refine ⟨fun w hw => ?_, (idle_good hx).2⟩
      rcases List.mem_cons.1 hw with hw | hw
      · cases hw
      · exact absurd hw ((idle_good hx).1 w)

theorem lex_good : ∀ (x : List Char) {st : St} {ts : List T}, Good st → lex st x = some ts → ∀ w, .word w ∈ ts → Bare w
  | [], st, ts, hg, h, w, hw => by
    cases st <;> simp only [lex] at h <;> cases h
    · cases hw
    · simp only [List.mem_singleton] at hw; cases hw; exact hg
    · simp at hw
  | c :: x, st, ts, hg, h, w, hw => by
    rw [lex_cons] at h
    cases hs : step st c with
    | none => rw [hs] at h; cases h
    | some r =>
      rw [hs] at h
      obtain ⟨us, hu, rfl⟩ := Option.map_eq_some_iff.1 h
      have h1 := step_good hg hs
      rcases List.mem_append.1 hw with hw | hw
      · exact h1.1 w hw
      · exact lex_good x h1.2 hu w hw

/-- What follows WITH or the comma. -/
def rest (name : List Char) : List Char := name ++ [' ', 'A', 'S', ' ', '(']

theorem lex_rest {name : List Char} (h : Bare name) : lex .idle (rest name) = some [.word name, .word ['A', 'S'], .lpar] := by
  have e : rest name = name ++ ' ' :: (['A', 'S'] ++ ' ' :: ['(']) := by simp [rest]
  rw [e, lexBare h _ _ (by decide), lexSp, lexBare (by decide +kernel) _ _ (by decide), lexSp, lexTok (t := .lpar) (by decide)]
  rfl

theorem readHead_first (name : List Char) : readHead (head true name) = match lex .idle (rest name) with
    | some ts => readEntry (skipRecursive ts)
    | none => none := by
  have e : head true name = ['W', 'I', 'T', 'H'] ++ ' ' :: rest name := by simp [head, rest]
  have hu : upper ['W', 'I', 'T', 'H'] = ['W', 'I', 'T', 'H'] := by decide +kernel
  unfold readHead
  rw [e, lexBare (by decide +kernel) _ _ (by decide), lexSp]
  cases lex .idle (rest name) with
  | none => rfl
  | some ts => simp [before, hu]

theorem readHead_later (name : List Char) : readHead (head false name) = match lex .idle (rest name) with
    | some ts => readEntry ts
    | none => none := by
  have e : head false name = ',' :: ' ' :: rest name := by simp [head, rest]
  unfold readHead
  rw [e, lexTok (t := .comma) (by decide), lexSp]
  cases lex .idle (rest name) with
  | none => rfl
  | some ts => simp [before]

theorem readEntry_name {ts : List T} {name : List Char} (h : readEntry ts = some name) (hs : sizes ts ≤ name.length + 4) :
    .word name ∈ ts ∧ ¬ reserved (upper name) ∧ ts.head? = some (.word name) := by
  unfold readEntry at h
  split at h
  · rename_i t a
    split at h
    · rename_i ha
      have hl : a.length = 2 := by
        have := congrArg List.length ha
        simpa [upper] using this
      cases t with
      | quoted s =>
        simp only [aliasOf, Option.some.injEq] at h
        subst h
        simp only [sizes, size] at hs
        omega
      | word w =>
        simp only [aliasOf] at h
        split at h
        · cases h
        · rename_i hr
          cases h
          exact ⟨by simp, hr, rfl⟩
      | _ => simp [aliasOf] at h
    · cases h
  · cases h

theorem skip_sizes (ts : List T) : sizes (skipRecursive ts) ≤ sizes ts ∧ ∀ t ∈ skipRecursive ts, t ∈ ts := by
  unfold skipRecursive
  repeat' split
  · refine ⟨by simp [sizes], fun t ht => by simp [ht]⟩
  · exact ⟨Nat.le_refl _, fun t ht => ht⟩
  · exact ⟨Nat.le_refl _, fun t ht => ht⟩

/-- **C280** exactly: the entry has its name if and only if that is a word which SQLite does not reserve, and not RECURSIVE for the first
entry.  Otherwise the query is an error or reads another name. -/
theorem C280_iff (first : Bool) (name : List Char) : readHead (head first name) = some name ↔
    Bare name ∧ ¬ reserved (upper name) ∧ (first = true → upper name ≠ ['R', 'E', 'C', 'U', 'R', 'S', 'I', 'V', 'E']) := by
  have hu : upper ['A', 'S'] = ['A', 'S'] := by decide +kernel
  have hsz : ∀ {ts}, lex .idle (rest name) = some ts → sizes ts ≤ name.length + 4 := by
    intro ts h
    have e : rest name = (name ++ [' ', 'A', 'S']) ++ [' ', '('] := by simp [rest]
    rw [e] at h
    have := lex_size _ h
    simp only [got, List.length_append, List.length_cons, List.length_nil] at this
    omega
  constructor
  · intro h
    cases first with
    | false =>
      rw [readHead_later] at h
      cases hl : lex .idle (rest name) with
      | none => rw [hl] at h; cases h
      | some ts =>
        rw [hl] at h
        have h1 := readEntry_name h (hsz hl)
        exact ⟨lex_good _ (by trivial) hl _ h1.1, h1.2.1, fun h => by cases h⟩
    | true =>
      rw [readHead_first] at h
      cases hl : lex .idle (rest name) with
      | none => rw [hl] at h; cases h
      | some ts =>
        rw [hl] at h
        have hk := skip_sizes ts
        have h1 := readEntry_name h (Nat.le_trans hk.1 (hsz hl))
        have hb := lex_good _ (by trivial) hl _ (hk.2 _ h1.1)
        refine ⟨hb, h1.2.1, fun _ hr => ?_⟩
        rw [lex_rest hb] at hl
        cases hl
        simp [skipRecursive, hr, readEntry] at h
  · rintro ⟨hb, hr, hf⟩
    cases first with
    | false => rw [readHead_later, lex_rest hb]; simp [readEntry, hu, aliasOf, hr]
    | true => rw [readHead_first, lex_rest hb]; simp [skipRecursive, hf rfl, readEntry, hu, aliasOf, hr]

/-- An entry called by a word is refused if SQLite reserves the word. -/
theorem C280_reserved (first : Bool) (name : List Char) (hb : Bare name) (h : reserved (upper name)) : readHead (head first name) = none := by
  have hu : upper ['A', 'S'] = ['A', 'S'] := by decide +kernel
  cases first with
  | false => rw [readHead_later, lex_rest hb]; simp [readEntry, hu, aliasOf, h]
  | true =>
    have hn : upper name ≠ ['R', 'E', 'C', 'U', 'R', 'S', 'I', 'V', 'E'] := by
      intro e
      rw [e] at h
      revert h
      decide +kernel
    rw [readHead_first, lex_rest hb]
    simp [skipRecursive, hn, readEntry, hu, aliasOf, h]

/-- `WITH values AS (…)`. -/
theorem C280_full_false : ¬ C280_full := by
  intro h
  have h1 := h true ['v', 'a', 'l', 'u', 'e', 's'] (by simp) (by decide) (by decide)
  rw [C280_reserved true _ (by decide +kernel) (by decide +kernel)] at h1
  cases h1

example : Bare ['t', '$', '2'] ∧ ¬ reserved (upper ['t', '$', '2']) ∧ upper ['t', '$', '2'] ≠ ['R', 'E', 'C', 'U', 'R', 'S', 'I', 'V', 'E'] := by decide +kernel
example : Bare ['i', 'n', 'd', 'e', 'x'] ∧ reserved (upper ['i', 'n', 'd', 'e', 'x']) := by decide +kernel
example : ¬ Bare ['m', 'y', '-', 'd', 'a', 't', 'a'] := by decide +kernel

end Verif.WithText
