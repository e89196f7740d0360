import Verif.Model.Schema
import Verif.Props.Codec

/-!
# C143, C149, C150: tables in SQLite
-/

namespace Verif.Schema

open Go

/-! ### Tokens of the texts -/

theorem lex_cons (st : St) (c : Char) (cs : List Char) : lex st (c :: cs) = match step st c with
    | none => none
    | some (ts, st) => (lex st cs).map fun r => ts ++ r := by
  cases st <;> rfl

/-- The tokens `ts` and then those of `o`. -/
def before (ts : List T) (o : Option (List T)) : Option (List T) := o.map fun r => ts ++ r

theorem before_before (a b : List T) (o : Option (List T)) : before a (before b o) = before (a ++ b) o := by
  cases o <;> simp [before]

theorem lexQ : ∀ (s a r : List Char), '`' ∉ s → Char.ofNat 0 ∉ s → lex (.q a) (s ++ '`' :: r) = lex (.qe (a ++ s)) r
  | [], a, r, _, _ => by
    rw [List.nil_append, lex_cons]
    simp [step]
  | c :: s, a, r, h1, h2 => by
    simp only [List.mem_cons, not_or] at h1 h2
    rw [List.cons_append, lex_cons]
    have : step (.q a) c = some ([], .q (a ++ [c])) := by
      simp only [step]
      rw [if_neg (Ne.symm h1.1), if_neg (Ne.symm h2.1)]
    rw [this]
    simp only [List.nil_append]
    rw [lexQ s _ r h1.2 h2.2]
    simp

theorem lexQe (a : List Char) (c : Char) (r : List Char) (hc : c ≠ '`') :
    lex (.qe a) (c :: r) = before [.quoted a] (lex .idle (c :: r)) := by
  rw [lex_cons, lex_cons]
  simp only [step, if_neg hc]
  cases idleStep c with
  | none => rfl
  | some p => simp [before, Function.comp_def]

theorem lexQuote (s : List Char) (c : Char) (r : List Char) (h1 : '`' ∉ s) (h2 : Char.ofNat 0 ∉ s) (hc : c ≠ '`') :
    lex .idle (quote s ++ c :: r) = before [.quoted s] (lex .idle (c :: r)) := by
  have : quote s ++ c :: r = '`' :: (s ++ '`' :: (c :: r)) := by simp [quote]
  rw [this, lex_cons]
  have h : step .idle '`' = some ([], .q []) := by decide
  rw [h]
  simp only [List.nil_append]
  rw [lexQ s [] (c :: r) h1 h2, List.nil_append, lexQe s c r hc]
  cases before [.quoted s] (lex .idle (c :: r)) <;> rfl

theorem lexWord : ∀ (s a : List Char) (c : Char) (r : List Char), (∀ x ∈ s, isIdChar x = true) → isIdChar c = false →
    lex (.word a) (s ++ c :: r) = before [.word (a ++ s)] (lex .idle (c :: r))
  | [], a, c, r, _, hc => by
    rw [List.nil_append, lex_cons, lex_cons]
    simp only [step, hc]
    cases idleStep c with
    | none => rfl
    | some p => simp [before, Function.comp_def]
  | x :: s, a, c, r, hs, hc => by
    rw [List.cons_append, lex_cons]
    have : step (.word a) x = some ([], .word (a ++ [x])) := by
      simp [step, hs x (List.mem_cons_self ..)]
    rw [this]
    simp only [List.nil_append]
    rw [lexWord s _ c r (fun y hy => hs y (List.mem_cons_of_mem _ hy)) hc]
    cases lex .idle (c :: r) <;> simp [before]

/-- The characters of a name without quotes: letters, digits, the two signs and everything beyond ASCII. -/
theorem isIdChar_iff (c : Char) : isIdChar c = true ↔ c.isAlphanum ∨ c = '_' ∨ c = '$' ∨ '\x7f' < c := by
  have e : '\x7f' < c ↔ 127 < c.toNat := by
    show (127 : UInt32) < c.val ↔ _
    exact UInt32.lt_iff_toNat_lt
  rw [e]
  simp only [isIdChar, decide_eq_true_eq, Char.isAlphanum, Char.isAlpha, Char.isUpper, Char.isLower, Char.isDigit, Bool.or_eq_true, Bool.and_eq_true, ge_iff_le, UInt32.le_iff_toNat_le]
  show _ ↔ (((65 ≤ c.toNat ∧ c.toNat ≤ 90) ∨ (97 ≤ c.toNat ∧ c.toNat ≤ 122)) ∨ (48 ≤ c.toNat ∧ c.toNat ≤ 57)) ∨ _
  constructor
  · rintro (h | h | h | h | h | h)
    · exact .inl (.inl (.inl h))
    · exact .inl (.inl (.inr h))
    · exact .inl (.inr h)
    · exact .inr (.inl h)
    · exact .inr (.inr (.inl h))
    · exact .inr (.inr (.inr (by omega)))
  · rintro (((h | h) | h) | h | h | h)
    · exact .inl h
    · exact .inr (.inl h)
    · exact .inr (.inr (.inl h))
    · exact .inr (.inr (.inr (.inl h)))
    · exact .inr (.inr (.inr (.inr (.inl h))))
    · exact .inr (.inr (.inr (.inr (.inr (by omega)))))

/-- A name SQLite takes without quotes, if it is no keyword. -/
def Bare : List Char → Prop
  | [] => False
  | x :: s => isIdStart x = true ∧ ∀ y ∈ s, isIdChar y = true

instance (s : List Char) : Decidable (Bare s) := by
  cases s <;> unfold Bare <;> infer_instance

theorem lexBare {w : List Char} (hw : Bare w) (c : Char) (r : List Char) (hc : isIdChar c = false) :
    lex .idle (w ++ c :: r) = before [.word w] (lex .idle (c :: r)) := by
  cases w with
  | nil => exact hw.elim
  | cons x s =>
    obtain ⟨h1, h2⟩ := hw
    rw [List.cons_append, lex_cons]
    have : step .idle x = some ([], .word [x]) := by
      have hn : ∀ d : Char, isIdStart d = false → x ≠ d := by
        rintro d hd rfl
        rw [h1] at hd
        simp at hd
      simp only [step, idleStep]
      rw [if_neg (by
          rintro (h | h | h | h)
          · exact hn ' ' (by decide) h
          · exact hn '\t' (by decide) h
          · exact hn '\n' (by decide) h
          · exact hn '\r' (by decide) h), if_neg (hn '(' (by decide)), if_neg (hn ')' (by decide)), if_neg (hn ',' (by decide)),
        if_neg (hn '`' (by decide)), if_pos h1]
    rw [this]
    simp only [List.nil_append]
    rw [lexWord s [x] c r h2 hc]
    cases lex .idle (c :: r) <;> simp [before]

theorem lexSp (r : List Char) : lex .idle (' ' :: r) = lex .idle r := by
  rw [lex_cons]
  have : step .idle ' ' = some ([], .idle) := by decide
  rw [this]
  show (lex .idle r).map (fun r => [] ++ r) = _
  cases lex .idle r <;> rfl

theorem lexTok {c : Char} {t : T} (h : idleStep c = some ([t], .idle)) (r : List Char) : lex .idle (c :: r) = before [t] (lex .idle r) := by
  rw [lex_cons]
  simp only [step]
  rw [h]
  rfl

/-- `x` has the tokens `ts` when a comma or parenthesis follows. -/
def Toks (x : List Char) (ts : List T) : Prop :=
  ∀ d r, d = ',' ∨ d = ')' → lex .idle (x ++ d :: r) = before ts (lex .idle (d :: r))

/-- The tokens of a column. -/
def colToks (c : ColSpec) : List T :=
  [.quoted c.name, .word (declType c.kind)] ++ (if c.notNull then [.word ['N', 'O', 'T'], .word ['N', 'U', 'L', 'L']] else [])

theorem bare_decl (k : Kind) : Bare (declType k) := by
  cases k <;> decide +kernel

theorem toks_col (c : ColSpec) (h1 : '`' ∉ c.name) (h2 : Char.ofNat 0 ∉ c.name) : Toks (colText c) (colToks c) := by
  intro d r hd
  have hd1 : isIdChar d = false := by rcases hd with rfl | rfl <;> decide
  have hn : Bare ['N', 'O', 'T'] := by decide +kernel
  have hu : Bare ['N', 'U', 'L', 'L'] := by decide +kernel
  unfold colText colToks
  split
  · have : quote c.name ++ ' ' :: declType c.kind ++ [' ', 'N', 'O', 'T', ' ', 'N', 'U', 'L', 'L'] ++ d :: r =
        quote c.name ++ ' ' :: (declType c.kind ++ ' ' :: (['N', 'O', 'T'] ++ ' ' :: (['N', 'U', 'L', 'L'] ++ d :: r))) := by simp
    rw [this, lexQuote _ _ _ h1 h2 (by decide), lexSp, lexBare (bare_decl _) _ _ (by decide), lexSp, lexBare hn _ _ (by decide), lexSp,
      lexBare hu _ _ hd1]
    simp [before_before]
  · have : quote c.name ++ ' ' :: declType c.kind ++ [] ++ d :: r = quote c.name ++ ' ' :: (declType c.kind ++ d :: r) := by simp
    rw [this, lexQuote _ _ _ h1 h2 (by decide), lexSp, lexBare (bare_decl _) _ _ hd1]
    simp [before_before]

/-- The parts with commas between them. -/
def joinT : List (List T) → List T
  | [] => []
  | [t] => t
  | t :: ts => t ++ .comma :: joinT ts

/-- Each text has the tokens beside it. -/
def AllToks : List (List Char) → List (List T) → Prop
  | [], [] => True
  | x :: xs, t :: ts => Toks x t ∧ AllToks xs ts
  | _, _ => False

theorem toks_join : ∀ {xs : List (List Char)} {ts : List (List T)}, AllToks xs ts → xs ≠ [] → ∀ r,
    lex .idle (join xs ++ ')' :: r) = before (joinT ts) (lex .idle (')' :: r))
  | [], _, _, h, _ => absurd rfl h
  | [x], [t], h, _, r => by simpa [join, joinT] using h.1 ')' r (Or.inr rfl)
  | x :: y :: xs, t :: u :: ts, h, _, r => by
    have h1 : join (x :: y :: xs) ++ ')' :: r = x ++ ',' :: (join (y :: xs) ++ ')' :: r) := by simp [join]
    rw [h1, h.1 ',' _ (Or.inl rfl), lexTok (t := .comma) (by decide), toks_join h.2 (by simp) r, before_before, before_before]
    simp [joinT]
  | [_], [], h, _, _ => h.elim
  | [_], _ :: _ :: _, h, _, _ => h.2.elim
  | _ :: _ :: _, [], h, _, _ => h.elim
  | _ :: _ :: _, [_], h, _, _ => h.2.elim

theorem allToks_append : ∀ {a : List (List Char)} {s : List (List T)} {b : List (List Char)} {t : List (List T)},
    AllToks a s → AllToks b t → AllToks (a ++ b) (s ++ t)
  | [], [], _, _, _, h => h
  | _ :: _, _ :: _, _, _, h, h' => ⟨h.1, allToks_append h.2 h'⟩
  | [], _ :: _, _, _, h, _ => h.elim
  | _ :: _, [], _, _, h, _ => h.elim

theorem allToks_map {α : Type} {f : α → List Char} {g : α → List T} : ∀ {l : List α}, (∀ a ∈ l, Toks (f a) (g a)) → AllToks (l.map f) (l.map g)
  | [], _ => trivial
  | a :: _, h => ⟨h a (List.mem_cons_self ..), allToks_map fun b hb => h b (List.mem_cons_of_mem _ hb)⟩

theorem toks_bare {w : List Char} (h : Bare w) : Toks w [.word w] := by
  intro d r hd
  exact lexBare h d r (by rcases hd with rfl | rfl <;> decide)

theorem map_id' {l : List (List Char)} : l.map (fun w => w) = l := by simp

/-- The tokens of PRIMARY KEY. -/
def pkToks (pk : List (List Char)) : List T :=
  [.word ['P', 'R', 'I', 'M', 'A', 'R', 'Y'], .word ['K', 'E', 'Y'], .lpar] ++ joinT (pk.map fun w => [.word w]) ++ [.rpar]

theorem toks_pk {pk : List (List Char)} (hne : pk ≠ []) (h : ∀ w ∈ pk, Bare w) : Toks (['P', 'R', 'I', 'M', 'A', 'R', 'Y', ' ', 'K', 'E', 'Y', ' ', '('] ++ join pk ++ [')']) (pkToks pk) := by
  intro d r hd
  have h1 : Bare ['P', 'R', 'I', 'M', 'A', 'R', 'Y'] := by decide +kernel
  have h2 : Bare ['K', 'E', 'Y'] := by decide +kernel
  have h3 : ['P', 'R', 'I', 'M', 'A', 'R', 'Y', ' ', 'K', 'E', 'Y', ' ', '('] ++ join pk ++ [')'] ++ d :: r = ['P', 'R', 'I', 'M', 'A', 'R', 'Y'] ++ ' ' :: (['K', 'E', 'Y'] ++ ' ' :: '(' :: (join pk ++ ')' :: (d :: r))) := by simp
  have hj : AllToks pk (pk.map fun w => [.word w]) := by
    have := allToks_map (f := fun w : List Char => w) (g := fun w => [T.word w]) (l := pk) fun w hw => toks_bare (h w hw)
    rwa [map_id'] at this
  rw [h3, lexBare h1 _ _ (by decide), lexSp, lexBare h2 _ _ (by decide), lexSp, lexTok (t := .lpar) (by decide), toks_join hj hne,
    lexTok (t := .rpar) (by decide)]
  simp [before_before, pkToks]

/-! ### Parts -/

/-- No comma of `ts` is outside of parentheses, and the parentheses match. -/
def Whole (ts : List T) : Prop := ∀ acc r, pieces 0 acc (ts ++ r) = pieces 0 (acc ++ ts) r

theorem pieces_join : ∀ {tss : List (List T)}, (∀ t ∈ tss, Whole t) → tss ≠ [] → pieces 0 [] (joinT tss) = tss
  | [], _, h => absurd rfl h
  | [t], h, _ => by
    have := h t (List.mem_cons_self ..) [] []
    rw [List.append_nil, List.nil_append] at this
    rw [joinT, this]
    rfl
  | t :: u :: tss, h, _ => by
    have := h t (List.mem_cons_self ..) [] (.comma :: joinT (u :: tss))
    rw [List.nil_append] at this
    rw [joinT, this]
    · have ih := pieces_join (tss := u :: tss) (fun x hx => h x (List.mem_cons_of_mem _ hx)) (by simp)
      simp [pieces, ih]
    · simp

theorem whole_col (c : ColSpec) : Whole (colToks c) := by
  intro acc r
  unfold colToks
  split <;> simp [pieces]

theorem pieces_in : ∀ (l acc r : List T), (∀ t ∈ l, t ≠ .lpar ∧ t ≠ .rpar) → pieces 1 acc (l ++ r) = pieces 1 (acc ++ l) r
  | [], acc, r, _ => by simp
  | t :: l, acc, r, h => by
    have ht := h t (List.mem_cons_self ..)
    rw [List.cons_append, pieces]
    simp only [ht.1, ht.2, if_false]
    rw [if_neg (by simp), pieces_in l _ r fun x hx => h x (List.mem_cons_of_mem _ hx)]
    simp

theorem joinT_words : ∀ (pk : List (List Char)) (t : T), t ∈ joinT (pk.map fun w => [T.word w]) → t ≠ .lpar ∧ t ≠ .rpar
  | [], t, h => by simp [joinT] at h
  | [w], t, h => by
    simp only [List.map, joinT, List.mem_singleton] at h
    subst h
    simp
  | w :: x :: pk, t, h => by
    simp only [List.map, joinT, List.cons_append, List.nil_append, List.mem_cons] at h
    rcases h with rfl | rfl | h
    · simp
    · simp
    · exact joinT_words (x :: pk) t h

theorem whole_pk (pk : List (List Char)) : Whole (pkToks pk) := by
  intro acc r
  have : pkToks pk ++ r = .word ['P', 'R', 'I', 'M', 'A', 'R', 'Y'] :: .word ['K', 'E', 'Y'] :: .lpar :: (joinT (pk.map fun w => [T.word w]) ++ .rpar :: r) := by
    simp [pkToks]
  rw [this]
  simp only [pieces]
  simp only [reduceCtorEq, false_and, if_false, if_true]
  rw [pieces_in _ _ _ (joinT_words pk)]
  simp [pieces, pkToks]

theorem whole_word (w : List Char) : Whole [.word w] := by
  intro acc r
  simp [pieces]

/-! ### Reading -/

/-- The table which a specification describes. -/
def asRead (t : TableSpec) : STable := ⟨t.ifNotExists, t.name, t.cols.map fun c => ⟨c.name, declType c.kind, c.notNull⟩, t.pk⟩

theorem colDef_toks (c : ColSpec) : colDef (colToks c) = some ⟨c.name, declType c.kind, c.notNull⟩ := by
  have h : upper ['N', 'O', 'T'] = ['N', 'O', 'T'] ∧ upper ['N', 'U', 'L', 'L'] = ['N', 'U', 'L', 'L'] := by decide +kernel
  unfold colToks
  cases hn : c.notNull with
  | true => simp [colDef, nameOf, h]
  | false => simp [colDef, nameOf]

theorem soleNames_words : ∀ {pk : List (List Char)}, (∀ w ∈ pk, upper w ∉ keywords) → soleNames (pk.map fun w => [T.word w]) = some pk
  | [], _ => rfl
  | w :: pk, h => by
    simp only [List.map, soleNames, nameOf, if_neg (h w (List.mem_cons_self ..)), soleNames_words fun x hx => h x (List.mem_cons_of_mem _ hx)]

theorem colDef_pk (pk : List (List Char)) : colDef (pkToks pk) = none := by
  unfold pkToks
  cases joinT (pk.map fun w => [T.word w]) with
  | nil => rfl
  | cons a l => cases l <;> rfl

theorem pkDef_toks {pk : List (List Char)} (hne : pk ≠ []) (h : ∀ w ∈ pk, upper w ∉ keywords) : pkDef (pkToks pk) = some pk := by
  have hu : upper ['P', 'R', 'I', 'M', 'A', 'R', 'Y'] = ['P', 'R', 'I', 'M', 'A', 'R', 'Y'] ∧ upper ['K', 'E', 'Y'] = ['K', 'E', 'Y'] := by decide +kernel
  have : pkToks pk = .word ['P', 'R', 'I', 'M', 'A', 'R', 'Y'] :: .word ['K', 'E', 'Y'] :: .lpar :: (joinT (pk.map fun w => [T.word w]) ++ [.rpar]) := by
    simp [pkToks]
  rw [this, pkDef, if_pos ⟨hu.1, hu.2, by simp⟩, List.dropLast_concat, pieces_join, soleNames_words h]
  · intro t ht
    obtain ⟨w, _, rfl⟩ := List.mem_map.1 ht
    exact whole_word w
  · simpa using hne

theorem items_cols {pk : List (List Char)} {ps : List (List T)} (hps : items ps = some ([], pk)) : ∀ (cols : List ColSpec),
    (cols ≠ [] → ps = [] ∨ ∃ p, ps = [p]) → items (cols.map colToks ++ ps) = some (cols.map (fun c => ⟨c.name, declType c.kind, c.notNull⟩), pk)
  | [], _ => by simpa using hps
  | [c], h => by
    rcases h (by simp) with rfl | ⟨p, rfl⟩
    · simp only [items, Option.some.injEq, Prod.mk.injEq, true_and] at hps
      subst hps
      simp [items, colDef_toks]
    · simp only [List.map, List.cons_append, List.nil_append]
      rw [items.eq_3 _ _ (by simp), colDef_toks, hps]
  | c :: d :: cols, h => by
    have ih := items_cols hps (d :: cols) fun _ => h (by simp)
    simp only [List.map, List.cons_append] at ih ⊢
    rw [items.eq_3 _ _ (by simp), colDef_toks, ih]

/-! ### C143 -/

/-- What the analyser checks: there is a column, no two columns have the same name ignoring case, and the primary key has
columns of the table. -/
structure Valid (t : TableSpec) : Prop where
  ne : t.cols ≠ []
  nodup : (t.cols.map fun c => upper c.name).Nodup
  key : ∀ x ∈ t.pk, x ∈ t.cols.map fun c => c.name

/-- C143: SQLite creates the table of the statement. -/
def C143_full : Prop := ∀ t, Valid t → readTable (tableText t) = some (asRead t)

/-- C143, partial: SQLite creates the table of the statement if no name has a backquote or NUL, the name of the table does not
begin with `sqlite_`, and the columns of the primary key have names which need no quotes and are no keywords. -/
theorem C143_partial (t : TableSpec) (hv : Valid t)
    (hq : ∀ n ∈ t.name :: t.cols.map (fun c => c.name), '`' ∉ n ∧ Char.ofNat 0 ∉ n)
    (hs : (upper t.name).take 7 ≠ ['S', 'Q', 'L', 'I', 'T', 'E', '_']) (hk : ∀ w ∈ t.pk, Bare w ∧ upper w ∉ keywords) :
    readTable (tableText t) = some (asRead t) := by
  let ps : List (List T) := if t.pk = [] then [] else [pkToks t.pk]
  let tss := t.cols.map colToks ++ ps
  have hcol : ∀ c ∈ t.cols, '`' ∉ c.name ∧ Char.ofNat 0 ∉ c.name := fun c hc =>
    hq _ (List.mem_cons_of_mem _ (List.mem_map.2 ⟨c, hc, rfl⟩))
  have htn := hq t.name (List.mem_cons_self ..)
  have hall : AllToks (t.cols.map colText ++ (if t.pk = [] then [] else [['P', 'R', 'I', 'M', 'A', 'R', 'Y', ' ', 'K', 'E', 'Y', ' ', '('] ++ join t.pk ++ [')']])) tss := by
    refine allToks_append (allToks_map fun c hc => toks_col c (hcol c hc).1 (hcol c hc).2) ?_
    show AllToks _ (if t.pk = [] then [] else [pkToks t.pk])
    by_cases hp : t.pk = []
    · rw [if_pos hp, if_pos hp]
      trivial
    · rw [if_neg hp, if_neg hp]
      exact ⟨toks_pk hp fun w hw => (hk w hw).1, trivial⟩
  have hne : tss ≠ [] := by
    have := hv.ne
    simp [tss, this]
  have hnet : t.cols.map colText ++ (if t.pk = [] then [] else [['P', 'R', 'I', 'M', 'A', 'R', 'Y', ' ', 'K', 'E', 'Y', ' ', '('] ++ join t.pk ++ [')']]) ≠ [] := by
    have := hv.ne
    simp [this]
  have hlast : lex .idle [')'] = some [.rpar] := by decide
  have hrest : lex .idle (quote t.name ++ ' ' :: '(' :: join (t.cols.map colText ++ (if t.pk = [] then [] else [['P', 'R', 'I', 'M', 'A', 'R', 'Y', ' ', 'K', 'E', 'Y', ' ', '('] ++ join t.pk ++ [')']])) ++ [')']) =
      some (.quoted t.name :: .lpar :: (joinT tss ++ [.rpar])) := by
    have : ∀ x : List Char, quote t.name ++ ' ' :: '(' :: x ++ [')'] = quote t.name ++ ' ' :: '(' :: (x ++ ')' :: []) := by
      intro x
      simp
    rw [this, lexQuote _ _ _ htn.1 htn.2 (by decide), lexSp, lexTok (t := .lpar) (by decide), toks_join hall hnet, hlast]
    simp [before]
  have hwhole : ∀ x ∈ tss, Whole x := by
    intro x hx
    rcases List.mem_append.1 hx with hx | hx
    · obtain ⟨c, _, rfl⟩ := List.mem_map.1 hx
      exact whole_col c
    · by_cases hp : t.pk = []
      · have : ps = [] := if_pos hp
        rw [this] at hx
        simp at hx
      · have : ps = [pkToks t.pk] := if_neg hp
        rw [this] at hx
        simp only [List.mem_singleton] at hx
        subst hx
        exact whole_pk _
  have hitems : items tss = some (t.cols.map (fun c => ⟨c.name, declType c.kind, c.notNull⟩), t.pk) := by
    by_cases hp : t.pk = []
    · have : ps = [] := if_pos hp
      refine items_cols ?_ _ fun _ => Or.inl this
      rw [this, hp]
      rfl
    · have : ps = [pkToks t.pk] := if_neg hp
      refine items_cols ?_ _ fun _ => Or.inr ⟨_, this⟩
      rw [this]
      simp [items, colDef_pk, pkDef_toks hp fun w hw => (hk w hw).2]
  have htab : ∀ b, tableRest b (.quoted t.name :: .lpar :: (joinT tss ++ [.rpar])) =
      some ⟨b, t.name, t.cols.map (fun c => ⟨c.name, declType c.kind, c.notNull⟩), t.pk⟩ := by
    intro b
    simp only [tableRest, nameOf, List.getLast?_concat, List.dropLast_concat, pieces_join hwhole hne, hitems]
    rw [if_pos]
    refine ⟨by simpa using hv.ne, by simpa [Function.comp_def] using hv.nodup, ?_, hs⟩
    intro x hx
    obtain ⟨c, hc, rfl⟩ := List.mem_map.1 (hv.key x hx)
    simp only [List.map_map, List.mem_map]
    exact ⟨c, hc, rfl⟩
  have hC : Bare ['C', 'R', 'E', 'A', 'T', 'E'] := by decide +kernel
  have hT : Bare ['T', 'A', 'B', 'L', 'E'] := by decide +kernel
  have hI : Bare ['I', 'F'] := by decide +kernel
  have hN : Bare ['N', 'O', 'T'] := by decide +kernel
  have hE : Bare ['E', 'X', 'I', 'S', 'T', 'S'] := by decide +kernel
  have huC : upper ['C', 'R', 'E', 'A', 'T', 'E'] = ['C', 'R', 'E', 'A', 'T', 'E'] := by decide +kernel
  have huT : upper ['T', 'A', 'B', 'L', 'E'] = ['T', 'A', 'B', 'L', 'E'] := by decide +kernel
  have huI : upper ['I', 'F'] = ['I', 'F'] := by decide +kernel
  have huN : upper ['N', 'O', 'T'] = ['N', 'O', 'T'] := by decide +kernel
  have huE : upper ['E', 'X', 'I', 'S', 'T', 'S'] = ['E', 'X', 'I', 'S', 'T', 'S'] := by decide +kernel
  unfold readTable tableText
  simp only []
  cases hi : t.ifNotExists with
  | true =>
    have : ∀ x : List Char, ['C', 'R', 'E', 'A', 'T', 'E', ' ', 'T', 'A', 'B', 'L', 'E', ' ', 'I', 'F', ' ', 'N', 'O', 'T', ' ', 'E', 'X', 'I', 'S', 'T', 'S', ' '] ++ quote t.name ++ x =
        ['C', 'R', 'E', 'A', 'T', 'E'] ++ ' ' :: (['T', 'A', 'B', 'L', 'E'] ++ ' ' :: (['I', 'F'] ++ ' ' :: (['N', 'O', 'T'] ++ ' ' :: (['E', 'X', 'I', 'S', 'T', 'S'] ++ ' ' :: (quote t.name ++ x))))) := by
      intro x
      simp
    rw [if_pos rfl, List.append_assoc, this, ← List.append_assoc]
    have hsub := hrest
    rw [List.append_assoc] at hsub ⊢
    rw [lexBare hC _ _ (by decide), lexSp, lexBare hT _ _ (by decide), lexSp, lexBare hI _ _ (by decide), lexSp, lexBare hN _ _ (by decide),
      lexSp, lexBare hE _ _ (by decide), lexSp, hsub]
    simp only [before, Option.map_some, List.cons_append, List.nil_append, huC, huT, huI, huN, huE, and_self, if_true]
    rw [htab]
    simp [asRead, hi]
  | false =>
    have : ∀ x : List Char, ['C', 'R', 'E', 'A', 'T', 'E', ' ', 'T', 'A', 'B', 'L', 'E', ' '] ++ quote t.name ++ x = ['C', 'R', 'E', 'A', 'T', 'E'] ++ ' ' :: (['T', 'A', 'B', 'L', 'E'] ++ ' ' :: (quote t.name ++ x)) := by
      intro x
      simp
    rw [if_neg (by simp), List.append_assoc, this, ← List.append_assoc]
    have hsub := hrest
    rw [List.append_assoc] at hsub ⊢
    rw [lexBare hC _ _ (by decide), lexSp, lexBare hT _ _ (by decide), lexSp, hsub]
    simp only [before, Option.map_some, List.cons_append, List.nil_append, huC, huT, and_self, if_true]
    rw [htab]
    simp [asRead, hi]

/-- A table with two columns and a primary key meets the hypotheses. -/
example : readTable (tableText ⟨['d', '_', 't'], [⟨['a', ' ', 'b'], .string, true⟩, ⟨['k'], .int64, false⟩], [['k']], true⟩) =
    some ⟨true, ['d', '_', 't'], [⟨['a', ' ', 'b'], ['T', 'E', 'X', 'T'], true⟩, ⟨['k'], ['I', 'N', 'T'], false⟩], [['k']]⟩ :=
  C143_partial _ ⟨by simp, by decide +kernel, by decide +kernel⟩ (by decide +kernel) (by decide +kernel) (by decide +kernel)

/-- C143: a column whose name has a backquote, as in CREATE TABLE t (`a\`b` INT64). -/
theorem C143_backquote : readTable (tableText ⟨['t'], [⟨['a', '`', 'b'], .int64, false⟩], [], false⟩) = none := by
  decide +kernel

/-- C143: two backquotes in a name are taken for one. -/
theorem C143_other : readTable (tableText ⟨['t'], [⟨['a', '`', '`', 'b'], .int64, false⟩], [], false⟩) =
    some ⟨false, ['t'], [⟨['a', '`', 'b'], ['I', 'N', 'T'], false⟩], []⟩ := by
  decide +kernel

/-- C143: a primary key on a column with the name `order`, or with a space in its name, is a syntax error. -/
theorem C143_key : readTable (tableText ⟨['t'], [⟨['o', 'r', 'd', 'e', 'r'], .int64, false⟩], [['o', 'r', 'd', 'e', 'r']], false⟩) = none ∧
    readTable (tableText ⟨['t'], [⟨['a', ' ', 'b'], .int64, false⟩], [['a', ' ', 'b']], false⟩) = none := by
  decide +kernel

theorem C143_full_false : ¬ C143_full := by
  intro h
  have := h _ (⟨by simp, by decide +kernel, by simp⟩ : Valid ⟨['t'], [⟨['a', '`', 'b'], .int64, false⟩], [], false⟩)
  rw [C143_backquote] at this
  simp at this

theorem lexQ_len : ∀ (x a s : List Char), lex (.q a) x = some [.quoted s] →
    s.length + 1 ≤ a.length + x.length ∧ (s.length + 1 = a.length + x.length → x.count '`' ≤ 1)
  | [], a, s, h => by simp [lex] at h
  | c :: x, a, s, h => by
    rw [lex_cons] at h
    simp only [step] at h
    by_cases hc : c = '`'
    · subst hc
      rw [if_pos rfl] at h
      simp only [List.nil_append] at h
      cases x with
      | nil =>
        simp only [lex, Option.map_some, Option.some.injEq, List.cons.injEq, T.quoted.injEq, and_true] at h
        subst h
        simp
      | cons d x =>
        have h : lex (.qe a) (d :: x) = some [.quoted s] := by
          cases hx : lex (.qe a) (d :: x) with
          | none => simp [hx] at h
          | some r => simpa [hx] using h
        by_cases hd : d = '`'
        · subst hd
          rw [lex_cons] at h
          simp only [step, if_true, List.nil_append] at h
          have h : lex (.q (a ++ ['`'])) x = some [.quoted s] := by
            cases hx : lex (.q (a ++ ['`'])) x with
            | none => simp [hx] at h
            | some r => simpa [hx] using h
          obtain ⟨h1, _⟩ := lexQ_len x _ s h
          simp only [List.length_append, List.length_cons, List.length_nil] at h1 ⊢
          exact ⟨by omega, fun h => by omega⟩
        · rw [lexQe _ _ _ hd] at h
          cases hx : lex .idle (d :: x) with
          | none => simp [hx, before] at h
          | some r =>
            rw [hx] at h
            simp only [before, Option.map_some, List.cons_append, List.nil_append, Option.some.injEq, List.cons.injEq, T.quoted.injEq] at h
            obtain ⟨rfl, _⟩ := h
            simp only [List.length_cons]
            exact ⟨by omega, fun h => by omega⟩
    · rw [if_neg hc] at h
      by_cases h0 : c = Char.ofNat 0
      · rw [if_pos h0] at h
        simp at h
      · rw [if_neg h0] at h
        · simp only [List.nil_append] at h
          have h : lex (.q (a ++ [c])) x = some [.quoted s] := by
            cases hx : lex (.q (a ++ [c])) x with
            | none => simp [hx] at h
            | some r => simpa [hx] using h
          obtain ⟨h1, h2⟩ := lexQ_len x _ s h
          simp only [List.length_append, List.length_cons, List.length_nil] at h1 h2 ⊢
          refine ⟨by omega, fun h => ?_⟩
          rw [List.count_cons_of_ne (by simpa using hc)]
          exact h2 (by omega)

theorem lexQ_nul : ∀ (s a : List Char) (t : List T), lex (.q a) (s ++ ['`']) = some t → '`' ∉ s → Char.ofNat 0 ∉ s
  | [], _, _, _, _ => by simp
  | c :: s, a, t, h, hq => by
    simp only [List.mem_cons, not_or] at hq ⊢
    rw [List.cons_append, lex_cons] at h
    simp only [step] at h
    rw [if_neg (Ne.symm hq.1)] at h
    by_cases hc : c = Char.ofNat 0
    · rw [if_pos hc] at h
      simp at h
    · rw [if_neg hc] at h
      simp only [List.nil_append] at h
      cases hx : lex (.q (a ++ [c])) (s ++ ['`']) with
      | none => simp [hx] at h
      | some r => exact ⟨Ne.symm hc, lexQ_nul s _ r hx hq.2⟩

/-- C143: a name in backquotes is read as this name exactly when it has no backquote and no NUL. -/
theorem C143_quote (s : List Char) : lex .idle (quote s) = some [.quoted s] ↔ '`' ∉ s ∧ Char.ofNat 0 ∉ s := by
  have h0 : lex .idle (quote s) = lex (.q []) (s ++ ['`']) := by
    rw [quote, lex_cons]
    have : step .idle '`' = some ([], .q []) := by decide
    rw [this]
    show (lex (.q []) (s ++ ['`'])).map (fun r => [] ++ r) = _
    cases lex (.q []) (s ++ ['`']) <;> rfl
  rw [h0]
  constructor
  · intro h
    have h1 := (lexQ_len _ _ _ h).2 (by simp)
    have h2 : '`' ∉ s := by
      rw [List.count_append] at h1
      have : [('`' : Char)].count '`' = 1 := by decide
      exact List.count_eq_zero.1 (by omega)
    exact ⟨h2, lexQ_nul s [] _ h h2⟩
  · rintro ⟨h1, h2⟩
    rw [lexQ s [] [] h1 h2]
    rfl

/-! ### C149 -/

open Verif.Val Verif.Codec in
/-- Is `v` a value of a column of this kind? -/
def HasKind : Val → Kind → Prop
  | .null, _ => True
  | .int _, k => k = .int64
  | .bool _, k => k = .bool
  | .str _, k => k = .string
  | .bytes _, k => k = .bytes
  | .num _ big, k => k = if big then .bignumeric else .numeric
  | .time t _, k => k = match t with | .date => .date | .datetime => .datetime | .time => .time | .timestamp => .timestamp
  | .arr _, k => k = .array
  | .struct _ _, k => k = .struct

theorem aff_kind : affinity (declType .int64) = .integer ∧ affinity (declType .bool) = .numeric ∧ affinity (declType .string) = .text ∧
    affinity (declType .bytes) = .blob ∧ affinity (declType .double) = .real ∧ affinity (declType .json) = .numeric ∧
    (∀ k ∈ [Kind.bignumeric, .numeric, .date, .datetime, .time, .timestamp, .array, .struct, .interval], affinity (declType k) = .text) := by
  decide +kernel

open Verif.Val Verif.Codec in
/-- C149: a column keeps every value of its type in its stored form, whatever texts SQLite takes for numbers.  Values read from the
column are therefore those which C19 speaks of. -/
theorem C149 (num : List Char → Option Stored) (v : Val) (k : Kind) (h : HasKind v k) :
    applyAff num (affinity (declType k)) (store (encode v)) = store (encode v) := by
  obtain ⟨h1, h2, h3, h4, _, _, h5⟩ := aff_kind
  cases v with
  | null => cases hk : affinity (declType k) <;> simp [encode, store, applyAff]
  | int i =>
    simp only [HasKind] at h
    subst h
    rw [h1]
    rfl
  | bool b =>
    simp only [HasKind] at h
    subst h
    rw [h2]
    rfl
  | str s =>
    simp only [HasKind] at h
    subst h
    rw [h3]
    rfl
  | bytes b =>
    simp only [HasKind] at h
    subst h
    rw [h4]
    rfl
  | num r big =>
    simp only [HasKind] at h
    subst h
    rw [h5 _ (by cases big <;> simp)]
    simp [encode, store, applyAff]
  | time t ns =>
    simp only [HasKind] at h
    subst h
    rw [h5 _ (by cases t <;> simp)]
    simp [encode, store, applyAff]
  | arr vs =>
    simp only [HasKind] at h
    subst h
    rw [h5 _ (by simp)]
    simp [encode, store, applyAff]
  | struct ks vs =>
    simp only [HasKind] at h
    subst h
    rw [h5 _ (by simp)]
    simp [encode, store, applyAff]

/-- The type matters: a text like `12` would become a number in a column of type INT. -/
example : applyAff (fun s => (parseInt64 s).map .int) (affinity (declType .int64)) (.text ['1', '2']) = .int 12 := by
  decide +kernel

/-! ### C150 -/

/-- C150: in auto index mode, SQLite takes the statements which create the indexes of a table for what they should be, if it takes
the statement which creates the table. -/
def C150_full : Prop := ∀ t path, Valid t → readTable (tableText t) = some (asRead t) →
  ∀ c ∈ t.cols, autoIndexable c.kind = true → readIndex (indexText c.name path t.name) = some (indexName c.name path, t.name, c.name)

theorem bare_index {col path : List Char} (h : ∀ x ∈ col ++ path, isIdChar x = true) : Bare (indexName col path) := by
  refine ⟨by decide, ?_⟩
  intro y hy
  have hp : ∀ x ∈ ['e', 't', 'a', 's', 'q', 'l', 'i', 't', 'e', '_', 'a', 'u', 't', 'o', 'i', 'n', 'd', 'e', 'x', '_'], isIdChar x = true := by decide +kernel
  rcases List.mem_append.1 hy with hy | hy
  · rcases List.mem_append.1 hy with hy | hy
    · exact hp y hy
    · exact h y (List.mem_append_left _ hy)
  · rcases List.mem_cons.1 hy with rfl | hy
    · decide
    · exact h y (List.mem_append_right _ hy)

theorem upper_take (s : List Char) (n : Nat) : (upper s).take n = upper (s.take n) := by
  simp [upper, List.map_take]

theorem no_keyword {col path : List Char} : upper (indexName col path) ∉ keywords := by
  intro h
  have h1 : (upper (indexName col path)).take 3 = ['Z', 'E', 'T'] := by
    rw [upper_take]
    show upper ['z', 'e', 't'] = _
    decide +kernel
  have h2 : ∀ k ∈ keywords, k.take 3 ≠ ['Z', 'E', 'T'] := by decide +kernel
  exact h2 _ h h1

/-- C150, partial: they are if the names of the path and of the columns to be indexed only have letters, digits, `_` and `$`, and no
name has a backquote or NUL. -/
theorem C150_partial (t : TableSpec) (path : List Char) (hq : ∀ n ∈ t.name :: t.cols.map (fun c => c.name), '`' ∉ n ∧ Char.ofNat 0 ∉ n)
    (hp : ∀ x ∈ path, isIdChar x = true) (c : ColSpec) (hc : c ∈ t.cols) (hn : ∀ x ∈ c.name, isIdChar x = true) :
    readIndex (indexText c.name path t.name) = some (indexName c.name path, t.name, c.name) := by
  have hC : Bare ['C', 'R', 'E', 'A', 'T', 'E'] := by decide +kernel
  have hT : Bare ['I', 'N', 'D', 'E', 'X'] := by decide +kernel
  have hI : Bare ['I', 'F'] := by decide +kernel
  have hN : Bare ['N', 'O', 'T'] := by decide +kernel
  have hE : Bare ['E', 'X', 'I', 'S', 'T', 'S'] := by decide +kernel
  have hO : Bare ['O', 'N'] := by decide +kernel
  have huC : upper ['C', 'R', 'E', 'A', 'T', 'E'] = ['C', 'R', 'E', 'A', 'T', 'E'] := by decide +kernel
  have huT : upper ['I', 'N', 'D', 'E', 'X'] = ['I', 'N', 'D', 'E', 'X'] := by decide +kernel
  have huI : upper ['I', 'F'] = ['I', 'F'] := by decide +kernel
  have huN : upper ['N', 'O', 'T'] = ['N', 'O', 'T'] := by decide +kernel
  have huE : upper ['E', 'X', 'I', 'S', 'T', 'S'] = ['E', 'X', 'I', 'S', 'T', 'S'] := by decide +kernel
  have huO : upper ['O', 'N'] = ['O', 'N'] := by decide +kernel
  have hcq := hq c.name (List.mem_cons_of_mem _ (List.mem_map.2 ⟨c, hc, rfl⟩))
  have htq := hq t.name (List.mem_cons_self ..)
  have hb : Bare (indexName c.name path) := bare_index fun x hx => by
    rcases List.mem_append.1 hx with hx | hx
    · exact hn x hx
    · exact hp x hx
  have hlast : lex .idle [')'] = some [.rpar] := by decide
  have : indexText c.name path t.name = ['C', 'R', 'E', 'A', 'T', 'E'] ++ ' ' :: (['I', 'N', 'D', 'E', 'X'] ++ ' ' :: (['I', 'F'] ++ ' ' :: (['N', 'O', 'T'] ++ ' ' :: (['E', 'X', 'I', 'S', 'T', 'S'] ++ ' ' ::
      (indexName c.name path ++ ' ' :: (['O', 'N'] ++ ' ' :: (quote t.name ++ '(' :: (quote c.name ++ ')' :: [])))))))) := by
    simp [indexText]
  unfold readIndex
  rw [this, lexBare hC _ _ (by decide), lexSp, lexBare hT _ _ (by decide), lexSp, lexBare hI _ _ (by decide), lexSp, lexBare hN _ _ (by decide),
    lexSp, lexBare hE _ _ (by decide), lexSp, lexBare hb _ _ (by decide), lexSp, lexBare hO _ _ (by decide), lexSp,
    lexQuote _ _ _ htq.1 htq.2 (by decide), lexTok (t := .lpar) (by decide), lexQuote _ _ _ hcq.1 hcq.2 (by decide), hlast]
  simp [before, huC, huT, huI, huN, huE, huO, nameOf, no_keyword]

/-- C150: in a project `a-b`, creating a table fails. -/
theorem C150_project : readTable (tableText ⟨['a', '-', 'b', '_', 't'], [⟨['c'], .int64, false⟩], [], false⟩) =
      some (asRead ⟨['a', '-', 'b', '_', 't'], [⟨['c'], .int64, false⟩], [], false⟩) ∧
    readIndex (indexText ['c'] ['a', '-', 'b', '_', 't'] ['a', '-', 'b', '_', 't']) = none := by
  decide +kernel

theorem C150_full_false : ¬ C150_full := by
  intro h
  have := h ⟨['a', '-', 'b', '_', 't'], [⟨['c'], .int64, false⟩], [], false⟩ ['a', '-', 'b', '_', 't'] ⟨by simp, by decide +kernel, by simp⟩
    C150_project.1 ⟨['c'], .int64, false⟩ (by simp) rfl
  rw [C150_project.2] at this
  simp at this

example : readIndex (indexText ['c'] ['d', '_', 't'] ['d', '_', 't']) = some (indexName ['c'] ['d', '_', 't'], ['d', '_', 't'], ['c']) :=
  C150_partial ⟨['d', '_', 't'], [⟨['c'], .int64, false⟩], [], false⟩ _ (by decide) (by decide) ⟨['c'], .int64, false⟩ (by simp) (by decide)

end Verif.Schema
