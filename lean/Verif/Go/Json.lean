import Verif.Go.Strconv
import Verif.Go.Strings
import Verif.Go.Hex

/-!
# JSON text of the shapes the value codec uses (github.com/goccy/go-json)

Part of the trusted model.  `json.Marshal` is modelled on strings, lists of scalars and the two
objects `{"header":…,"body":…}` and `{"keys":…,"values":…}`.  `json.Unmarshal` is modelled on the
compact text `json.Marshal` writes: no white space, fields in that order, integers without exponent,
no surrogate escapes; on other text the model reports an error where the library may accept it.
-/

namespace Verif.Go.Json

open Verif.Go

/-- A JSON scalar. -/
inductive Scalar where
  | null
  | bool (b : Bool)
  | num (i : Int)
  | str (s : List Char)
  deriving DecidableEq, Repr

/-- Four hexadecimal digits. -/
def hex4 (n : Nat) : List Char := [hexDigit (n / 4096 % 16), hexDigit (n / 256 % 16), hexDigit (n / 16 % 16), hexDigit (n % 16)]

/-- The characters written as `\uXXXX`: control characters, `<`, `>`, `&`, U+2028 and U+2029. -/
def unicodeEscaped (c : Char) : Bool :=
  decide (c.toNat < 32) || c = '<' || c = '>' || c = '&' || decide (c.toNat = 8232) || decide (c.toNat = 8233)

/-- One character inside a JSON string. -/
def esc (c : Char) : List Char :=
  if c = '"' then ['\\', '"']
  else if c = '\\' then ['\\', '\\']
  else if c = '\n' then ['\\', 'n']
  else if c = '\r' then ['\\', 'r']
  else if c = '\t' then ['\\', 't']
  else if unicodeEscaped c then '\\' :: 'u' :: hex4 c.toNat
  else [c]

/-- A JSON string. -/
def quote (s : List Char) : List Char := '"' :: (s.flatMap esc ++ ['"'])

/-- The character of a one-letter escape. -/
def unesc (e : Char) : Option Char :=
  if e = '"' ∨ e = '\\' ∨ e = '/' then some e
  else if e = 'n' then some '\n'
  else if e = 'r' then some '\r'
  else if e = 't' then some '\t'
  else if e = 'b' then some (Char.ofNat 8)
  else if e = 'f' then some (Char.ofNat 12)
  else none

/-- The character of a `\uXXXX` escape. -/
def unhex4 (a b c d : Char) : Option Char :=
  match hexVal a, hexVal b, hexVal c, hexVal d with
  | some a, some b, some c, some d => some (Char.ofNat (((a * 16 + b) * 16 + c) * 16 + d))
  | _, _, _, _ => none

/-- What follows a backslash: the character and the rest. -/
def escape : List Char → Option (Char × List Char)
  | [] => none
  | e :: s =>
    if e = 'u' then
      match s with
      | a :: b :: c :: d :: t => (unhex4 a b c d).map fun x => (x, t)
      | _ => none
    else (unesc e).map fun x => (x, s)

/-- The rest of a JSON string after the opening quote: its characters and what follows the closing quote. -/
def unquote : Nat → List Char → Option (List Char × List Char)
  | 0, _ => none
  | n + 1, s => match s with
    | [] => none
    | c :: s =>
      if c = '"' then some ([], s)
      else if c = '\\' then
        match escape s with
        | some (c, s) => (unquote n s).map fun x => (c :: x.1, x.2)
        | none => none
      else (unquote n s).map fun x => (c :: x.1, x.2)

/-- A scalar. -/
def scalar : Scalar → List Char
  | .null => ['n', 'u', 'l', 'l']
  | .bool true => ['t', 'r', 'u', 'e']
  | .bool false => ['f', 'a', 'l', 's', 'e']
  | .num i => decInt i
  | .str s => quote s

/-- Skip a fixed text. -/
def skip (p s : List Char) : Option (List Char) := if p.isPrefixOf s then some (s.drop p.length) else none

/-- A character of an integer. -/
def numChar (c : Char) : Bool := c = '-' || decide (48 ≤ c.toNat ∧ c.toNat ≤ 57)

/-- Read a scalar: the scalar and what follows. -/
def parseScalar (s : List Char) : Option (Scalar × List Char) :=
  match s with
  | [] => none
  | c :: r =>
    if c = '"' then (unquote s.length r).map fun x => (.str x.1, x.2)
    else if c = 'n' then (skip ['n', 'u', 'l', 'l'] s).map fun t => (.null, t)
    else if c = 't' then (skip ['t', 'r', 'u', 'e'] s).map fun t => (.bool true, t)
    else if c = 'f' then (skip ['f', 'a', 'l', 's', 'e'] s).map fun t => (.bool false, t)
    else (parseSigned (s.takeWhile numChar)).map fun i => (.num i, s.dropWhile numChar)

/-- A list of scalars. -/
def list (xs : List Scalar) : List Char := '[' :: (join [','] (xs.map scalar) ++ [']'])

/-- The items of a list after the bracket or a comma. -/
def parseItems : Nat → List Char → Option (List Scalar × List Char)
  | 0, _ => none
  | n + 1, s => match parseScalar s with
    | some (x, c :: t) =>
      if c = ',' then (parseItems n t).map fun r => (x :: r.1, r.2)
      else if c = ']' then some ([x], t)
      else none
    | _ => none

/-- Read a list of scalars; `null` is the nil slice. -/
def parseList (s : List Char) : Option (List Scalar × List Char) :=
  match s with
  | [] => none
  | c :: t =>
    if c = '[' then
      match t with
      | [] => none
      | d :: u => if d = ']' then some ([], u) else parseItems t.length t
    else (skip ['n', 'u', 'l', 'l'] s).map fun t => ([], t)

/-- `{"header":`, `,"body":`, `{"keys":` and `,"values":` -/
def headerKey : List Char := ['{', '"', 'h', 'e', 'a', 'd', 'e', 'r', '"', ':', '"']
@[inherit_doc headerKey] def bodyKey : List Char := [',', '"', 'b', 'o', 'd', 'y', '"', ':', '"']
@[inherit_doc headerKey] def keysKey : List Char := ['{', '"', 'k', 'e', 'y', 's', '"', ':']
@[inherit_doc headerKey] def valuesKey : List Char := [',', '"', 'v', 'a', 'l', 'u', 'e', 's', '"', ':']

/-- json.Marshal of a ValueLayout (the opening quotes are in the keys). -/
def layout (header body : List Char) : List Char :=
  headerKey ++ (header.flatMap esc ++ '"' :: (bodyKey ++ (body.flatMap esc ++ ['"', '}'])))

/-- json.Unmarshal into a ValueLayout. -/
def parseLayout (s : List Char) : Option (List Char × List Char) :=
  match skip headerKey s with
  | none => none
  | some s => match unquote (s.length + 1) s with
    | none => none
    | some (h, s) => match skip bodyKey s with
      | none => none
      | some s => match unquote (s.length + 1) s with
        | some (b, ['}']) => some (h, b)
        | _ => none

/-- json.Marshal of a StructValueLayout; the keys of an empty struct are a nil slice. -/
def structLayout (keys : List (List Char)) (vals : List Scalar) : List Char :=
  keysKey ++ ((if keys = [] then ['n', 'u', 'l', 'l'] else list (keys.map .str)) ++ (valuesKey ++ (list vals ++ ['}'])))

/-- Strings only; `null` leaves the empty string. -/
def strings : List Scalar → Option (List (List Char))
  | [] => some []
  | .str s :: xs => (strings xs).map (s :: ·)
  | .null :: xs => (strings xs).map ([] :: ·)
  | _ => none

/-- json.Unmarshal into a StructValueLayout. -/
def parseStruct (s : List Char) : Option (List (List Char) × List Scalar) :=
  match skip keysKey s with
  | none => none
  | some s => match parseList s with
    | none => none
    | some (ks, s) => match skip valuesKey s with
      | none => none
      | some s => match parseList s with
        | some (vs, ['}']) => (strings ks).map fun ks => (ks, vs)
        | _ => none

/-! ### Reading what was written -/

theorem skip_append (p s : List Char) : skip p (p ++ s) = some s := by
  unfold skip
  rw [if_pos (by simp)]
  simp

private theorem hexDigits (n : Nat) : hexVal (hexDigit (n % 16)) = some (n % 16) :=
  hexVal_digit _ (Nat.mod_lt _ (by omega))

theorem unhex4_hex4 {c : Char} (h : c.toNat < 65536) :
    unhex4 (hexDigit (c.toNat / 4096 % 16)) (hexDigit (c.toNat / 256 % 16)) (hexDigit (c.toNat / 16 % 16)) (hexDigit (c.toNat % 16)) = some c := by
  unfold unhex4
  rw [hexDigits, hexDigits, hexDigits, hexDigits]
  simp only
  have : ((c.toNat / 4096 % 16 * 16 + c.toNat / 256 % 16) * 16 + c.toNat / 16 % 16) * 16 + c.toNat % 16 = c.toNat := by omega
  rw [this, Char.ofNat_toNat]

theorem unicodeEscaped_small {c : Char} (h : unicodeEscaped c = true) : c.toNat < 65536 := by
  unfold unicodeEscaped at h
  simp only [Bool.or_eq_true, decide_eq_true_eq] at h
  rcases h with ((((h | h) | h) | h) | h) | h
  · omega
  · subst h; decide
  · subst h; decide
  · subst h; decide
  · omega
  · omega

theorem esc_length (c : Char) : 1 ≤ (esc c).length := by
  unfold esc; repeat' split
  all_goals simp

/-- One character. -/
theorem unquote_esc (n : Nat) (c : Char) (s : List Char) :
    unquote (n + 1) (esc c ++ s) = (unquote n s).map fun x => (c :: x.1, x.2) := by
  have hn : ∀ (e x : Char), unesc e = some x → e ≠ 'u' →
      unquote (n + 1) ('\\' :: e :: s) = (unquote n s).map fun y => (x :: y.1, y.2) := by
    intro e x he hu
    have : escape (e :: s) = some (x, s) := by simp only [escape, if_neg hu, he]; rfl
    rw [unquote]
    simp only
    rw [if_neg (by decide), if_pos trivial, this]
  unfold esc
  split
  · rename_i h; subst h; exact hn _ _ (by decide) (by decide)
  · rename_i h1
    split
    · rename_i h; subst h; exact hn _ _ (by decide) (by decide)
    · rename_i h2
      split
      · rename_i h; subst h; exact hn _ _ (by decide) (by decide)
      · split
        · rename_i h; subst h; exact hn _ _ (by decide) (by decide)
        · split
          · rename_i h; subst h; exact hn _ _ (by decide) (by decide)
          · split
            · rename_i h
              simp only [hex4, List.cons_append, List.nil_append]
              rw [unquote]
              simp only
              rw [if_neg (by decide), if_pos trivial]
              have : ∀ a b c' d, unhex4 a b c' d = some c → escape ('u' :: a :: b :: c' :: d :: s) = some (c, s) := by
                intro a b c' d h; simp only [escape, if_pos, h]; rfl
              rw [this _ _ _ _ (unhex4_hex4 (unicodeEscaped_small h))]
            · rw [List.cons_append, List.nil_append, unquote, if_neg h1, if_neg h2]

/-- Reading a JSON string gives the string back. -/
theorem unquote_quote (s rest : List Char) : ∀ n, s.length < n → unquote n (s.flatMap esc ++ '"' :: rest) = some (s, rest) := by
  induction s with
  | nil =>
    intro n hn
    obtain ⟨m, rfl⟩ : ∃ m, n = m + 1 := ⟨n - 1, by simp at hn; omega⟩
    simp [unquote]
  | cons c s ih =>
    intro n hn
    obtain ⟨m, rfl⟩ : ∃ m, n = m + 1 := ⟨n - 1, by simp at hn; omega⟩
    rw [List.flatMap_cons, List.append_assoc, unquote_esc, ih m (by simp at hn; omega)]
    rfl

theorem flatMap_esc_length (s : List Char) : s.length ≤ (s.flatMap esc).length := by
  induction s with
  | nil => simp
  | cons c s ih => rw [List.flatMap_cons, List.length_append, List.length_cons]; have := esc_length c; omega

theorem takeWhile_append {p : Char → Bool} {a b : List Char} (ha : ∀ x ∈ a, p x = true) (hb : ∀ x, b.head? = some x → p x = false) :
    (a ++ b).takeWhile p = a ∧ (a ++ b).dropWhile p = b := by
  induction a with
  | nil =>
    cases b with
    | nil => simp
    | cons x b => have := hb x rfl; simp [this]
  | cons y a ih =>
    have h1 := ha y (by simp)
    have h2 := ih fun x hx => ha x (by simp [hx])
    simp [h1, h2.1, h2.2]

theorem decInt_numChar (i : Int) : ∀ c ∈ decInt i, numChar c = true := by
  intro c hc
  unfold numChar
  rcases decInt_chars i c hc with h | h
  · simp [h]
  · simp [h]

theorem decInt_ne_nil (i : Int) : decInt i ≠ [] := by
  unfold decInt; split
  · simp
  · exact decNat_ne_nil _

/-- Reading a scalar that is followed by a comma or a bracket gives the scalar back. -/
theorem parseScalar_scalar (x : Scalar) (c : Char) (t : List Char) (hc : c = ',' ∨ c = ']') :
    parseScalar (scalar x ++ c :: t) = some (x, c :: t) := by
  have hnum : numChar c = false := by rcases hc with rfl | rfl <;> decide
  cases x with
  | null => show parseScalar (['n', 'u', 'l', 'l'] ++ c :: t) = _; simp only [parseScalar, List.cons_append]; rw [if_neg (by decide), if_pos trivial]; rw [show 'n' :: 'u' :: 'l' :: 'l' :: ([] ++ c :: t) = ['n', 'u', 'l', 'l'] ++ c :: t from rfl, skip_append]; rfl
  | bool b =>
    cases b with
    | false => show parseScalar (['f', 'a', 'l', 's', 'e'] ++ c :: t) = _; simp only [parseScalar, List.cons_append]; rw [if_neg (by decide), if_neg (by decide), if_neg (by decide), if_pos trivial]; rw [show 'f' :: 'a' :: 'l' :: 's' :: 'e' :: ([] ++ c :: t) = ['f', 'a', 'l', 's', 'e'] ++ c :: t from rfl, skip_append]; rfl
    | true => show parseScalar (['t', 'r', 'u', 'e'] ++ c :: t) = _; simp only [parseScalar, List.cons_append]; rw [if_neg (by decide), if_neg (by decide), if_pos trivial]; rw [show 't' :: 'r' :: 'u' :: 'e' :: ([] ++ c :: t) = ['t', 'r', 'u', 'e'] ++ c :: t from rfl, skip_append]; rfl
  | num i =>
    show parseScalar (decInt i ++ c :: t) = _
    obtain ⟨h1, h2⟩ := takeWhile_append (b := c :: t) (decInt_numChar i) (by intro x hx; cases hx; exact hnum)
    cases hd : decInt i with
    | nil => exact absurd hd (decInt_ne_nil i)
    | cons a r =>
      have ha := decInt_chars i a (by simp [hd])
      rw [hd] at h1 h2
      rw [List.cons_append] at h1 h2 ⊢
      have hne : ∀ d : Char, d.toNat ≠ 45 → ¬ (48 ≤ d.toNat ∧ d.toNat ≤ 57) → a ≠ d := by
        rintro d hd1 hd2 rfl
        rcases ha with rfl | ha
        · exact hd1 rfl
        · exact hd2 ha
      simp only [parseScalar]
      rw [if_neg (hne _ (by decide) (by decide)), if_neg (hne _ (by decide) (by decide)), if_neg (hne _ (by decide) (by decide)),
        if_neg (hne _ (by decide) (by decide)), h1, h2, ← hd, parseSigned_decInt]
      rfl
  | str s =>
    show parseScalar (quote s ++ c :: t) = _
    simp only [quote, List.cons_append, List.append_assoc, parseScalar, List.nil_append]
    rw [if_pos trivial, unquote_quote s (c :: t) _ (by have := flatMap_esc_length s; simp only [List.length_append, List.length_cons]; omega)]
    rfl

theorem parseItems_items (xs : List Scalar) (hx : xs ≠ []) (t : List Char) :
    ∀ n, xs.length ≤ n → parseItems n (join [','] (xs.map scalar) ++ ']' :: t) = some (xs, t) := by
  induction xs with
  | nil => exact absurd rfl hx
  | cons x xs ih =>
    intro n hn
    obtain ⟨m, rfl⟩ : ∃ m, n = m + 1 := ⟨n - 1, by simp at hn; omega⟩
    cases xs with
    | nil =>
      simp only [List.map_cons, List.map_nil, join, parseItems]
      rw [parseScalar_scalar x ']' t (Or.inr rfl)]
      simp only
      rw [if_neg (by decide), if_pos trivial]
    | cons y ys =>
      rw [List.map_cons, join_cons _ _ (by simp)]
      simp only [List.append_assoc, List.cons_append, List.nil_append, parseItems]
      rw [parseScalar_scalar x ',' _ (Or.inl rfl)]
      simp only
      rw [if_pos trivial, ih (by simp) m (by simp at hn ⊢; omega)]
      rfl

theorem scalar_head (x : Scalar) : ∃ c r, scalar x = c :: r ∧ c ≠ ']' := by
  cases x with
  | null => exact ⟨_, _, rfl, by decide⟩
  | bool b => cases b <;> exact ⟨_, _, rfl, by decide⟩
  | num i =>
    show ∃ c r, decInt i = c :: r ∧ _
    cases hd : decInt i with
    | nil => exact absurd hd (decInt_ne_nil i)
    | cons a r =>
      refine ⟨a, r, rfl, ?_⟩
      rintro rfl
      rcases decInt_chars i ']' (by simp [hd]) with h | h
      · exact absurd h (by decide)
      · exact absurd h (by decide)
  | str s => exact ⟨_, _, rfl, by decide⟩

theorem join_length (xs : List Scalar) : xs.length ≤ (join [','] (xs.map scalar)).length + 1 := by
  induction xs with
  | nil => simp
  | cons x xs ih =>
    cases xs with
    | nil => simp
    | cons y ys =>
      rw [List.map_cons, join_cons _ _ (by simp)]
      obtain ⟨c, r, h, _⟩ := scalar_head x
      simp only [List.length_append, List.length_cons, h, List.length_nil] at *
      omega

/-- Reading a list gives the list back. -/
theorem parseList_list (xs : List Scalar) (t : List Char) : parseList (list xs ++ t) = some (xs, t) := by
  cases xs with
  | nil => rfl
  | cons x xs =>
    obtain ⟨c, r, h, hc⟩ := scalar_head x
    have hj : ∃ u, join [','] ((x :: xs).map scalar) = c :: u := by
      cases xs with
      | nil => exact ⟨r, by simp [join, h]⟩
      | cons y ys => rw [List.map_cons, join_cons _ _ (by simp), h]; exact ⟨_, rfl⟩
    obtain ⟨u, hu⟩ := hj
    have key := parseItems_items (x :: xs) (by simp) t ((c :: (u ++ ']' :: t)).length) (by
      have := join_length (x :: xs)
      rw [hu] at this
      simp at this ⊢; omega)
    rw [hu, List.cons_append] at key
    simp only [list, hu, List.cons_append, List.append_assoc, List.nil_append]
    simp only [parseList]
    rw [if_pos trivial, if_neg hc]
    exact key

theorem parseLayout_layout (h b : List Char) : parseLayout (layout h b) = some (h, b) := by
  unfold parseLayout layout
  rw [skip_append]
  simp only
  rw [unquote_quote h _ _ (by have := flatMap_esc_length h; simp only [List.length_append, List.length_cons]; omega)]
  simp only
  rw [skip_append]
  simp only
  rw [show (List.flatMap esc b ++ ['"', '}']) = List.flatMap esc b ++ '"' :: ['}'] from rfl,
    unquote_quote b ['}'] _ (by have := flatMap_esc_length b; simp only [List.length_append, List.length_cons]; omega)]
  rfl

theorem strings_str (ks : List (List Char)) : strings (ks.map .str) = some ks := by
  induction ks with
  | nil => rfl
  | cons k ks ih => simp [strings, ih]

theorem parseStruct_struct (ks : List (List Char)) (vs : List Scalar) : parseStruct (structLayout ks vs) = some (ks, vs) := by
  have hkeys : ∀ t, parseList ((if ks = [] then ['n', 'u', 'l', 'l'] else list (ks.map .str)) ++ t) = some (ks.map .str, t) := by
    intro t
    split
    · rename_i h; subst h
      show parseList ('n' :: 'u' :: 'l' :: 'l' :: t) = _
      simp only [parseList, List.map_nil]
      rw [if_neg (by decide), show 'n' :: 'u' :: 'l' :: 'l' :: t = ['n', 'u', 'l', 'l'] ++ t from rfl, skip_append]
      rfl
    · exact parseList_list _ t
  unfold parseStruct structLayout
  rw [skip_append]
  simp only
  rw [hkeys]
  simp only
  rw [skip_append]
  simp only
  rw [parseList_list]
  simp [strings_str]

example : layout ['a'] ['"', '<', '\n'] = "{\"header\":\"a\",\"body\":\"\\\"\\u003c\\n\"}".toList := by decide
example : list [.num (-5), .null, .str ['x']] = "[-5,null,\"x\"]".toList := by decide

end Verif.Go.Json
