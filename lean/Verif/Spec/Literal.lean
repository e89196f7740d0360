import Verif.Model.Cast
import Verif.Go.Unquote

/-!
# SQL literals and the values they denote

The literals that FORMAT('%T', …) may write, as the documentation of ZetaSQL describes them (lexical structure: string and bytes
literals, integer literals, date literals, NUMERIC literals, array constructors and tuples).
-/

namespace Verif.Spec.Literal

open Go Verif.Val

/-- The escapes of one character. -/
def simple (e : Char) : Option Char :=
  if e = 'a' then some (Char.ofNat 7) else if e = 'b' then some (Char.ofNat 8) else if e = 'f' then some (Char.ofNat 12)
  else if e = 'n' then some '\n' else if e = 'r' then some '\r' else if e = 't' then some '\t'
  else if e = 'v' then some (Char.ofNat 11)
  else if e = '\\' ∨ e = '?' ∨ e = '"' ∨ e = '\'' ∨ e = '`' then some e else none

/-- A character that stands for itself between double quotation marks. -/
def Raw (c : Char) : Prop := c ≠ '"' ∧ c ≠ '\\' ∧ c ≠ '\n' ∧ c ≠ '\r'

/-- What stands between the quotation marks of a STRING literal, and the text it denotes. -/
inductive Body : List Char → List Char → Prop where
  | nil : Body [] []
  | raw {c t s} : Raw c → Body t s → Body (c :: t) (c :: s)
  | esc {e c t s} : simple e = some c → Body t s → Body ('\\' :: e :: t) (c :: s)
  | x {a b c : Char} {t s} : hexNum [a, b] 0 = some c.toNat → Body t s → Body ('\\' :: 'x' :: a :: b :: t) (c :: s)
  | u {a b d e c : Char} {t s} : hexNum [a, b, d, e] 0 = some c.toNat → Body t s →
      Body ('\\' :: 'u' :: a :: b :: d :: e :: t) (c :: s)
  | U {a b d e f g h i c : Char} {t s} : hexNum [a, b, d, e, f, g, h, i] 0 = some c.toNat → Body t s →
      Body ('\\' :: 'U' :: a :: b :: d :: e :: f :: g :: h :: i :: t) (c :: s)

/-- What stands between the quotation marks of a BYTES literal, and the bytes it denotes (octal escapes are left out: they are never
written). -/
inductive Bytes : List Char → List UInt8 → Prop where
  | nil : Bytes [] []
  | raw {c t b} : Raw c → Bytes t b → Bytes (c :: t) (String.utf8EncodeChar c ++ b)
  | esc {e c t b} : simple e = some c → Bytes t b → Bytes ('\\' :: e :: t) (UInt8.ofNat c.toNat :: b)
  | x {p q : Char} {n : UInt8} {t b} : hexNum [p, q] 0 = some n.toNat → Bytes t b → Bytes ('\\' :: 'x' :: p :: q :: t) (n :: b)

/-- A text between double quotation marks after a keyword. -/
def quoted (keyword body : List Char) : List Char := keyword ++ '"' :: (body ++ ['"'])

/-- Elements between commas. -/
def listed : List (List Char) → List Char
  | [] => []
  | [t] => t
  | t :: ts => t ++ ',' :: ' ' :: listed ts

/-- The value of a literal.  Of TIME values the time of day counts. -/
inductive Denotes : List Char → Val → Prop where
  | null : Denotes ['N', 'U', 'L', 'L'] .null
  | int {ds n} : parseNat ds = some n → Denotes ds (.int n)
  | neg {ds n} : parseNat ds = some n → Denotes ('-' :: ds) (.int (-n))
  | tru : Denotes ['t', 'r', 'u', 'e'] (.bool true)
  | fls : Denotes ['f', 'a', 'l', 's', 'e'] (.bool false)
  | str {t s} : Body t s → Denotes (quoted [] t) (.str s)
  | bytes {t b} : Bytes t b → Denotes (quoted ['b'] t) (.bytes b)
  | num {t s r} : Body t s → Cast.decimal s = some r → Denotes (quoted ['N', 'U', 'M', 'E', 'R', 'I', 'C', ' '] t) (.num r false)
  | big {t s r} : Body t s → Cast.decimal s = some r →
      Denotes (quoted ['B', 'I', 'G', 'N', 'U', 'M', 'E', 'R', 'I', 'C', ' '] t) (.num r true)
  | date {t s d} : Body t s → parseDate s = some d → Denotes (quoted ['D', 'A', 'T', 'E', ' '] t) (.time .date d)
  | datetime {t s d} : Body t s → Cast.parseDatetimeV s = some d →
      Denotes (quoted ['D', 'A', 'T', 'E', 'T', 'I', 'M', 'E', ' '] t) (.time .datetime d)
  | time {t s d d'} : Body t s → parseClock s = some d → tod d' = tod d → Denotes (quoted ['T', 'I', 'M', 'E', ' '] t) (.time .time d')
  | timestamp {t s d} : Body t s → Cast.parseTimestamp s = some d →
      Denotes (quoted ['T', 'I', 'M', 'E', 'S', 'T', 'A', 'M', 'P', ' '] t) (.time .timestamp d)
  | arr {ts : List (List Char)} {vs : List Val} : ts.length = vs.length →
      (∀ (i : Nat) t v, ts[i]? = some t → vs[i]? = some v → Denotes t v) → Denotes ('[' :: (listed ts ++ [']'])) (.arr vs)
  | tuple {ts : List (List Char)} {vs : List Val} : 2 ≤ vs.length → ts.length = vs.length →
      (∀ (i : Nat) t v, ts[i]? = some t → vs[i]? = some v → Denotes t v) →
      Denotes ('(' :: (listed ts ++ [')'])) (.struct (List.replicate vs.length []) vs)

end Verif.Spec.Literal
