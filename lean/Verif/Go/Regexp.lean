/-!
# The part of `regexp` used by LIKE

Trusted model of Go's `regexp` on the expressions `^…$` whose body consists of
(possibly escaped) literal characters and `.*`.  Go's syntax: a backslash before
punctuation is that character; `.` matches any character but a newline; `$`
without the `m` flag matches at the end of the text only.
-/

namespace Verif.Go

/-- Characters `regexp.QuoteMeta` escapes: \.+*?()|[]{}^$ -/
def isMeta (c : Char) : Bool := c ∈ ['\\', '.', '+', '*', '?', '(', ')', '|', '[', ']', '{', '}', '^', '$']

/-- `regexp.QuoteMeta`. -/
def quoteMeta (s : List Char) : List Char := s.flatMap fun c => if isMeta c then ['\\', c] else [c]

/-- An item of a regular expression body. -/
inductive ReItem where
  | lit (c : Char)
  | star            -- `.*`
  deriving DecidableEq, Repr

/-- Parse an expression body; `none` for anything outside the modelled subset. -/
def parseRe : List Char → Option (List ReItem)
  | [] => some []
  | c :: s =>
    if c = '\\' then match s with
      | d :: s' => (parseRe s').map (.lit d :: ·)
      | [] => none
    else if c = '.' then match s with
      | d :: s' => if d = '*' then (parseRe s').map (.star :: ·) else none
      | [] => none
    else if isMeta c then none
    else (parseRe s).map (.lit c :: ·)

/-- `.*` followed by `f`: some run of non-newline characters, then `f`. -/
def starMatch (f : List Char → Bool) : List Char → Bool
  | [] => f []
  | c :: s => f (c :: s) || (decide (c ≠ '\n') && starMatch f s)

/-- `^items$` matches the whole text. -/
def matchRe : List ReItem → List Char → Bool
  | [], s => s.isEmpty
  | .lit c :: r, s => match s with
    | d :: s' => decide (c = d) && matchRe r s'
    | [] => false
  | .star :: r, s => starMatch (matchRe r) s

end Verif.Go
