import Verif.Go.RegexpEngine

/-!
# What the REGEXP functions should return, by BigQuery's documentation

Relative to a matching engine.  `enc` gives the bytes of a text: UTF-8 for STRING, the bytes themselves for BYTES.
A search from a position sees the text from there on.  A group that takes no part counts as empty.
-/

namespace Verif.RegexpSpec

open Go

/-- The part of a match that is extracted: the capturing group if the pattern has one. -/
def captured (u : List UInt8) (m : Match) : List UInt8 := groupBytes u (m.groups.headD (some m.all))

/-- REGEXP_EXTRACT(s, pattern, position, occurrence): an error for an invalid pattern, more than one capturing group,
a position or an occurrence that is not positive; NULL past the end or without a match. -/
def extract (E : Engine) {α : Type} (enc : List α → List UInt8) (s : List α) (pattern : List UInt8)
    (position occurrence : Int) : Res (Option (List UInt8)) :=
  match E.compile pattern with
  | none => .err
  | some re =>
    if position ≤ 0 ∨ occurrence ≤ 0 ∨ 1 < E.groups re then .err
    else if s.length < position then .ok none
    else .ok (((E.findAll re (enc (s.drop (position - 1).toNat)))[(occurrence - 1).toNat]?).map
      (captured (enc (s.drop (position - 1).toNat))))

/-- REGEXP_EXTRACT_ALL(s, pattern). -/
def extractAll (E : Engine) (s : List UInt8) (pattern : List UInt8) : Res (Option (List (List UInt8))) :=
  match E.compile pattern with
  | none => .err
  | some re => if 1 < E.groups re then .err else .ok (some ((E.findAll re s).map (captured s)))

/-- REGEXP_CONTAINS(s, pattern). -/
def contains (E : Engine) (s pattern : List UInt8) : Res (Option Bool) :=
  match E.compile pattern with
  | none => .err
  | some re => .ok (some (decide (E.findAll re s ≠ [])))

/-- `r` is what REGEXP_INSTR(s, pattern, position, occurrence, which) should be for a pattern `re` without groups: an
error for arguments out of range; 0 for an empty pattern, past the end or without a match; else the position, counted
in elements of `s`, of the beginning (`which = 0`) of the match or just after its end (`which = 1`). -/
def IsInstr (E : Engine) {α : Type} (enc : List α → List UInt8) (s : List α) (pattern : List UInt8) (re : E.Re)
    (position occurrence which : Int) (r : Res (Option Int)) : Prop :=
  if position ≤ 0 ∨ occurrence ≤ 0 ∨ (which ≠ 0 ∧ which ≠ 1) then r = .err
  else if pattern = [] ∨ s.length < position then r = .ok (some 0)
  else match (E.findAll re (enc (s.drop (position - 1).toNat)))[(occurrence - 1).toNat]? with
    | none => r = .ok (some 0)
    | some m => ∀ n, (enc ((s.drop (position - 1).toNat).take n)).length = (if which = 0 then m.all.1 else m.all.2) →
      n ≤ (s.drop (position - 1).toNat).length → r = .ok (some (position + n))

/-- A piece of a replacement. -/
inductive Piece where
  | lit (c : Char)
  | group (n : Nat)
deriving DecidableEq

/-- The replacement of REGEXP_REPLACE: `\0` is the match, `\1` … `\9` a group, `\\` a backslash; a backslash before
anything else is an error. -/
def template : List Char → Option (List Piece)
  | [] => some []
  | c :: t =>
    if c = '\\' then match t with
      | [] => none
      | d :: t =>
        if d.isDigit then (template t).map (.group (d.toNat - 48) :: ·)
        else if d = '\\' then (template t).map (.lit '\\' :: ·)
        else none
    else (template t).map (.lit c :: ·)

/-- The text of a piece for a match. -/
def Piece.text (b : List UInt8) (m : Match) : Piece → List UInt8
  | .lit c => utf8 [c]
  | .group n => groupBytes b (((some m.all :: m.groups)[n]?).join)

/-- A reference to a group that a pattern with `k` groups does not have. -/
def Piece.missing (k : Nat) : Piece → Bool
  | .lit _ => false
  | .group n => decide (k < n)

/-- REGEXP_REPLACE(s, pattern, t): the text with every match replaced; an error for an invalid pattern or
replacement, and for a reference to a group that does not exist. -/
def replace (E : Engine) (s pattern t : List Char) : Res (Option (List UInt8)) :=
  match E.compile (utf8 pattern) with
  | none => .err
  | some re => match template t with
    | none => .err
    | some ps =>
      if ps.any (Piece.missing (E.groups re)) then .err
      else .ok (some (go (utf8 s) ps 0 (E.findAll re (utf8 s))))
where
  go (b : List UInt8) (ps : List Piece) : Nat → List Match → List UInt8
    | i, [] => b.drop i
    | i, m :: ms => (b.drop i).take (m.all.1 - i) ++ ps.flatMap (Piece.text b m) ++ go b ps m.all.2 ms

end Verif.RegexpSpec
