import Verif.Go.Basic
import Verif.Go.Utf8

/-!
# package regexp as a parameter

What a pattern means is left open: an `Engine` is any way to compile patterns and to find matches.  The functions
that package regexp builds from the matches (FindAll…, ReplaceAll, Expand) are modelled here.
-/

namespace Verif.Go

/-- One match: byte offsets of the whole and of the capturing groups, `none` for a group that took no part. -/
structure Match where
  all : Nat × Nat
  groups : List (Option (Nat × Nat))
deriving DecidableEq

/-- The matching engine.  `findAll re b` are all matches that do not overlap, from left to right (n = -1); `groups`
is NumSubexp; `names` are the names of the groups from 1 on, empty for groups without name; `word` says which
characters are letters, digits or `_` (package unicode). -/
structure Engine where
  Re : Type
  compile : List UInt8 → Option Re
  groups : Re → Nat
  names : Re → List (List Char)
  findAll : Re → List UInt8 → List Match
  word : Char → Bool

/-- What package regexp promises: offsets lie inside the text, matches do not overlap, every match has all groups; and
what package unicode says about ASCII. -/
structure Engine.Lawful (E : Engine) : Prop where
  whole : ∀ re b m, m ∈ E.findAll re b → m.all.1 ≤ m.all.2 ∧ m.all.2 ≤ b.length
  parts : ∀ re b m g, m ∈ E.findAll re b → some g ∈ m.groups → g.1 ≤ g.2 ∧ g.2 ≤ b.length
  order : ∀ re b, (E.findAll re b).Pairwise fun m n => m.all.2 ≤ n.all.1
  count : ∀ re b m, m ∈ E.findAll re b → m.groups.length = E.groups re
  word_ascii : ∀ c : Char, c.toNat < 128 → (E.word c = true ↔ c.isAlphanum ∨ c = '_')

/-- The bytes of a span. -/
def cutSpan (b : List UInt8) (s : Nat × Nat) : List UInt8 := (b.drop s.1).take (s.2 - s.1)

/-- The bytes of a group as FindSubmatch returns them: nil if it took no part. -/
def groupBytes (b : List UInt8) : Option (Nat × Nat) → List UInt8
  | none => []
  | some s => cutSpan b s

/-- The slice of submatches that FindAllSubmatch returns for a match. -/
def Match.spans (m : Match) : List (Option (Nat × Nat)) := some m.all :: m.groups

/-- The last element of that slice. -/
def Match.last (m : Match) : Option (Nat × Nat) := m.groups.getLastD (some m.all)

/-- The slice of offsets that FindAllSubmatchIndex returns for a match; -1 for groups that took no part. -/
def Match.offsets (m : Match) : List Int :=
  m.spans.flatMap fun g => match g with | none => [-1, -1] | some s => [(s.1 : Int), (s.2 : Int)]

/-- The number that a name in a template stands for (regexp.go extract): decimal digits without leading zero, and less
than 10^9. -/
def refNumber (name : List Char) : Option Nat :=
  if name.all Char.isDigit ∧ name.length ≤ 9 ∧ (name.head? = some '0' → name.length = 1) then
    some (name.foldl (fun n c => 10 * n + (c.toNat - 48)) 0)
  else none

/-- regexp.go extract: the name after a `$` and what follows, `none` if there is no proper reference. -/
def reference (word : Char → Bool) : List Char → Option (List Char × List Char)
  | '{' :: t =>
    if t.takeWhile word = [] then none
    else match t.dropWhile word with
      | '}' :: r => some (t.takeWhile word, r)
      | _ => none
  | t => if t.takeWhile word = [] then none else some (t.takeWhile word, t.dropWhile word)

theorem length_dropWhile_le {α} (p : α → Bool) (l : List α) : (l.dropWhile p).length ≤ l.length := by
  induction l with
  | nil => simp
  | cons a l ih => rw [List.dropWhile_cons]; split <;> simp <;> omega

theorem reference_shorter {word : Char → Bool} {t n r : List Char} (h : reference word t = some (n, r)) :
    r.length ≤ t.length := by
  unfold reference at h
  split at h
  · rename_i t
    split at h
    · cases h
    · split at h
      · rename_i r' e
        simp only [Option.some.injEq, Prod.mk.injEq] at h
        have := length_dropWhile_le word t
        rw [e] at this
        simp at this ⊢
        rw [← h.2]; omega
      · cases h
  · split at h
    · cases h
    · simp only [Option.some.injEq, Prod.mk.injEq] at h
      rw [← h.2]; exact length_dropWhile_le _ _

/-- The group that a name of a template stands for: by number, else the first group of that name that took part. -/
def refSpan (names : List (List Char)) (m : Match) (name : List Char) : Option (Nat × Nat) :=
  match refNumber name with
  | some n => (m.spans[n]?).join
  | none => ((names.zip m.groups).find? fun p => p.1 == name && p.2.isSome).bind Prod.snd

/-- regexp.go expand: the template with its references replaced. -/
def expand (word : Char → Bool) (names : List (List Char)) (b : List UInt8) (m : Match) (t : List Char) : List UInt8 :=
  match t with
  | [] => []
  | c :: t =>
    if c = '$' then
      match t with
      | '$' :: r => utf8 ['$'] ++ expand word names b m r
      | t => match _h : reference word t with
        | none => utf8 ['$'] ++ expand word names b m t
        | some (n, r) => groupBytes b (refSpan names m n) ++ expand word names b m r
    else utf8 [c] ++ expand word names b m t
termination_by t.length
decreasing_by all_goals first | (have := reference_shorter _h; simp; omega) | (simp; omega) | simp

/-- ReplaceAll: the text between the matches is kept, every match is replaced. -/
def replaceMatches (b : List UInt8) (f : Match → List UInt8) : Nat → List Match → List UInt8
  | i, [] => b.drop i
  | i, m :: ms => cutSpan b (i, m.all.1) ++ f m ++ replaceMatches b f m.all.2 ms

end Verif.Go
