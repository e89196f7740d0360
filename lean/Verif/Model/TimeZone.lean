import Verif.Go.Basic
import Verif.Go.Strconv

/-!
# Time zone names

internal/util.go:11-74.  `load` is time.LoadLocation, the time zone database of the
machine; `none` is a load error.  The mutex around the cache is not modelled: each call
of toLocation is atomic here, and the cached value only ever depends on its key.
-/

namespace Verif.Zone

open Go

/-- A time.Location: a fixed offset in seconds (time.FixedZone) or one from the database. -/
inductive Loc where
  | fixed (offset : Int)
  | db (name : List Char)
  deriving DecidableEq, Repr

/-- `[-+]`: the sign. -/
def sign (c : Char) : Option Int := if c = '+' then some 1 else if c = '-' then some (-1) else none

/-- Two `\d`. -/
def two (a b : Char) : Option Nat := match digitVal a, digitVal b with
  | some x, some y => some (10 * x + y)
  | _, _ => none

/-- util.go:13 `([-+]\d{2}):(\d{2})` at the start of a text: the two groups as strconv.ParseInt
reads them (util.go:43-50); the second group has no sign. -/
def fullAt : List Char → Option (Int × Int)
  | s :: a :: b :: c :: d :: e :: _ =>
    match sign s, two a b, two d e with
    | some g, some h, some m => if c = ':' then some (g * h, m) else none
    | _, _, _ => none
  | _ => none

/-- util.go:12 `([-+]\d{2})` at the start of a text. -/
def partAt : List Char → Option Int
  | s :: a :: b :: _ =>
    match sign s, two a b with
    | some g, some h => some (g * h)
    | _, _ => none
  | _ => none

/-- regexp's leftmost match of an unanchored pattern. -/
def leftmost {α} (f : List Char → Option α) : List Char → Option α
  | [] => f []
  | c :: s => (f (c :: s)).or (leftmost f s)

/-- util.go:40-73 without the cache. -/
def fresh (load : List Char → Option Loc) (z : List Char) : Option Loc :=
  match leftmost fullAt z with
  | some (h, m) => some (.fixed (h * 60 * 60 + m * 60))
  | none => match leftmost partAt z with
    | some h => some (.fixed (h * 60 * 60))
    | none => load z

/-- `fmt.Sprintf("UTC%s", timeZone)` -/
def utc (z : List Char) : List Char := 'U' :: 'T' :: 'C' :: z

/-- util.go:14 locationCacheMap -/
abbrev Cache := List (List Char × Loc)

/-- util.go:18-28 getCachedLocation -/
def cached (m : Cache) (z : List Char) : Option Loc := (m.lookup z).or (m.lookup (utc z))

/-- util.go:51-53, 62-64, 72: the key a new location is stored under. -/
def key (z : List Char) : List Char :=
  match leftmost fullAt z, leftmost partAt z with
  | none, none => z
  | _, _ => utc z

/-- util.go:36-74 toLocation, with the cache before and after. -/
def toLocation (load : List Char → Option Loc) (m : Cache) (z : List Char) : Option Loc × Cache :=
  match cached m z with
  | some l => (some l, m)
  | none => match fresh load z with
    | some l => (some l, (key z, l) :: m)
    | none => (none, m)

/-- The cache after a history of calls. -/
def after (load : List Char → Option Loc) : List (List Char) → Cache
  | [] => []
  | z :: h => (toLocation load (after load h) z).2

end Verif.Zone
