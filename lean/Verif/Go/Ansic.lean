import Verif.Go.TimeText

/-!
# time.Parse with the layout `Mon Jan 02 15:04:05 2006`

Part of the trusted model of Go.
-/

namespace Verif.Go

/-- The short names of package time, in lower case. -/
def shortDays : List (List Char) :=
  [['s', 'u', 'n'], ['m', 'o', 'n'], ['t', 'u', 'e'], ['w', 'e', 'd'], ['t', 'h', 'u'], ['f', 'r', 'i'], ['s', 'a', 't']]
@[inherit_doc shortDays] def shortMonths : List (List Char) :=
  [['j', 'a', 'n'], ['f', 'e', 'b'], ['m', 'a', 'r'], ['a', 'p', 'r'], ['m', 'a', 'y'], ['j', 'u', 'n'], ['j', 'u', 'l'], ['a', 'u', 'g'], ['s', 'e', 'p'], ['o', 'c', 't'],
   ['n', 'o', 'v'], ['d', 'e', 'c']]

/-- time.lookup: a name of three ASCII letters in any case. -/
def lookupName (tab : List (List Char)) : List Char → Option (Nat × List Char)
  | a :: b :: c :: rest => (tab.findIdx? fun n => n = [a.toLower, b.toLower, c.toLower]).map fun i => (i, rest)
  | _ => none

/-- time.skip of a space: any number of them, none only at the end. -/
def skipSpace : List Char → Option (List Char)
  | [] => some []
  | c :: s => if c = ' ' then some (s.dropWhile fun c => c = ' ') else none

/-- time.Parse("Mon Jan 02 15:04:05 2006", s).  The weekday is not compared with the date. -/
def ansic (s : List Char) : Option Int :=
  match lookupName shortDays s with
  | none => none
  | some (_, s) => match skipSpace s with
    | none => none
    | some s => match lookupName shortMonths s with
      | none => none
      | some (m, s) => match skipSpace s with
        | none => none
        | some s => match takeDigits 2 s with
          | none => none
          | some (d, s) => match skipSpace s with
            | none => none
            | some s => match parseClockPart s with
              | none => none
              | some (k, s) => match skipSpace s with
                | none => none
                | some s => match takeDigits 4 s with
                  | none => none
                  | some (y, s) =>
                    if s = [] ∧ 1 ≤ d ∧ (d : Int) ≤ monthLen y (m + 1) then some (tDate y (m + 1) d 0 0 0 0 + k) else none

example : ansic "thu Dec 25  15:30:00 2008".toList = some (tDate 2008 12 25 15 30 0 0) := by decide +kernel
example : ansic "Thu Dec 5 15:30:00 2008".toList = none := by decide +kernel

end Verif.Go
