import Verif.Model.Value

/-!
# ORDER BY (internal/formatter.go:991-1011, internal/function_register.go:458-470)

SQLite compares stored values: NULL is smallest, integers (INT64, BOOL) compare
natively, texts (every other type of the model) through the registered
collation.  FLOAT64 columns compare natively too and are not modelled.
-/

namespace Verif.OrderBy

open Go Verif.Val

/-- function_register.go:458-470 zetasqlite_collate on two decoded values.
Errors are ignored (`eq, _ := …` yields false); a nil value panics. -/
def collate (a b : Val) : Res Int :=
  match cmp .eq a b with
  | .panic => .panic
  | .ok true => .ok 0
  | _ => match cmp .gt a b with
    | .panic => .panic
    | .ok true => .ok 1
    | _ => .ok (-1)

/-- SQLite's comparison of two column values under `COLLATE zetasqlite_collate`. -/
def sqliteCmp : Val → Val → Res Int
  | .null, .null => .ok 0
  | .null, _ => .ok (-1)
  | _, .null => .ok 1
  | .int a, .int b => .ok (if a < b then -1 else if a = b then 0 else 1)
  | a, b => collate a b

/-- ast.NullOrderMode -/
inductive NullOrder where
  | unspecified | first | last
  deriving DecidableEq, Repr

/-- One ORDER BY item. -/
structure Item where
  desc : Bool
  nulls : NullOrder

/-- SQLite's comparison of the extra null-ordering column (formatter.go:994-1005):
`(c IS NOT NULL)` or `(c IS NULL)`, a 0/1 integer. -/
def nullKeyCmp (it : Item) (a b : Val) : Int :=
  let key (v : Val) : Int := match it.nulls with
    | .unspecified => 0
    | .first => if v.isNull then 0 else 1
    | .last => if v.isNull then 1 else 0
  if key a < key b then -1 else if key a = key b then 0 else 1

/-- The comparison of two rows on one item: the null-ordering column first
(formatter.go:994-1005), then the column, negated for DESC (1006-1010). -/
def itemCmp (it : Item) (a b : Val) : Res Int :=
  if nullKeyCmp it a b ≠ 0 then .ok (nullKeyCmp it a b)
  else (sqliteCmp a b).bind fun c => .ok (if it.desc then -c else c)

/-- The comparison of two rows on all items: the first item that differs decides. -/
def rowCmp : List Item → List Val → List Val → Res Int
  | it :: its, a :: as, b :: bs => (itemCmp it a b).bind fun c => if c ≠ 0 then .ok c else rowCmp its as bs
  | _, _, _ => .ok 0

end Verif.OrderBy
