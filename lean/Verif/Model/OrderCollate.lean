import Verif.Model.OrderBy

/-!
# ORDER BY with COLLATE (internal/formatter.go:991-1011)
-/

namespace Verif.OrderCollate

open Go Verif.Val OrderBy

/-- An ORDER BY item as it is resolved: `collation` is the text after COLLATE. -/
structure CItem where
  item : Item
  collation : Option (List Char)

/-- The comparison of two rows on one item, formatter.go:991-1011. -/
def cmpItem (it : CItem) (a b : Val) : Res Int := itemCmp it.item a b

end Verif.OrderCollate
