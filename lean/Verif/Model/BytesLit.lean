import Verif.Go.Unquote

/-! # BYTES literals (internal/encoder.go:218-225) -/

namespace Verif.BytesLit

open Go

/-- encoder.go:218-225 bytesValueFromLiteral, of the text `b`, a quotation mark and the rest (types.Value.SQLLiteral): strconv.Unquote, and if this fails the
text itself. -/
def bytesValue (q : Char) (rest : List Char) : List UInt8 :=
  match unquoteText q rest with
  | some b => b
  | none => utf8 ('b' :: q :: rest)

end Verif.BytesLit
