import Verif.Go.Strconv
import Verif.Model.NamePath

/-!
# Model of timestamp results

rows.go:273-281 writes a TIMESTAMP result as text, timestamp.go:12-37 reads it back.
-/

namespace Verif.TimestampText
open Verif.Go

/-- An instant in nanoseconds since 1970.  `time.Unix(sec, nsec)` accepts any `nsec`. Simplification: no wrap-around of the
seconds counter of `time.Time` (292 billion years). -/
def unix (sec nsec : Int) : Int := sec * 1000000000 + nsec

/-- `Time.UnixMicro` of an instant (rounds down). -/
def unixMicro (t : Int) : Int := t / 1000

/-- rows.go:278-281: `sec := unixmicro / 1000000` truncates, `%d.%d` does not pad. -/
def render (unixmicro : Int) : List Char :=
  let sec := unixmicro.tdiv 1000000
  let nsec := unixmicro - sec * 1000000
  decInt sec ++ '.' :: decInt nsec

/-- timestamp.go:12-37 `TimeFromTimestampValue`.  The padded string (25-28) is not used by the
code; the product (35) is 64-bit. -/
def timeFromTimestampValue (v : List Char) : Res Int :=
  match NamePath.splitDot v with
  | [a] => match parseInt64 a with
    | some s => .ok (unix s 0)
    | none => .err
  | [a, b] => match parseInt64 a with
    | some s => match parseInt64 b with
      | some m => .ok (unix s (wrap64 (m * 1000)))
      | none => .err
    | none => .err
  | _ => .err

end Verif.TimestampText
