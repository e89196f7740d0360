import Verif.Go.Strconv

/-!
# Texts of integral float64 values

Part of the trusted model of Go: `fmt.Sprint` of a float64 is
`strconv.FormatFloat(x, 'g', -1, 64)`.  Below 2⁵³ the shortest digits of an integral
value are its decimal digits without the trailing zeros (a shorter numeral is more
than half a unit away).  The exponent form is used from 10⁶ on.
-/

namespace Verif.Go

/-- Digits without trailing zeros. -/
def stripZeros (ds : List Char) : List Char := (ds.reverse.dropWhile (· == '0')).reverse

/-- At least two digits, as strconv writes exponents. -/
def expDigits (e : Nat) : List Char := if e < 10 then '0' :: decNat e else decNat e

/-- strconv.FormatFloat(±n, 'g', -1, 64) for an integer `n < 2⁵³`. -/
def sprintIntegral (neg : Bool) (n : Nat) : List Char :=
  let ds := decNat n
  let body := if n < 1000000 then ds else
    match stripZeros ds with
    | [] => []
    | [d] => d :: 'e' :: '+' :: expDigits (ds.length - 1)
    | d :: rest => d :: '.' :: rest ++ 'e' :: '+' :: expDigits (ds.length - 1)
  if neg then '-' :: body else body

end Verif.Go
