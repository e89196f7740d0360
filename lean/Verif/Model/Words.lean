import Verif.Model.Strings

/-!
# INITCAP, SOUNDEX, UPPER, LOWER, CONCAT, STARTS_WITH, ENDS_WITH, ASCII and the lengths
(internal/function_string.go, bind functions in internal/function_bind.go)

The arguments of INITCAP, SOUNDEX and SAFE_CONVERT_BYTES_TO_STRING are those after the NULL check of the bind functions
(any NULL gives NULL).  The case tables of package unicode are parameters: `up` and `low` on characters.
-/

namespace Verif.Words

open Go Verif.Val

/-- function_string.go:200-227: the loop of INITCAP.  `first` is `i == 0`. -/
def initcapLoop (up low : Char → Char) (delims : List Char) : Bool → List Char → List Char
  | _, [] => []
  | first, r :: rest =>
    let out := if first then up r else if r ∈ delims then r else low r
    match rest with
    | [] => [out]
    | n :: rest' =>
      if n ∈ delims then out :: initcapLoop up low delims false (n :: rest')
      else if r ∈ delims then out :: up n :: initcapLoop up low delims false rest'
      else out :: initcapLoop up low delims false (n :: rest')

/-- function_string.go:176-180 -/
def defaultDelims : List Char :=
  [' ', '[', ']', '(', ')', '{', '}', '/', '|', '\\', '<', '>', '!', '?', '@', '"', '^', '#', '$', '&',
   '~', '_', ',', '.', ':', ';', '*', '%', '+', '-']

/-- function_bind.go:884-907 and function_string.go:192-227 INITCAP; `none` if there is no second argument. -/
def initcap (up low : Char → Char) (s : List Char) (delims : Option (List Char)) : List Char :=
  initcapLoop up low (delims.getD defaultDelims) true s

/-- function_string.go:899-907 soundexMap, for capital letters. -/
def soundexMap (c : Char) : Char :=
  if c ∈ ['B', 'F', 'P', 'V'] then '1'
  else if c ∈ ['C', 'G', 'J', 'K', 'Q', 'S', 'X', 'Z'] then '2'
  else if c ∈ ['D', 'T'] then '3'
  else if c ∈ ['L'] then '4'
  else if c ∈ ['M', 'N'] then '5'
  else if c ∈ ['R'] then '6'
  else '0'

/-- function_string.go:917-944: a letter of one byte and its code. -/
def isLetter (c : Char) : Bool := c.isAlpha

/-- function_string.go:926-927: the code of a letter. -/
def code (c : Char) : Char := soundexMap c.toUpper

/-- function_string.go:916-943: the loop of SOUNDEX after the first letter; `n` places are left, `prev` is prevCode. -/
def soundexLoop : Char → Nat → List Char → List Char
  | _, 0, _ => []
  | _, n + 1, [] => List.replicate (n + 1) '0'
  | prev, n + 1, c :: cs =>
    if isLetter c = false then soundexLoop prev (n + 1) cs
    else if code c = prev ∨ code c = '0' then soundexLoop prev (n + 1) cs
    else code c :: soundexLoop (code c) n cs

/-- function_string.go:909-947 SOUNDEX -/
def soundex : List Char → List Char
  | [] => []
  | c :: cs => if isLetter c = false then soundex cs else c :: soundexLoop (code c) 3 cs

/-- bytes.ToUpper and bytes.ToLower with the case table `f` on characters: bytes that are all ASCII are mapped one by
one, otherwise rune by rune, an invalid byte becoming U+FFFD. -/
def mapBytes (f : Char → Char) (b : List UInt8) : List UInt8 :=
  if b.all (· < 128) then b.map fun x => UInt8.ofNat (f (Char.ofNat x.toNat)).toNat
  else utf8 ((Strings.runes b.length b).map fun r : Nat => f (Strings.runeChar r))

/-- function_string.go:417-436 LOWER and 1254-1270 UPPER with the case table `f`; function_bind.go:979-987, 1374-1382. -/
def mapCase (f : Char → Char) : Val → Res Val
  | .null => .ok .null
  | .str s => .ok (.str (s.map f))
  | .bytes b => .ok (.bytes (mapBytes f b))
  | _ => .err

/-- function_string.go:89-101: the bytes of the arguments, one after the other. -/
def concatBytes : List Val → Res (List UInt8)
  | [] => .ok []
  | .str s :: vs => (concatBytes vs).bind fun r => .ok (utf8 s ++ r)
  | .bytes b :: vs => (concatBytes vs).bind fun r => .ok (b ++ r)
  | _ :: _ => .err

/-- function_string.go:889-897 SAFE_CONVERT_BYTES_TO_STRING -/
def safeConvert (b : List UInt8) : List Char := (Strings.runes b.length b).map fun r : Nat => Strings.runeChar r

/-- function_bind.go:791-799 and function_string.go:89-108 CONCAT.  The bytes of STRING arguments are valid UTF-8; a
Go string that is not would be kept as it is. -/
def concat (vs : List Val) : Res Val :=
  if vs = [] then .err
  else if vs.any Val.isNull then .ok .null
  else (concatBytes vs).bind fun b => match vs with
    | .str _ :: _ => .ok (.str (safeConvert b))
    | .bytes _ :: _ => .ok (.bytes b)
    | _ => .err

/-- function_bind.go:1243-1251 and function_string.go:990-1014 STARTS_WITH -/
def startsWith : Val → Val → Res Val
  | .null, _ => .ok .null
  | _, .null => .ok .null
  | .str v, .str s => .ok (.bool ((utf8 s).isPrefixOf (utf8 v)))
  | .bytes v, .bytes s => .ok (.bool (s.isPrefixOf v))
  | _, _ => .err

/-- function_bind.go bindEndsWith and function_string.go:114-138 ENDS_WITH -/
def endsWith : Val → Val → Res Val
  | .null, _ => .ok .null
  | _, .null => .ok .null
  | .str v, .str s => .ok (.bool ((utf8 s).isSuffixOf (utf8 v)))
  | .bytes v, .bytes s => .ok (.bool (s.isSuffixOf v))
  | _, _ => .err

/-- function_bind.go:683-698 and function_string.go:20-22 ASCII: the first byte of the text; BYTES are turned into
their base64 text (value.go:399). -/
def asciiOf : Val → Res Val
  | .null => .ok .null
  | .str s => .ok (.int (((utf8 s).head?.map UInt8.toNat).getD 0 : Nat))
  | .bytes b => .ok (.int (((utf8 (Base64.encode b)).head?.map UInt8.toNat).getD 0 : Nat))
  | _ => .err

/-- function_bind.go:700-712 and function_string.go:24-26 BYTE_LENGTH -/
def byteLength : Val → Res Val
  | .null => .ok .null
  | .str s => .ok (.int (utf8 s).length)
  | .bytes b => .ok (.int b.length)
  | _ => .err

/-- function_bind.go:714-726 and function_string.go:28-30 CHAR_LENGTH: `[]rune` of the bytes. -/
def charLength : Val → Res Val
  | .null => .ok .null
  | .str s => .ok (.int (Strings.runes (utf8 s).length (utf8 s)).length)
  | .bytes b => .ok (.int (Strings.runes b.length b).length)
  | _ => .err

end Verif.Words
