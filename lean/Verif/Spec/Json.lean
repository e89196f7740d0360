import Verif.Go.Hex

/-!
# JSON texts (RFC 8259)

A reader of JSON texts, written from the grammar of RFC 8259 and independently of the library the
code uses: white space, the three names, numbers with fraction and exponent but without leading
zeros, strings without raw control characters, escapes with surrogate pairs, arrays and objects.
Part of the specifications: it says what a text denotes.
-/

namespace Verif.JsonSpec

/-- A JSON value; an object keeps its members in order, with duplicates. -/
inductive Json where
  | null
  | bool (b : Bool)
  | num (r : Rat)
  | str (s : List Char)
  | arr (xs : List Json)
  | obj (ms : List (List Char × Json))

/-- RFC 8259 section 2: white space. -/
def isWs (c : Char) : Bool := decide (c = ' ' ∨ c = '\t' ∨ c = '\n' ∨ c = '\r')

@[inherit_doc isWs] def skipWs (s : List Char) : List Char := s.dropWhile isWs

/-! ### Section 6: numbers -/

/-- A decimal digit. -/
def isDig (c : Char) : Bool := decide (48 ≤ c.toNat ∧ c.toNat ≤ 57)

/-- The number the digits write. -/
def digVal (s : List Char) : Nat := s.foldl (fun a c => a * 10 + (c.toNat - 48)) 0

/-- int: a zero, or digits that do not start with one. -/
def intPart (s : List Char) : Option (List Char × List Char) :=
  match s.takeWhile isDig with
  | [] => none
  | d :: ds => if d = '0' ∧ ds ≠ [] then none else some (d :: ds, s.dropWhile isDig)

/-- The optional fraction: a point and one digit at least. -/
def fracPart : List Char → Option (List Char × List Char)
  | [] => some ([], [])
  | c :: s =>
    if c = '.' then if s.takeWhile isDig = [] then none else some (s.takeWhile isDig, s.dropWhile isDig)
    else some ([], c :: s)

/-- The optional sign of an exponent. -/
def expSign : List Char → Bool × List Char
  | [] => (false, [])
  | c :: s => if c = '-' then (true, s) else if c = '+' then (false, s) else (false, c :: s)

/-- The optional exponent, as a power of ten. -/
def expPart : List Char → Option (Rat × List Char)
  | [] => some (1, [])
  | c :: s =>
    if c = 'e' ∨ c = 'E' then
      let x := expSign s
      let ds := x.2.takeWhile isDig
      if ds = [] then none
      else some (if x.1 then mkRat 1 (10 ^ digVal ds) else ((10 ^ digVal ds : Nat) : Rat), x.2.dropWhile isDig)
    else some (1, c :: s)

/-- A number without its sign. -/
def unsigned (s : List Char) : Option (Rat × List Char) :=
  match intPart s with
  | none => none
  | some (ds, s) => match fracPart s with
    | none => none
    | some (fs, s) => match expPart s with
      | none => none
      | some (e, s) => some (mkRat (digVal (ds ++ fs)) (10 ^ fs.length) * e, s)

/-- A number and what follows it. -/
def number : List Char → Option (Rat × List Char)
  | [] => none
  | c :: s => if c = '-' then (unsigned s).map fun x => (-x.1, x.2) else unsigned (c :: s)

/-! ### Section 7: strings -/

/-- A UTF-16 code unit of four hexadecimal digits. -/
def unit4 (a b c d : Char) : Option Nat :=
  match Go.hexVal a, Go.hexVal b, Go.hexVal c, Go.hexVal d with
  | some a, some b, some c, some d => some (((a * 16 + b) * 16 + c) * 16 + d)
  | _, _, _, _ => none

/-- The first and second half of a surrogate pair. -/
def isHigh (u : Nat) : Bool := decide (0xD800 ≤ u ∧ u < 0xDC00)
@[inherit_doc isHigh] def isLow (u : Nat) : Bool := decide (0xDC00 ≤ u ∧ u < 0xE000)

/-- The character of a code unit, of two if they are a surrogate pair; U+FFFD for half a pair. -/
def codePoint (u : Nat) (s : List Char) : Char × List Char :=
  if isLow u then (Char.ofNat 0xFFFD, s)
  else if isHigh u then
    match s with
    | x :: y :: a :: b :: c :: d :: t =>
      if x = '\\' ∧ y = 'u' then
        match unit4 a b c d with
        | some l => if isLow l then (Char.ofNat (0x10000 + (u - 0xD800) * 1024 + (l - 0xDC00)), t) else (Char.ofNat 0xFFFD, s)
        | none => (Char.ofNat 0xFFFD, s)
      else (Char.ofNat 0xFFFD, s)
    | _ => (Char.ofNat 0xFFFD, s)
  else (Char.ofNat u, s)

/-- The character of a one-letter escape. -/
def simpleEsc (e : Char) : Option Char :=
  if e = '"' ∨ e = '\\' ∨ e = '/' then some e
  else if e = 'b' then some (Char.ofNat 8)
  else if e = 'f' then some (Char.ofNat 12)
  else if e = 'n' then some '\n'
  else if e = 'r' then some '\r'
  else if e = 't' then some '\t'
  else none

/-- What follows a backslash: the character and the rest. -/
def escape : List Char → Option (Char × List Char)
  | [] => none
  | e :: s =>
    if e = 'u' then
      match s with
      | a :: b :: c :: d :: t => (unit4 a b c d).map fun u => codePoint u t
      | _ => none
    else (simpleEsc e).map fun x => (x, s)

/-- The characters up to the closing quote, and what follows it. -/
def chars : Nat → List Char → Option (List Char × List Char)
  | 0, _ => none
  | n + 1, s => match s with
    | [] => none
    | c :: s =>
      if c = '"' then some ([], s)
      else if c.toNat < 32 then none
      else if c = '\\' then
        match escape s with
        | none => none
        | some (x, t) => (chars n t).map fun y => (x :: y.1, y.2)
      else (chars n s).map fun y => (c :: y.1, y.2)

/-- A fixed text. -/
def name : List Char → List Char → Option (List Char)
  | [], s => some s
  | _ :: _, [] => none
  | c :: cs, d :: s => if c = d then name cs s else none

/-! ### Sections 3 to 5: values, objects, arrays.  The first argument bounds the depth of the recursion. -/

mutual

/-- A value, white space before it allowed, and what follows it. -/
def value : Nat → List Char → Option (Json × List Char)
  | 0, _ => none
  | n + 1, s => match skipWs s with
    | [] => none
    | c :: t =>
      if c = '"' then (chars (t.length + 1) t).map fun x => (.str x.1, x.2)
      else if c = '[' then
        match skipWs t with
        | [] => none
        | d :: u => if d = ']' then some (.arr [], u) else (items n t).map fun x => (.arr x.1, x.2)
      else if c = '{' then
        match skipWs t with
        | [] => none
        | d :: u => if d = '}' then some (.obj [], u) else (members n t).map fun x => (.obj x.1, x.2)
      else if c = 't' then (name ['r', 'u', 'e'] t).map fun r => (.bool true, r)
      else if c = 'f' then (name ['a', 'l', 's', 'e'] t).map fun r => (.bool false, r)
      else if c = 'n' then (name ['u', 'l', 'l'] t).map fun r => (.null, r)
      else (number (c :: t)).map fun x => (.num x.1, x.2)

/-- The elements of an array, up to the closing bracket. -/
def items : Nat → List Char → Option (List Json × List Char)
  | 0, _ => none
  | n + 1, s => match value n s with
    | none => none
    | some (x, r) => match skipWs r with
      | [] => none
      | d :: u =>
        if d = ',' then (items n u).map fun y => (x :: y.1, y.2)
        else if d = ']' then some ([x], u) else none

/-- The members of an object, up to the closing brace. -/
def members : Nat → List Char → Option (List (List Char × Json) × List Char)
  | 0, _ => none
  | n + 1, s => match skipWs s with
    | [] => none
    | q :: t =>
      if q = '"' then
        match chars (t.length + 1) t with
        | none => none
        | some (k, r) => match skipWs r with
          | [] => none
          | d :: u =>
            if d = ':' then
              match value n u with
              | none => none
              | some (v, r) => match skipWs r with
                | [] => none
                | e :: w =>
                  if e = ',' then (members n w).map fun y => ((k, v) :: y.1, y.2)
                  else if e = '}' then some ([(k, v)], w) else none
            else none
      else none

end

/-- What a JSON text denotes; `none` if the text is not JSON. -/
def parse (s : List Char) : Option Json :=
  match value (s.length + 1) s with
  | none => none
  | some (j, r) => if skipWs r = [] then some j else none

end Verif.JsonSpec
