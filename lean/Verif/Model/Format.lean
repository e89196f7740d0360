import Verif.Model.Cast
import Verif.Go.Hex

/-!
# FORMAT (internal/function_format.go)

The conversions of floating-point numbers and JSON (`f F e E g G p P`) and of the values other than INT64, BOOL, STRING and
NUMERIC by `t` and `T` are left to the parameter `ext`.
-/

namespace Verif.Format

open Go Verif.Val Cast

/-- FormatFlag, function_format.go:374-384. -/
inductive Flag where
  | none | minus | plus | space | sharp | zero | quote
  deriving DecidableEq, Repr

/-- FormatWidth and FormatPrecision, function_format.go:386-406: absent, a number, or `*`. -/
inductive Amount where
  | absent
  | num (n : Nat)
  | arg
  deriving DecidableEq, Repr

/-- FormatParam, function_format.go:329-334. -/
structure Param where
  flag : Flag
  width : Amount
  precision : Amount
  spec : Char
  deriving DecidableEq, Repr

/-- The keys of formatSpecifierTable, function_format.go:17-86. -/
def table : List Char := ['d', 'i', 'o', 'x', 'X', 'f', 'F', 'e', 'E', 'g', 'G', 'p', 'P', 's', 't', 'T', '%']

/-- A digit. -/
def digit (c : Char) : Bool := decide (48 ≤ c.toNat ∧ c.toNat ≤ 57)

/-- parseFormatFlag, function_format.go:483-505. -/
def parseFlag : List Char → Flag × List Char
  | [] => (.none, [])
  | c :: s =>
    if c = '-' then (.minus, s)
    else if c = '+' then (.plus, s)
    else if c = ' ' then (.space, s)
    else if c = '#' then (.sharp, s)
    else if c = '0' then (.zero, s)
    else if c = '\'' then (.quote, s)
    else (.none, c :: s)

/-- The number in parseFormatWidth and parseFormatPrecision. -/
def number (ds : List Char) : Res Amount :=
  if ds = [] then .ok .absent
  else match parseNat ds with
    | some n => if InI64 n then .ok (.num n) else .err
    | none => .err

/-- parseFormatWidth, function_format.go:507-531. -/
def parseWidth (s : List Char) : Res (Amount × List Char) :=
  match s.dropWhile digit with
  | c :: r => if c = '*' then .ok (.arg, r) else (number (s.takeWhile digit)).bind fun a => .ok (a, c :: r)
  | [] => (number (s.takeWhile digit)).bind fun a => .ok (a, [])

/-- parseFormatPrecision, function_format.go:533-560: there is no progress after `*`. -/
def parsePrecision (s : List Char) : Res (Amount × List Char) :=
  match s with
  | [] => .ok (.absent, [])
  | c :: s =>
    if c ≠ '.' then .ok (.absent, c :: s)
    else match s.dropWhile digit with
      | c :: r => if c = '*' then .ok (.arg, c :: r) else (number (s.takeWhile digit)).bind fun a => .ok (a, c :: r)
      | [] => (number (s.takeWhile digit)).bind fun a => .ok (a, [])

/-- What follows a percent sign, function_format.go:436-461: the directive and the rest of the format. -/
def directive (s : List Char) : Res (Param × List Char) :=
  if s = [] then .err
  else (parseWidth (parseFlag s).2).bind fun w => (parsePrecision w.2).bind fun p =>
    match p.2 with
    | [] => .err
    | c :: r => if c ∈ table then .ok ({ flag := (parseFlag s).1, width := w.1, precision := p.1, spec := c }, r) else .err

/-- requiredArgNum, function_format.go:336-348. -/
def required (p : Param) : Nat :=
  if p.spec = '%' then 0 else 1 + (if p.width = .arg then 1 else 0) + (if p.precision = .arg then 1 else 0)

/-- The validate functions, function_format.go:88-171.  There is no JSON value, and every value has a text (ToString). -/
def fits (spec : Char) (v : Val) : Res Unit :=
  if spec = 'd' ∨ spec = 'i' then (match v with | .int _ => .ok () | _ => .err)
  else if spec = 'o' ∨ spec = 'x' ∨ spec = 'X' then (match v with | .int i => if i < 0 then .err else .ok () | _ => .err)
  else if spec = 's' then (match v with | .str _ => .ok () | _ => .err)
  else if spec = 't' ∨ spec = 'T' then (if v.isNull then .panic else .ok ())
  else if spec = 'p' ∨ spec = 'P' then .err
  else (match v with | .num _ _ => .ok () | _ => .err)

/-- Is it an INT64? -/
def isInt : Val → Bool
  | .int _ => true
  | _ => false

/-- validateArgs, function_format.go:350-372.  `args` are as many as required. -/
def validate (p : Param) (args : List Val) : Res Unit :=
  if p.spec = '%' then .ok ()
  else
    let stars := (if p.width = .arg then 1 else 0) + (if p.precision = .arg then 1 else 0)
    if (args.take stars).all isInt then
      match args.drop stars with
      | v :: _ => fits p.spec v
      | [] => .panic
    else .err

/-- FormatWidth.format, function_format.go:391-406: the width and the remaining arguments. -/
def widthOf : Amount → List Val → Nat × List Val
  | .arg, .int w :: args => (w.toNat, args)
  | .num n, args => (n, args)
  | _, args => (0, args)

/-- The digits in base `b`, function `fmtInteger` of package fmt. -/
def baseDigits (b : Nat) : Nat → Nat → List Char
  | 0, _ => []
  | f + 1, n => if n < b then [hexDigit n] else baseDigits b f (n / b) ++ [hexDigit (n % b)]

/-- Upper case of the letters a to f. -/
def upper (c : Char) : Char := if 97 ≤ c.toNat ∧ c.toNat ≤ 102 then Char.ofNat (c.toNat - 32) else c

/-- The digits for a verb. -/
def verbDigits (spec : Char) (n : Nat) : List Char :=
  if spec = 'o' then baseDigits 8 (n + 1) n
  else if spec = 'x' then baseDigits 16 (n + 1) n
  else if spec = 'X' then (baseDigits 16 (n + 1) n).map upper
  else decNat n

/-- fmt.Sprintf of `%`, an optional 0, an optional width and a verb: padding with spaces, or with zeros after the sign.  A
width whose number without the last digit exceeds a million ends the format. -/
def sprintf (zero : Bool) (w : Nat) (spec : Char) (v : Int) : List Char :=
  let sign := if v < 0 then ['-'] else []
  let ds := verbDigits spec v.natAbs
  if 1000000 < w / 10 then ['%', '!', '(', 'N', 'O', 'V', 'E', 'R', 'B', ')', '%', '!', '(', 'E', 'X', 'T', 'R', 'A', ' ', 'i', 'n', 't', '6', '4', '='] ++ (decInt v ++ [')'])
  else if zero then sign ++ (List.replicate (w - (sign.length + ds.length)) '0' ++ ds)
  else List.replicate (w - (sign.length + ds.length)) ' ' ++ (sign ++ ds)

/-- The loop of function_format.go:198-217, which fills a slice from the right: `text` is reversed, `count` the number of
characters written.  A comma that would be at index -1 is left out. -/
def commas : Nat → List Char → List Char
  | _, [] => []
  | _, [c] => [c]
  | count, c :: cs => if (count + 1) % 3 = 0 then c :: ',' :: commas (count + 1) cs else c :: commas (count + 1) cs

/-- parseInteger, function_format.go:173-230. -/
def integer (p : Param) (args : List Val) : Res (List Char) :=
  match (widthOf p.width args).2 with
  | .int v :: _ =>
    let w := (widthOf p.width args).1
    let spec := if p.spec = 'i' then 'd' else p.spec
    match p.flag with
    | .none => .ok (sprintf false w spec v)
    | .zero => .ok (sprintf true w spec v)
    | .plus => .ok ((if v > 0 then ['+'] else []) ++ sprintf false w spec v)
    | .space => .ok (' ' :: sprintf false w spec v)
    | .quote => if p.spec = 'd' ∨ p.spec = 'i' then .ok (commas 0 (decInt v).reverse).reverse else .err
    | .minus => .err
    | .sharp => .err
  | _ => .err

/-- The parse functions of formatSpecifierTable: integers; parseString, function_format.go:296-302; parsePrintableString,
function_format.go:304-306 with (Value).Format, value.go:173, 316, 790, 892. -/
def convert (ext : Param → List Val → Res (List Char)) (p : Param) (args : List Val) : Res (List Char) :=
  if p.spec = '%' then .ok ['%']
  else if p.spec = 'd' ∨ p.spec = 'i' ∨ p.spec = 'o' ∨ p.spec = 'x' ∨ p.spec = 'X' then integer p args
  else match p.spec, args with
    | 's', v :: _ => toStr v
    | 't', .int i :: _ => .ok (decInt i)
    | 't', .bool b :: _ => toStr (.bool b)
    | 't', .str s :: _ => .ok s
    | 't', .num r big :: _ => .ok (numText r big)
    | _, _ => ext p args

/-- The loop of parseFormat, function_format.go:425-481.  The number bounds the length of the format. -/
def run (ext : Param → List Val → Res (List Char)) : Nat → List Char → List Val → Res (List Char)
  | 0, _, _ => .ok []
  | _ + 1, [], _ => .ok []
  | n + 1, c :: s, args =>
    if c = '%' then
      (directive s).bind fun d =>
        if args.length < required d.1 then .err
        else (validate d.1 (args.take (required d.1))).bind fun _ => (convert ext d.1 (args.take (required d.1))).bind fun text =>
          (run ext n d.2 (args.drop (required d.1))).bind fun rest => .ok (text ++ rest)
    else (run ext n s args).bind fun rest => .ok (c :: rest)

/-- parseFormat; FORMAT(f, args…) without NULLs (function_string.go:140, function_bind.go:825-840). -/
def format (ext : Param → List Val → Res (List Char)) (f : List Char) (args : List Val) : Res (List Char) := run ext f.length f args

end Verif.Format
