import Verif.Go.RegexpEngine
import Verif.Model.Strings

/-!
# REGEXP_CONTAINS, REGEXP_EXTRACT, REGEXP_EXTRACT_ALL, REGEXP_INSTR and REGEXP_REPLACE
(internal/function_string.go, bind functions in internal/function_bind.go:1051-1144)

The matching engine is a parameter.  Texts are given as their bytes: a STRING result is cut at byte positions and
need not be valid UTF-8; its type is that of the first argument.  Position and occurrence are not NULL (any NULL
argument gives NULL before they are read).  REGEXP_REPLACE is modelled for STRING.
-/

namespace Verif.Regexps

open Go Verif.Val

/-- `ToString` of a STRING or BYTES argument: BYTES as base64 (value.go:399). -/
def asString : Val → Res (List UInt8)
  | .str s => .ok (utf8 s)
  | .bytes b => .ok (utf8 (Base64.encode b))
  | _ => .err

/-- `ToBytes` of a STRING or BYTES argument. -/
def asBytes : Val → Res (List UInt8)
  | .str s => .ok (utf8 s)
  | .bytes b => .ok b
  | _ => .err

/-- regexp.Compile. -/
def compile (E : Engine) (p : List UInt8) : Res E.Re := match E.compile p with
  | some re => .ok re
  | none => .err

/-- function_bind.go:1051-1064 and function_string.go:485-491 REGEXP_CONTAINS; `none` is NULL. -/
def contains (E : Engine) (v p : Val) : Res (Option Bool) :=
  if v.isNull ∨ p.isNull then .ok none
  else (asString v).bind fun b => (asString p).bind fun q => (compile E q).bind fun re =>
    .ok (some (!(E.findAll re b).isEmpty))

/-- function_string.go:507-517, 524-532: the matches of the text from byte `pos` on; the last group of the match
counts. -/
def extractAt (E : Engine) (re : E.Re) (b : List UInt8) (pos occ : Nat) : Option (List UInt8) :=
  match ((E.findAll re (b.drop pos)).take occ)[occ - 1]? with
  | none => none
  | some m => some (groupBytes (b.drop pos) m.last)

/-- function_bind.go:1066-1091 and function_string.go:493-536 REGEXP_EXTRACT; `none` is NULL. -/
def extract (E : Engine) (v p : Val) (position occurrence : Int) : Res (Option (List UInt8)) :=
  if v.isNull ∨ p.isNull then .ok none
  else (asString p).bind fun q =>
    if position ≤ 0 then .err else if occurrence ≤ 0 then .err
    else (compile E q).bind fun re => match v with
      | .str s => .ok (if position - 1 ≥ s.length then none else extractAt E re (utf8 s) (position - 1).toNat occurrence.toNat)
      | .bytes b => .ok (if position - 1 ≥ b.length then none else extractAt E re b (position - 1).toNat occurrence.toNat)
      | _ => .err

/-- function_bind.go:1093-1102 and function_string.go:538-568 REGEXP_EXTRACT_ALL; `none` is NULL. -/
def extractAll (E : Engine) (v p : Val) : Res (Option (List (List UInt8))) :=
  if v.isNull ∨ p.isNull then .ok none
  else (asString p).bind fun q => (compile E q).bind fun re => (asBytes v).bind fun b =>
    .ok (some ((E.findAll re b).map fun m => groupBytes b m.last))

/-- function_string.go:593-601, 621-629: the `which`-th offset of the match, counted in bytes. -/
def instrAt (E : Engine) (re : E.Re) (b : List UInt8) (pos occ : Nat) (which : Int) : Res Int :=
  match ((E.findAll re (b.drop pos)).take occ)[occ - 1]? with
  | none => .ok 0
  | some m =>
    if (m.offsets.length : Int) ≤ which then .ok 0
    else if which < 0 then .panic
    else match m.offsets[which.toNat]? with
      | some i => .ok (pos + i + 1)
      | none => .panic

/-- function_bind.go:1104-1135 and function_string.go:570-631 REGEXP_INSTR; `none` is NULL. -/
def instr (E : Engine) (v p : Val) (position occurrence which : Int) : Res (Option Int) :=
  if v.isNull ∨ p.isNull then .ok none
  else if position ≤ 0 then .err else if occurrence ≤ 0 then .err
  else match v, p with
    | .str s, .str q => (compile E (utf8 q)).bind fun re =>
      if position - 1 ≥ s.length then .ok (some 0)
      else (instrAt E re (utf8 s) (position - 1).toNat occurrence.toNat which).bind fun i => .ok (some i)
    | .bytes b, .bytes q => (compile E q).bind fun re =>
      if position - 1 ≥ b.length then .ok (some 0)
      else (instrAt E re b (position - 1).toNat occurrence.toNat which).bind fun i => .ok (some i)
    | _, _ => .err

/-- function_string.go:633-662 normalizeReplacement.  The closing brace is written only if something follows the
digits; otherwise the digits after the first are read again.  A backslash at the end reads past the text. -/
def normalize (t : List Char) : Res (List Char) :=
  match t with
  | [] => .ok []
  | c :: t =>
    if c = '\\' then
      match t with
      | [] => .panic
      | d :: t =>
        if d.isDigit ∧ d ≠ '0' then
          if t.dropWhile Char.isDigit = [] then
            (normalize t).bind fun r => .ok (['$', '{', d] ++ t.takeWhile Char.isDigit ++ r)
          else (normalize (t.dropWhile Char.isDigit)).bind fun r => .ok (['$', '{', d] ++ t.takeWhile Char.isDigit ++ ['}'] ++ r)
        else (normalize t).bind fun r => .ok (['\\', d] ++ r)
    else (normalize t).bind fun r => .ok (c :: r)
termination_by t.length
decreasing_by all_goals first
  | (have := length_dropWhile_le Char.isDigit t; simp; omega)
  | (rename_i a t _ _ _; have := length_dropWhile_le Char.isDigit t; simp; omega)
  | (simp; omega) | simp

/-- function_string.go:664-684 REGEXP_REPLACE of a STRING; `none` is NULL. -/
def replace (E : Engine) (v p t : Val) : Res (Option (List UInt8)) := match v, p, t with
  | .str s, .str q, .str t => (compile E (utf8 q)).bind fun re => (normalize t).bind fun n =>
    .ok (some (replaceMatches (utf8 s) (expand E.word (E.names re) (utf8 s) · n) 0 (E.findAll re (utf8 s))))
  | v, p, t => if v.isNull ∨ p.isNull ∨ t.isNull then .ok none else .err

end Verif.Regexps
