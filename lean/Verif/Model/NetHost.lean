import Verif.Go.Strings
import Verif.Model.NamePath

/-!
# NET.HOST, NET.PUBLIC_SUFFIX and NET.REG_DOMAIN (internal/function_net.go)

url.Parse, strings.ToLower with golang.org/x/net/idna and golang.org/x/net/publicsuffix are parameters; what the theorems need of
them is in `Web.Lawful`.
-/

namespace Verif.NetHost
open Verif.Go Verif.NamePath

/-- The libraries. -/
structure Web where
  /-- url.Parse: the field Host (name and port), `none` if it fails. -/
  parse : List Char → Option (List Char)
  /-- strings.TrimSpace. -/
  trimSpace : List Char → List Char
  /-- idna.ToASCII after strings.ToLower, `none` if it fails. -/
  toASCII : List Char → Option (List Char)
  /-- publicsuffix.PublicSuffix: the suffix and whether ICANN manages it. -/
  suffix : List Char → List Char × Bool

/-- What is known of the libraries: the conversion works label by label, a public suffix begins at a label. -/
structure Web.Lawful (w : Web) : Prop where
  labels : ∀ h e, w.toASCII h = some e → (splitDot e).length = (splitDot h).length
  suffix : ∀ e, e = (w.suffix e).1 ∨ ∃ pre, e = pre ++ '.' :: (w.suffix e).1

/-- net/url validOptionalPort on a text that begins with a colon or is empty. -/
def validOptionalPort : List Char → Bool
  | [] => true
  | c :: r => decide (c = ':') && r.all fun d => decide (48 ≤ d.toNat ∧ d.toNat ≤ 57)

/-- The text before its last colon and from it on (strings.LastIndexByte). -/
def lastColon : List Char → Option (List Char × List Char)
  | [] => none
  | c :: s => match lastColon s with
    | some (a, b) => some (c :: a, b)
    | none => if c = ':' then some ([], ':' :: s) else none

/-- Host without its port. -/
def stripPort (host : List Char) : List Char :=
  match lastColon host with
  | some (a, b) => if validOptionalPort b then a else host
  | none => host

/-- url.URL.Hostname: without port and brackets. -/
def hostname (host : List Char) : List Char :=
  if (stripPort host).head? = some '[' ∧ (stripPort host).getLast? = some ']' then ((stripPort host).drop 1).dropLast else stripPort host

/-- function_net.go:128-140 parseURL; the Host, `none` for a nil URL. -/
def parseURL (w : Web) (v : List Char) : Option (List Char) :=
  match w.parse v with
  | none => none
  | some host => if host = [] then w.parse ('/' :: '/' :: w.trimSpace v) else some host

/-- function_net.go:16-29 and function_bind.go:2964-2976 NET.HOST -/
def netHost (w : Web) : Option (List Char) → Res (Option (List Char))
  | none => .ok none
  | some v => match parseURL w v with
    | none => .ok none
    | some host =>
      if hostname host = [] then .ok none
      else if host.head? = some '[' then .ok (some ('[' :: (hostname host ++ [']'])))
      else .ok (some (hostname host))

/-- After a character that is no dot and `n` dots: whether two or more dots and another character follow. -/
def dotsAfter : Nat → List Char → Bool
  | _, [] => false
  | n, c :: s => if c = '.' then dotsAfter (n + 1) s else decide (2 ≤ n) || dotsAfter 0 s

/-- function_net.go:143 the regular expression `[^.]\\.{2,}[^.]` finds a match. -/
def dotsInside : List Char → Bool
  | [] => false
  | c :: s => if c = '.' then dotsInside s else dotsAfter 0 s

/-- function_net.go:146-161 publicSuffix; a negative slice index panics. -/
def publicSuffix (w : Web) (host : List Char) : Res (List Char) :=
  if dotsInside host then .ok []
  else match w.toASCII host with
    | none => .err
    | some e =>
      if (w.suffix e).2 = false then .ok []
      else if (splitDot host).length < (splitDot (w.suffix e).1).length then .panic
      else .ok (join ['.'] ((splitDot host).drop ((splitDot host).length - (splitDot (w.suffix e).1).length)))

/-- function_net.go:83-97 and function_bind.go:3058-3067 NET.PUBLIC_SUFFIX; NULL is a nil interface whose method is called. -/
def netPublicSuffix (w : Web) : Option (List Char) → Res (Option (List Char))
  | none => .panic
  | some v => match parseURL w v with
    | none => .ok none
    | some host => (publicSuffix w (hostname host)).bind fun suffix => .ok (if suffix = [] then none else some suffix)

/-- function_net.go:99-115 and function_bind.go:3069-3078 NET.REG_DOMAIN -/
def netRegDomain (w : Web) : Option (List Char) → Res (Option (List Char))
  | none => .panic
  | some v => match parseURL w v with
    | none => .ok none
    | some host => (publicSuffix w (hostname host)).bind fun suffix =>
      .ok (if hostname host = [] ∨ suffix = [] ∨ (splitDot (hostname host)).length ≤ (splitDot suffix).length then none
        else some (join ['.'] ((splitDot (hostname host)).drop ((splitDot (hostname host)).length - (splitDot suffix).length - 1))))

end Verif.NetHost
