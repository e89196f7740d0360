import Verif.Go.Hex
import Verif.Model.Net

/-!
# The IPv6 half of net/netip

Part of the trusted model of Go, written from net/netip of the Go releases that refuse groups of more than four digits:
`parseIPv6` reads a text, `text6` is `Addr.String` of a 16-byte address.  Zones are dropped: `AsSlice`
(function_net.go:165) does not return them.
-/

namespace Verif.Net

open Go

def isHex (c : Char) : Bool := (hexVal c).isSome

/-- The number that hex digits spell. -/
def hexNum (ds : List Char) : Nat := ds.foldl (fun a c => 16 * a + (hexVal c).getD 0) 0

/-- The loop of parseIPv6: `ip` are the bytes read, `ell` is the position of the `::`.  The result has the text that is
left. -/
def v6Loop (s : List Char) (ip : List UInt8) (ell : Option Nat) : Option (List UInt8 × Option Nat × List Char) :=
  if ip.length < 16 then
    if 4 < (s.takeWhile isHex).length ∨ s.takeWhile isHex = [] then none
    else match s.dropWhile isHex with
      | [] => some (ip ++ [UInt8.ofNat (hexNum (s.takeWhile isHex) / 256), UInt8.ofNat (hexNum (s.takeWhile isHex))], ell, [])
      | c :: s1 =>
        if c = '.' then
          if ell = none ∧ ip.length ≠ 12 then none
          else if 16 < ip.length + 4 then none
          else (parseLoop s 0 0 []).map fun f => (ip ++ f, ell, [])
        else if c ≠ ':' then none
        else match s1 with
          | [] => none
          | d :: s2 =>
            if d = ':' then
              if ell.isSome then none
              else if s2 = [] then
                some (ip ++ [UInt8.ofNat (hexNum (s.takeWhile isHex) / 256), UInt8.ofNat (hexNum (s.takeWhile isHex))], some (ip.length + 2), [])
              else v6Loop s2 (ip ++ [UInt8.ofNat (hexNum (s.takeWhile isHex) / 256), UInt8.ofNat (hexNum (s.takeWhile isHex))])
                (some (ip.length + 2))
            else v6Loop (d :: s2) (ip ++ [UInt8.ofNat (hexNum (s.takeWhile isHex) / 256), UInt8.ofNat (hexNum (s.takeWhile isHex))]) ell
  else some (ip, ell, s)
termination_by 16 - ip.length
decreasing_by all_goals simp; omega

/-- The end of parseIPv6: the `::` is expanded. -/
def v6Finish : List UInt8 × Option Nat × List Char → Option (List UInt8)
  | (ip, ell, s) =>
    if s ≠ [] then none
    else if ip.length < 16 then
      match ell with
      | none => none
      | some e => some (ip.take e ++ List.replicate (16 - ip.length) 0 ++ ip.drop e)
    else if ell.isSome then none
    else some ip

/-- parseIPv6 without the zone. -/
def v6Body (s : List Char) : Option (List UInt8) :=
  match s with
  | ':' :: ':' :: r => if r = [] then some (List.replicate 16 0) else (v6Loop r [] (some 0)).bind v6Finish
  | s => (v6Loop s [] none).bind v6Finish

/-- netip.parseIPv6 -/
def parse6 (s : List Char) : Option (List UInt8) :=
  match s.dropWhile (· ≠ '%') with
  | [] => v6Body s
  | _ :: zone => if zone = [] then none else v6Body (s.takeWhile (· ≠ '%'))

/-! ### Text -/

/-- Addr.v6u16: the eight words of an address. -/
def words : List UInt8 → List Nat
  | a :: b :: r => (256 * a.toNat + b.toNat) :: words r
  | _ => []

/-- appendHex -/
def hex16 (x : Nat) : List Char :=
  (if x ≥ 4096 then [hexDigit (x / 4096)] else []) ++ (if x ≥ 256 then [hexDigit (x / 256 % 16)] else []) ++
    (if x ≥ 16 then [hexDigit (x / 16 % 16)] else []) ++ [hexDigit (x % 16)]

/-- The number of zero words from word `i` on. -/
def zeroRun (ws : List Nat) (i : Nat) : Nat := ((ws.drop i).takeWhile (· == 0)).length

/-- The first loop of appendTo6: start and end of the words to leave out; 255 if there are none. -/
def bestRun (ws : List Nat) : Nat × Nat :=
  (List.range 8).foldl (fun a i => if 2 ≤ zeroRun ws i ∧ a.2 - a.1 < zeroRun ws i then (i, i + zeroRun ws i) else a) (255, 255)

/-- The second loop of appendTo6 from word `i` on, for at most `n` rounds. -/
def printLoop (ws : List Nat) (zs ze : Nat) : Nat → Nat → List Char
  | 0, _ => []
  | n + 1, i =>
    if i ≥ 8 then []
    else if i = zs then
      [':', ':'] ++ (if ze ≥ 8 then [] else hex16 (ws.getD ze 0) ++ printLoop ws zs ze n (ze + 1))
    else (if i > 0 then [':'] else []) ++ hex16 (ws.getD i 0) ++ printLoop ws zs ze n (i + 1)

/-- Addr.String of a 16-byte address. -/
def text6 (b : List UInt8) : List Char :=
  if b.take 12 = List.replicate 10 0 ++ [255, 255] then [':', ':', 'f', 'f', 'f', 'f', ':'] ++ ipv4Text (b.drop 12)
  else printLoop (words b) (bestRun (words b)).1 (bestRun (words b)).2 8 0

end Verif.Net
