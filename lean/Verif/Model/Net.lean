import Verif.Go.Strconv
import Verif.Model.Value

/-!
# Address functions (internal/function_net.go)

net.CIDRMask, net.IP.Mask, encoding/binary and the IPv4 half of net/netip are modelled from
the Go standard library; the IPv6 half is in `Verif.Go.Netip`.  NET.HOST, NET.PUBLIC_SUFFIX and
NET.REG_DOMAIN are in `Verif.Model.NetHost`.
-/

namespace Verif.Net

open Go Verif.Val

/-- The byte of net.CIDRMask with `n` leading ones: `^byte(0xff >> n)`. -/
def maskByte (n : Int) : UInt8 := ~~~ (UInt8.ofNat (255 / 2 ^ n.toNat))

/-- The loop of net.CIDRMask over `l` bytes with `n` ones left. -/
def maskLoop : Nat → Int → List UInt8
  | 0, _ => []
  | l + 1, n => if n ≥ 8 then 255 :: maskLoop l (n - 8) else maskByte n :: maskLoop l 0

/-- net.CIDRMask; `none` is the nil mask. -/
def cidrMask (ones bits : Int) : Option (List UInt8) :=
  if bits ≠ 32 ∧ bits ≠ 128 then none
  else if ones < 0 ∨ ones > bits then none
  else some (maskLoop (bits / 8).toNat ones)

/-- net.IP.Mask for an address and a mask of the same length. -/
def ipMask (ip mask : List UInt8) : List UInt8 := List.zipWith (· &&& ·) ip mask

/-- function_net.go:39-48 NET.IP_NET_MASK.  The mask is computed before the checks; a nil mask would be
empty BYTES. -/
def ipNetMask (output pfx : Int) : Res (List UInt8) :=
  let result := cidrMask pfx (wrap64 (output * 8))
  if output ≠ 4 ∧ output ≠ 16 then .err
  else if pfx < 0 ∨ pfx > wrap64 (output * 8) then .err
  else .ok (result.getD [])

/-- function_net.go:58-68 NET.IP_TRUNC -/
def ipTrunc (v : List UInt8) (length : Int) : Res (List UInt8) :=
  if v.length ≠ 4 ∧ v.length ≠ 16 then .err
  else if length < 0 ∨ length > (v.length : Int) * 8 then .err
  else .ok (ipMask v ((cidrMask length ((v.length : Int) * 8)).getD []))

/-- function_net.go:70-74 NET.IPV4_FROM_INT64: `uint32(v)`, big endian. -/
def ipv4FromInt64 (v : Int) : List UInt8 :=
  let u := (v % 4294967296).toNat
  [UInt8.ofNat (u / 16777216), UInt8.ofNat (u / 65536), UInt8.ofNat (u / 256), UInt8.ofNat u]

/-- function_net.go:76-81 NET.IPV4_TO_INT64 -/
def ipv4ToInt64 : List UInt8 → Res Int
  | [a, b, c, d] => .ok (a.toNat * 16777216 + b.toNat * 65536 + c.toNat * 256 + d.toNat)
  | _ => .err

/-! ### Text of IPv4 addresses -/

/-- netip.Addr.String of a 4-byte address: four decimal numbers with dots. -/
def ipv4Text : List UInt8 → List Char
  | [] => []
  | [a] => decNat a.toNat
  | a :: rest => decNat a.toNat ++ '.' :: ipv4Text rest

/-- netip.parseIPv4Fields: `val` and `n` are the value and the number of digits of the field being read, `acc` the
finished fields.  A leading zero, a field over 255, an empty field or another character is an error. -/
def parseLoop : List Char → (val n : Nat) → (acc : List UInt8) → Option (List UInt8)
  | [], val, n, acc => if n = 0 ∨ acc.length ≠ 3 then none else some (acc ++ [UInt8.ofNat val])
  | c :: s, val, n, acc =>
    match digitVal c with
    | some d =>
      if n = 1 ∧ val = 0 then none
      else if val * 10 + d > 255 then none
      else parseLoop s (val * 10 + d) (n + 1) acc
    | none =>
      if c = '.' then
        if n = 0 ∨ acc.length = 3 then none else parseLoop s 0 0 (acc ++ [UInt8.ofNat val])
      else none

/-- netip.ParseAddr: the first '.' or ':' decides; `v6` stands for the IPv6 parser.  No separator, or a zone
before one, is an error. -/
def parseAddr (v6 : List Char → Option (List UInt8)) (s : List Char) : Option (List UInt8) :=
  match s.find? fun c => c = '.' ∨ c = ':' ∨ c = '%' with
  | some c => if c = '.' then parseLoop s 0 0 [] else if c = ':' then v6 s else none
  | none => none

/-- function_net.go:31-37 NET.IP_FROM_STRING -/
def ipFromString (v6 : List Char → Option (List UInt8)) (s : List Char) : Res (List UInt8) :=
  match parseAddr v6 s with
  | some b => .ok b
  | none => .err

/-- function_net.go:117-123 NET.SAFE_IP_FROM_STRING; `none` is NULL. -/
def safeIpFromString (v6 : List Char → Option (List UInt8)) (s : List Char) : Res (Option (List UInt8)) :=
  .ok (parseAddr v6 s)

/-- function_net.go:50-56 NET.IP_TO_STRING; `t6` is the text of a 16-byte address. -/
def ipToString (t6 : List UInt8 → List Char) (b : List UInt8) : Res (List Char) :=
  if b.length = 4 then .ok (ipv4Text b) else if b.length = 16 then .ok (t6 b) else .err

end Verif.Net
