import Verif.Model.Net
import Verif.Go.Hex

/-!
# Text of IPv6 addresses (RFC 4291, 2.2, and RFC 5952, 4)

Independent of package netip.
-/

namespace Verif.Ipv6Spec

open Go

/-- `t` is a group of one to four hex digits; `hi` and `lo` are its bytes. -/
def IsGroup (t : List Char) (hi lo : UInt8) : Prop :=
  0 < t.length ∧ t.length ≤ 4 ∧ (∀ c ∈ t, (hexVal c).isSome) ∧
    t.foldl (fun a c => 16 * a + (hexVal c).getD 0) 0 = 256 * hi.toNat + lo.toNat

/-- Groups with colons between them, and their bytes; with `quad` the last may be an IPv4 address in decimal. -/
inductive Pieces : Bool → List Char → List UInt8 → Prop where
  | group (quad : Bool) {t : List Char} {hi lo : UInt8} (h : IsGroup t hi lo) : Pieces quad t [hi, lo]
  | quad {b : List UInt8} (h : b.length = 4) : Pieces true (Net.ipv4Text b) b
  | cons {quad : Bool} {t s : List Char} {hi lo : UInt8} {b : List UInt8} (h : IsGroup t hi lo) (hs : Pieces quad s b) :
    Pieces quad (t ++ ':' :: s) (hi :: lo :: b)

/-- As `Pieces`, or nothing. -/
def Side (quad : Bool) (s : List Char) (b : List UInt8) : Prop := (s = [] ∧ b = []) ∨ Pieces quad s b

/-- The text denotes the address (RFC 4291): eight groups, or fewer with one `::` for at least one group of zeros. -/
def Denotes (s : List Char) (b : List UInt8) : Prop :=
  b.length = 16 ∧ (Pieces true s b ∨
    ∃ l bl r br, Side false l bl ∧ Side true r br ∧ s = l ++ ':' :: ':' :: r ∧ bl.length + br.length ≤ 14 ∧
      b = bl ++ List.replicate (16 - (bl.length + br.length)) 0 ++ br)

/-- Groups of a list of words as RFC 5952 wants them: lower case, no leading zeros, colons between them. -/
def groupText (w : Nat) : List Char :=
  if w < 16 then [hexDigit w] else groupText (w / 16) ++ [hexDigit (w % 16)]

def groupsText : List Nat → List Char
  | [] => []
  | [w] => groupText w
  | w :: ws => groupText w ++ ':' :: groupsText ws

/-- `n` words from word `i` on are zero. -/
def ZerosAt (ws : List Nat) (i n : Nat) : Prop := i + n ≤ ws.length ∧ ∀ k, i ≤ k → k < i + n → ws[k]? = some 0

/-- The text RFC 5952 recommends for eight words: the longest run of at least two zero words is left out, the first of
several. -/
def Recommended (ws : List Nat) (s : List Char) : Prop :=
  ((∀ i n, ZerosAt ws i n → n < 2) ∧ s = groupsText ws) ∨
  ∃ i n, 2 ≤ n ∧ ZerosAt ws i n ∧ (∀ j m, ZerosAt ws j m → m < n ∨ m = n ∧ i ≤ j) ∧
    s = groupsText (ws.take i) ++ ':' :: ':' :: groupsText (ws.drop (i + n))

end Verif.Ipv6Spec
