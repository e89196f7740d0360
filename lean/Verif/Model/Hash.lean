import Verif.Model.Cast
import Verif.Model.Logic

/-! # Hash functions (internal/function_hash.go, their binders internal/function_bind.go:613-681) -/

namespace Verif.Hash

open Go Verif.Val Verif.Cast Verif.Logic

/-- The packages crypto/md5, sha1, sha256, sha512 and github.com/dgryski/go-farm: the lengths of the sums and the range of the
fingerprint are all that is assumed of them. -/
structure Lib where
  md5 : List UInt8 → List UInt8
  sha1 : List UInt8 → List UInt8
  sha256 : List UInt8 → List UInt8
  sha512 : List UInt8 → List UInt8
  farm : List UInt8 → Nat
  md5_length : ∀ b, (md5 b).length = 16
  sha1_length : ∀ b, (sha1 b).length = 20
  sha256_length : ∀ b, (sha256 b).length = 32
  sha512_length : ∀ b, (sha512 b).length = 64
  farm_lt : ∀ b, farm b < 2 ^ 64

inductive Fn where
  | md5 | sha1 | sha256 | sha512 | farm
  deriving DecidableEq

/-- function_hash.go:13-35; `IntValue(farm.Fingerprint64(v))` converts a uint64. -/
def apply (L : Lib) (b : List UInt8) : Fn → Val
  | .md5 => .bytes (L.md5 b)
  | .sha1 => .bytes (L.sha1 b)
  | .sha256 => .bytes (L.sha256 b)
  | .sha512 => .bytes (L.sha512 b)
  | .farm => .int (wrap64 (L.farm b))

/-- function_bind.go:613-681 bindFarmFingerprint, bindMD5, bindSha1, bindSha256, bindSha512. -/
def bindHash (L : Lib) (f : Fn) (args : List Val) : Res Val :=
  match args with
  | [a] => if existsNull [a] then .ok .null else (toBytes a).bind fun b => .ok (apply L b f)
  | _ => .err

end Verif.Hash
