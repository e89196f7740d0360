import Verif.Model.Hash

/-! # C262: hash functions -/

namespace Verif.Hash

open Go Verif.Val Verif.Cast Verif.Logic

/-- The length of the result in bytes. -/
def size : Fn → Nat
  | .md5 => 16
  | .sha1 => 20
  | .sha256 => 32
  | .sha512 => 64
  | .farm => 0

/-- **C262** A hash function hashes the bytes it is given, of a STRING the UTF-8 encoding: a STRING and the BYTES it is cast to have one hash.  The results of
MD5, SHA1, SHA256 and SHA512 are BYTES of fixed length, that of FARM_FINGERPRINT is the INT64 with the 64 bits of the fingerprint; of NULL it is NULL. -/
theorem C262 (L : Lib) (f : Fn) :
    (∀ s : List Char, bindHash L f [.str s] = bindHash L f [.bytes (utf8 s)]) ∧
    (∀ b : List UInt8, f ≠ .farm → ∃ h, bindHash L f [.bytes b] = .ok (.bytes h) ∧ h.length = size f) ∧
    (∀ b : List UInt8, ∃ i, bindHash L .farm [.bytes b] = .ok (.int i) ∧ InI64 i ∧ i % 2 ^ 64 = L.farm b) ∧
    bindHash L f [.null] = .ok .null ∧
    (∀ b : List UInt8, bindHash L .md5 [.bytes b] = .ok (.bytes (L.md5 b)) ∧ bindHash L .sha1 [.bytes b] = .ok (.bytes (L.sha1 b)) ∧
      bindHash L .sha256 [.bytes b] = .ok (.bytes (L.sha256 b)) ∧ bindHash L .sha512 [.bytes b] = .ok (.bytes (L.sha512 b))) := by
  refine ⟨fun s => rfl, fun b hf => ?_, fun b => ?_, rfl, fun b => ⟨rfl, rfl, rfl, rfl⟩⟩
  · cases f with
    | md5 => exact ⟨_, rfl, L.md5_length b⟩
    | sha1 => exact ⟨_, rfl, L.sha1_length b⟩
    | sha256 => exact ⟨_, rfl, L.sha256_length b⟩
    | sha512 => exact ⟨_, rfl, L.sha512_length b⟩
    | farm => exact absurd rfl hf
  · refine ⟨_, rfl, ?_, ?_⟩
    · unfold InI64 wrap64; omega
    · have := L.farm_lt b
      unfold wrap64; omega

/-- A library that meets the assumptions; its fingerprint of a text of one byte is above the range of INT64. -/
def zeroLib : Lib where
  md5 _ := List.replicate 16 0
  sha1 _ := List.replicate 20 0
  sha256 _ := List.replicate 32 0
  sha512 _ := List.replicate 64 0
  farm b := if b.length = 1 then 2 ^ 63 else 0
  md5_length _ := by simp
  sha1_length _ := by simp
  sha256_length _ := by simp
  sha512_length _ := by simp
  farm_lt b := by split <;> decide

example : bindHash zeroLib .farm [.bytes [97]] = .ok (.int (-9223372036854775808)) := by
  show Res.ok (Val.int (wrap64 ((if [(97 : UInt8)].length = 1 then 2 ^ 63 else 0 : Nat) : Int))) = _
  congr 2

end Verif.Hash
