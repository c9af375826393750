import Verif.Model.Base58
import Mathlib.Data.Nat.Digits.Defs

/-!
# Specification: peer ids and their texts

Written from the specifications of libp2p peer ids, multihash, protobuf and base58, not from the model.
-/
namespace Verif.Spec.PeerId
open Verif.Bech32 (Str)

/-- the letters of base58: digits and letters without `0`, `O`, `I` and `l` -/
def letters : Str := (("0123456789".toList ++ "ABCDEFGHIJKLMNOPQRSTUVWXYZ".toList ++ "abcdefghijklmnopqrstuvwxyz".toList).filter (· ∉ ['0', 'O', 'I', 'l']))

/-- `s` is the base58 text of `b`: read as digits of base 58 and 256, both are the same number, with the same number of leading zeros -/
def IsBase58 (s : Str) (b : Bytes) : Prop :=
  ∃ ds : List Nat, (∀ d ∈ ds, d < 58) ∧ s = ds.map (fun d => letters.getD d '?') ∧
    Nat.ofDigits 58 ds.reverse = Nat.ofDigits 256 (b.reverse.map UInt8.toNat) ∧ (ds.takeWhile (· == 0)).length = (b.takeWhile (· == 0)).length

/-- a field of a protobuf message whose value is a number below 128: wire type 0 -/
def numberField (field value : Nat) : Bytes := [UInt8.ofNat (field * 8 + 0), UInt8.ofNat value]

/-- a field of a protobuf message of less than 128 bytes: wire type 2, the length, the bytes -/
def bytesField (field : Nat) (b : Bytes) : Bytes := [UInt8.ofNat (field * 8 + 2), UInt8.ofNat b.length] ++ b

/-- the number of the key type secp256k1 among libp2p's key types (RSA 0, Ed25519 1, Secp256k1 2, ECDSA 3) -/
def secp256k1Type : Nat := 2

/-- libp2p's protobuf message for a public key: the type (field 1) and the data (field 2) -/
def publicKey (b : Bytes) : Bytes := numberField 1 secp256k1Type ++ bytesField 2 b

/-- the multihash of the identity function (code 0) -/
def identityHash (b : Bytes) : Bytes := [0, UInt8.ofNat b.length] ++ b

/-- the peer id of a secp256k1 key: the key message itself, as its length is at most 42 -/
def ofKey (b : Bytes) : Bytes := identityHash (publicKey b)

/-- the peer ids of libp2p: a short key itself, or the SHA2-256 hash (code 0x12, 0x20 bytes) of a long one -/
def IsPeerId (p : Bytes) : Prop := (∃ b : Bytes, b.length ≤ 42 ∧ p = identityHash b) ∨ ∃ h : Bytes, h.length = 32 ∧ p = [0x12, 0x20] ++ h

end Verif.Spec.PeerId
