import Verif.Model.RealKeys

/-!
# The printed form of peer ids

What `peer.ID.String` and `peer.Decode` of go-libp2p-core do with the peer ids of the program: base58 as mr-tron/base58 writes and reads it, and the
check of the two kinds of multihash that libp2p uses for peer ids.

Simplifications: texts that are a CID (the second form which `peer.Decode` reads) are read by a parameter; of all multihashes only the identity and
SHA2-256 ones with lengths below 128 are accepted (libp2p makes no other peer ids).
-/
namespace Verif.Base58
open Verif.Bech32 (Str)

/-- the letters of base58 (mr-tron/base58 `BTCAlphabet`) -/
def alphabet : Str := "123456789ABCDEFGHJKLMNPQRSTUVWXYZabcdefghijkmnopqrstuvwxyz".toList

/-- the value of digits in base `B`, most significant first -/
def value (B : Nat) (ds : List Nat) : Nat := ds.foldl (fun acc d => acc * B + d) 0

/-- the digits of a number in base `B`, least significant first, without leading zeros; the first argument bounds their number -/
def digitsAux (B : Nat) : Nat → Nat → List Nat
  | 0, _ => []
  | fuel + 1, n => if n = 0 then [] else n % B :: digitsAux B fuel (n / B)

/-- the digits of a number in base `B`, most significant first -/
def digits (B n : Nat) : List Nat := (digitsAux B n n).reverse

/-- digits in base `A` as digits in base `B`; leading zeros are kept one by one -/
def convert (A B : Nat) (ds : List Nat) : List Nat := List.replicate (ds.takeWhile (· == 0)).length 0 ++ digits B (value A ds)

/-- mr-tron/base58 `Encode` (`peer.ID.String`, used e.g. in p2p/communication.go:100, p2p/party_coordinator.go:459, blame/policy.go:84) -/
def encode (b : Bytes) : Str := (convert 256 58 (b.map UInt8.toNat)).map fun d => alphabet.getD d '1'

/-- the values of letters, `none` for a letter which is not in the alphabet -/
def values : Str → Option (List Nat)
  | [] => some []
  | c :: cs => match alphabet.idxOf? c, values cs with
    | some d, some ds => some (d :: ds)
    | _, _ => none

/-- mr-tron/base58 `Decode`: no empty texts, no other letters -/
def decode (s : Str) : Option Bytes :=
  if s = [] then none else (values s).map fun ds => (convert 58 256 ds).map UInt8.ofNat

/-- go-multihash `Cast` -/
def isMultihash : Bytes → Bool
  | code :: len :: hash => (code == 0x00 || code == 0x12) && decide (len.toNat < 128) && decide (hash.length = len.toNat)
  | _ => false

/-- go-libp2p-core `peer.Decode` (conversion/key_provider.go:72, common/tss.go:380, 609, p2p/party_coordinator.go:212, 332); `cid` reads the texts of
the other form -/
def peerDecode (cid : Str → Option Bytes) (s : Str) : Option Bytes :=
  if s.take 2 = "Qm".toList ∨ s.take 1 = "1".toList then
    match decode s with
    | some b => if isMultihash b then some b else none
    | none => none
  else cid s

/-- conversion/key_provider.go:71-86 `GetPubKeyFromPeerID`, which is given the text of the peer id -/
def GetPubKeyFromPeerID (cid : Str → Option Bytes) (s : Str) : Go.Res Str :=
  match peerDecode cid s with
  | none => .err "fail to decode peer id"
  | some p => Conversion.GetPubKeyFromPeerID RealKeys.codec p

end Verif.Base58
