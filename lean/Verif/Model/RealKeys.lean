import Verif.Model.Bech32
import Verif.Model.Conversion

/-!
# Keys, key texts and peer ids as the node has them

The parameters `Codec` of `Verif.Conversion` filled in: bech32 texts (`Verif.Bech32`), points (`Verif.Curve`) and libp2p's peer ids. A peer id is
its bytes; its printed form (base58) is left out.

Simplification: of libp2p's encodings of a key inside a peer id only the one it writes itself is accepted.
-/
namespace Verif.RealKeys
open Verif.Conversion Verif.Curve Verif.Bech32

/-- a peer id made of a secp256k1 key: identity hash (0), 37 bytes, and the protobuf form of the key: type (8, 2), data of 33 bytes (0x12, 0x21) -/
def peerPrefix : Bytes := [0x00, 0x25, 0x08, 0x02, 0x12, 0x21]

/-- conversion/key_provider.go:24-28 `UnmarshalSecp256k1PublicKey` and `peer.IDFromPublicKey` -/
def peerOf (b : Bytes) : Option Bytes := (parsePubKey b).map fun pt => peerPrefix ++ serializeCompressed pt

/-- conversion/key_provider.go:72-83 `peer.Decode`, `ExtractPublicKey` and `Raw` -/
def rawOf (p : Bytes) : Option Bytes :=
  if p.take 6 = peerPrefix ∧ p.length = 39 then (parsePubKey (p.drop 6)).map serializeCompressed else none

/-- the encodings used by the conversion package -/
def codec : Codec Str Bytes := ⟨decodeKey, encodeKey, peerOf, rawOf⟩

end Verif.RealKeys
