import Verif.Model.Bech32
import Verif.Model.Ripemd160

/-!
# The address of a pool key

`compressedPubkey.Address()` of the cosmos sdk and `AccAddress.String()` of gitlab.com/thorchain/binance-sdk (conversion/conversion.go:165-168, tss/keygen.go:128-133).
Library code which is not in /repo.
-/
namespace Verif.Address
open Verif.Curve Verif.Bech32

/-- binance-sdk `Network.Bech32Prefixes()`: the prefix for the network `ProdNetwork`. Nothing in /repo sets another network, and conversion/bech32.go does not change it. -/
def pre : Str := "bnb".toList

/-- cosmos-sdk crypto/keys/secp256k1 `PubKey.Address`, for the 33 bytes of a key (another length is a panic; `SerializeCompressed` gives no other) -/
def ofKey (b : Bytes) : Bytes := Ripemd160.sum (Sha256.sum256 b)

/-- binance-sdk `AccAddress.String`; `none` is a panic -/
def text (a : Bytes) : Option Str := encode pre a

/-- conversion/conversion.go:157-167 and tss/keygen.go:130: the text of the address of a point -/
def ofPoint (pt : Point) : Option Str := text (ofKey (serializeCompressed pt))

end Verif.Address
