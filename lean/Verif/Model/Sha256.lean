import Verif.Model.Bytes

/-!
# SHA-256

Go's crypto/sha256 (1.15), library code which is not in /repo, used for the ids of requests (common/tss_helper.go:45-55), for the election of leaders
(p2p/leader_provider.go:19) and for the digests of broadcast messages (conversion/conversion.go:170-177). The portable version (sha256block.go) is modelled; the
assembly for amd64 is not. `Write` keeps the rest of a block until more is written; here all blocks are taken at the end.
-/
namespace Verif.Sha256

/-- math/bits `RotateLeft32(x, -k)` for 0 < k < 32 -/
def rot (x : UInt32) (k : UInt32) : UInt32 := x <<< (32 - k) ||| x >>> k

/-- crypto/sha256 sha256block.go `_K` -/
def K : List UInt32 :=
  [0x428a2f98, 0x71374491, 0xb5c0fbcf, 0xe9b5dba5, 0x3956c25b, 0x59f111f1, 0x923f82a4, 0xab1c5ed5,
   0xd807aa98, 0x12835b01, 0x243185be, 0x550c7dc3, 0x72be5d74, 0x80deb1fe, 0x9bdc06a7, 0xc19bf174,
   0xe49b69c1, 0xefbe4786, 0x0fc19dc6, 0x240ca1cc, 0x2de92c6f, 0x4a7484aa, 0x5cb0a9dc, 0x76f988da,
   0x983e5152, 0xa831c66d, 0xb00327c8, 0xbf597fc7, 0xc6e00bf3, 0xd5a79147, 0x06ca6351, 0x14292967,
   0x27b70a85, 0x2e1b2138, 0x4d2c6dfc, 0x53380d13, 0x650a7354, 0x766a0abb, 0x81c2c92e, 0x92722c85,
   0xa2bfe8a1, 0xa81a664b, 0xc24b8b70, 0xc76c51a3, 0xd192e819, 0xd6990624, 0xf40e3585, 0x106aa070,
   0x19a4c116, 0x1e376c08, 0x2748774c, 0x34b0bcb5, 0x391c0cb3, 0x4ed8aa4a, 0x5b9cca4f, 0x682e6ff3,
   0x748f82ee, 0x78a5636f, 0x84c87814, 0x8cc70208, 0x90befffa, 0xa4506ceb, 0xbef9a3f7, 0xc67178f2]

/-- the eight words `h` of crypto/sha256 `digest` -/
structure State where
  a : UInt32
  b : UInt32
  c : UInt32
  d : UInt32
  e : UInt32
  f : UInt32
  g : UInt32
  h : UInt32
  deriving DecidableEq

/-- crypto/sha256 sha256.go `Reset` -/
def init : State := ⟨0x6a09e667, 0xbb67ae85, 0x3c6ef372, 0xa54ff53a, 0x510e527f, 0x9b05688c, 0x1f83d9ab, 0x5be0cd19⟩

/-- crypto/sha256 sha256block.go: a word of the block -/
def word (p q r s : UInt8) : UInt32 := p.toUInt32 <<< 24 ||| q.toUInt32 <<< 16 ||| r.toUInt32 <<< 8 ||| s.toUInt32

/-- crypto/sha256 sha256block.go: the first words of `w` -/
def words : Bytes → List UInt32
  | p :: q :: r :: s :: l => word p q r s :: words l
  | _ => []

/-- crypto/sha256 sha256block.go: the further words of `w`, of which the last ones come first here -/
def extend : Nat → List UInt32 → List UInt32
  | 0, w => w
  | n + 1, w =>
    extend n (((rot (w.getD 1 0) 17 ^^^ rot (w.getD 1 0) 19 ^^^ (w.getD 1 0 >>> 10)) + w.getD 6 0 +
      (rot (w.getD 14 0) 7 ^^^ rot (w.getD 14 0) 18 ^^^ (w.getD 14 0 >>> 3)) + w.getD 15 0) :: w)

/-- crypto/sha256 sha256block.go: `w` -/
def schedule (p : Bytes) : List UInt32 := (extend 48 (words p).reverse).reverse

/-- crypto/sha256 sha256block.go: a turn of the second loop -/
def round (s : State) (kw : UInt32 × UInt32) : State :=
  let t1 := s.h + (rot s.e 6 ^^^ rot s.e 11 ^^^ rot s.e 25) + ((s.e &&& s.f) ^^^ (~~~s.e &&& s.g)) + kw.1 + kw.2
  let t2 := (rot s.a 2 ^^^ rot s.a 13 ^^^ rot s.a 22) + ((s.a &&& s.b) ^^^ (s.a &&& s.c) ^^^ (s.b &&& s.c))
  ⟨t1 + t2, s.a, s.b, s.c, s.d + t1, s.e, s.f, s.g⟩

/-- crypto/sha256 sha256block.go: the addition at the end of a block -/
def State.add (s t : State) : State := ⟨s.a + t.a, s.b + t.b, s.c + t.c, s.d + t.d, s.e + t.e, s.f + t.f, s.g + t.g, s.h + t.h⟩

/-- crypto/sha256 sha256block.go `blockGeneric` for one block of 64 bytes -/
def block (s : State) (p : Bytes) : State := s.add ((K.zip (schedule p)).foldl round s)

/-- encoding/binary `BigEndian.PutUint64` -/
def be64 (n : UInt64) : Bytes :=
  [(n >>> 56).toUInt8, (n >>> 48).toUInt8, (n >>> 40).toUInt8, (n >>> 32).toUInt8, (n >>> 24).toUInt8, (n >>> 16).toUInt8, (n >>> 8).toUInt8, n.toUInt8]

/-- crypto/sha256 sha256.go `checkSum`: what is written behind the data -/
def padding (len : Nat) : Bytes :=
  ((0x80 : UInt8) :: List.replicate (if len % 64 < 56 then 55 - len % 64 else 119 - len % 64) 0) ++ be64 (UInt64.ofNat len <<< 3)

/-- the blocks of 64 bytes of what is written -/
def blocks : Nat → Bytes → List Bytes
  | 0, _ => []
  | n + 1, b => b.take 64 :: blocks n (b.drop 64)

/-- encoding/binary `BigEndian.PutUint32` -/
def be32 (x : UInt32) : Bytes := [(x >>> 24).toUInt8, (x >>> 16).toUInt8, (x >>> 8).toUInt8, x.toUInt8]

/-- crypto/sha256 sha256.go `checkSum`: the result -/
def State.bytes (s : State) : Bytes := be32 s.a ++ be32 s.b ++ be32 s.c ++ be32 s.d ++ be32 s.e ++ be32 s.f ++ be32 s.g ++ be32 s.h

/-- the states after the blocks -/
def chain (x : Bytes) : State := (blocks ((x ++ padding x.length).length / 64) (x ++ padding x.length)).foldl block init

/-- crypto/sha256 sha256.go `Sum256` -/
def sum256 (x : Bytes) : Bytes := (chain x).bytes

/-- encoding/hex `hextable` -/
def hexDigit (n : Nat) : Char := "0123456789abcdef".toList.getD n '0'

/-- encoding/hex `EncodeToString` -/
def hex (b : Bytes) : List Char := b.flatMap fun x => [hexDigit (x.toNat / 16), hexDigit (x.toNat % 16)]

/-- conversion/conversion.go:170-177 `BytesToHashString`, common/tss_helper.go:49-54 (writing to a digest does not fail) -/
def hashText (b : Bytes) : List Char := hex (sum256 b)

end Verif.Sha256
