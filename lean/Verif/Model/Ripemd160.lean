import Verif.Model.Sha256

/-!
# RIPEMD-160

golang.org/x/crypto/ripemd160, library code which is not in /repo. Addresses are RIPEMD-160 digests of SHA-256 digests (conversion/conversion.go:166,
`compressedPubkey.Address()`). `Write` keeps the rest of a block until more is written; here all blocks are taken at the end.
-/
namespace Verif.Ripemd160
open Verif.Sha256 (blocks)

/-- math/bits `RotateLeft32(x, k)` for 0 < k < 32 -/
def rotl (x : UInt32) (k : UInt32) : UInt32 := x <<< k ||| x >>> (32 - k)

/-- ripemd160block.go `_n`: which words of the block the first line takes -/
def nL : List Nat :=
  [0, 1, 2, 3, 4, 5, 6, 7, 8, 9, 10, 11, 12, 13, 14, 15,
   7, 4, 13, 1, 10, 6, 15, 3, 12, 0, 9, 5, 2, 14, 11, 8,
   3, 10, 14, 4, 9, 15, 8, 1, 2, 7, 0, 6, 13, 11, 5, 12,
   1, 9, 11, 10, 0, 8, 12, 4, 13, 3, 7, 15, 14, 5, 6, 2,
   4, 0, 5, 9, 7, 12, 2, 10, 14, 1, 3, 8, 11, 6, 15, 13]

/-- ripemd160block.go `_r`: by how much the first line rotates -/
def rL : List UInt32 :=
  [11, 14, 15, 12, 5, 8, 7, 9, 11, 13, 14, 15, 6, 7, 9, 8,
   7, 6, 8, 13, 11, 9, 7, 15, 7, 12, 15, 9, 11, 7, 13, 12,
   11, 13, 6, 7, 14, 9, 13, 15, 14, 8, 13, 6, 5, 12, 7, 5,
   11, 12, 14, 15, 14, 15, 9, 8, 9, 14, 5, 6, 8, 6, 5, 12,
   9, 15, 5, 11, 6, 8, 13, 12, 5, 12, 13, 14, 11, 8, 5, 6]

/-- ripemd160block.go `n_`: the same for the parallel line -/
def nR : List Nat :=
  [5, 14, 7, 0, 9, 2, 11, 4, 13, 6, 15, 8, 1, 10, 3, 12,
   6, 11, 3, 7, 0, 13, 5, 10, 14, 15, 8, 12, 4, 9, 1, 2,
   15, 5, 1, 3, 7, 14, 6, 9, 11, 8, 12, 2, 10, 0, 4, 13,
   8, 6, 4, 1, 3, 11, 15, 0, 5, 12, 2, 13, 9, 7, 10, 14,
   12, 15, 10, 4, 1, 5, 8, 7, 6, 2, 13, 14, 0, 3, 9, 11]

/-- ripemd160block.go `r_` -/
def rR : List UInt32 :=
  [8, 9, 9, 11, 13, 15, 15, 5, 7, 7, 8, 11, 14, 14, 12, 6,
   9, 13, 15, 7, 12, 8, 9, 11, 7, 7, 12, 7, 6, 15, 13, 11,
   9, 7, 15, 11, 8, 6, 6, 14, 12, 13, 5, 14, 13, 13, 7, 5,
   15, 5, 8, 11, 14, 14, 6, 14, 6, 9, 12, 9, 12, 5, 15, 8,
   8, 5, 12, 9, 12, 5, 14, 6, 8, 13, 6, 5, 15, 13, 11, 11]

/-- the five words `s` of ripemd160.go `digest`, and the variables of a line -/
structure State where
  a : UInt32
  b : UInt32
  c : UInt32
  d : UInt32
  e : UInt32
  deriving DecidableEq

/-- ripemd160.go `Reset` -/
def init : State := ⟨0x67452301, 0xefcdab89, 0x98badcfe, 0x10325476, 0xc3d2e1f0⟩

/-- ripemd160block.go `_Block`: what a line does in one turn; `f` is the value of the function of the round, `k` its constant -/
def step (s : State) (f x k r : UInt32) : State := ⟨s.e, rotl (s.a + f + x + k) r + s.e, s.b, rotl s.c 10, s.d⟩

/-- ripemd160block.go `_Block`: turn `i` of the first line. (In the code the loop is written out five times; the first round has no constant.) -/
def stepL (x : List UInt32) (s : State) (i : Nat) : State :=
  let f : UInt32 × UInt32 :=
    if i < 16 then (s.b ^^^ s.c ^^^ s.d, 0)
    else if i < 32 then ((s.b &&& s.c) ||| (~~~s.b &&& s.d), 0x5a827999)
    else if i < 48 then ((s.b ||| ~~~s.c) ^^^ s.d, 0x6ed9eba1)
    else if i < 64 then ((s.b &&& s.d) ||| (s.c &&& ~~~s.d), 0x8f1bbcdc)
    else (s.b ^^^ (s.c ||| ~~~s.d), 0xa953fd4e)
  step s f.1 (x.getD (nL.getD i 0) 0) f.2 (rL.getD i 0)

/-- ripemd160block.go `_Block`: turn `i` of the parallel line -/
def stepR (x : List UInt32) (s : State) (i : Nat) : State :=
  let f : UInt32 × UInt32 :=
    if i < 16 then (s.b ^^^ (s.c ||| ~~~s.d), 0x50a28be6)
    else if i < 32 then ((s.b &&& s.d) ||| (s.c &&& ~~~s.d), 0x5c4dd124)
    else if i < 48 then ((s.b ||| ~~~s.c) ^^^ s.d, 0x6d703ef3)
    else if i < 64 then ((s.b &&& s.c) ||| (~~~s.b &&& s.d), 0x7a6d76e9)
    else (s.b ^^^ s.c ^^^ s.d, 0)
  step s f.1 (x.getD (nR.getD i 0) 0) f.2 (rR.getD i 0)

/-- ripemd160block.go `_Block`: a word of the block -/
def word (p q r s : UInt8) : UInt32 := p.toUInt32 ||| q.toUInt32 <<< 8 ||| r.toUInt32 <<< 16 ||| s.toUInt32 <<< 24

/-- ripemd160block.go `_Block`: the words `x` of the block -/
def words : Bytes → List UInt32
  | p :: q :: r :: s :: l => word p q r s :: words l
  | _ => []

/-- ripemd160block.go `_Block`: the results are combined -/
def combine (s l r : State) : State := ⟨s.b + l.c + r.d, s.c + l.d + r.e, s.d + l.e + r.a, s.e + l.a + r.b, s.a + l.b + r.c⟩

/-- ripemd160block.go `_Block` for one block of 64 bytes -/
def block (s : State) (p : Bytes) : State :=
  combine s ((List.range 80).foldl (stepL (words p)) s) ((List.range 80).foldl (stepR (words p)) s)

/-- ripemd160.go `Sum`: the number of bits, the lowest byte first -/
def le64 (n : UInt64) : Bytes :=
  [n.toUInt8, (n >>> 8).toUInt8, (n >>> 16).toUInt8, (n >>> 24).toUInt8, (n >>> 32).toUInt8, (n >>> 40).toUInt8, (n >>> 48).toUInt8, (n >>> 56).toUInt8]

/-- ripemd160.go `Sum`: what is written behind the data -/
def padding (len : Nat) : Bytes :=
  ((0x80 : UInt8) :: List.replicate (if len % 64 < 56 then 55 - len % 64 else 119 - len % 64) 0) ++ le64 (UInt64.ofNat len <<< 3)

/-- ripemd160.go `Sum`: the bytes of a word, the lowest first -/
def le32 (x : UInt32) : Bytes := [x.toUInt8, (x >>> 8).toUInt8, (x >>> 16).toUInt8, (x >>> 24).toUInt8]

/-- ripemd160.go `Sum`: the result -/
def State.bytes (s : State) : Bytes := le32 s.a ++ le32 s.b ++ le32 s.c ++ le32 s.d ++ le32 s.e

/-- the state after the blocks -/
def chain (x : Bytes) : State := (blocks ((x ++ padding x.length).length / 64) (x ++ padding x.length)).foldl block init

/-- `ripemd160.New()`, `Write(x)`, `Sum(nil)` -/
def sum (x : Bytes) : Bytes := (chain x).bytes

end Verif.Ripemd160
