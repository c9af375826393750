import Verif.Model.Go

/-! # Byte strings and `math/big` conversions -/
namespace Verif

/-- Go `[]byte`. -/
abbrev Bytes := List UInt8

namespace Bytes

/-- `new(big.Int).SetBytes(b)`: big-endian value. -/
def toNat (b : Bytes) : Nat := b.foldl (fun acc x => acc * 256 + x.toNat) 0

/-- little-endian digits of a number, without leading (most significant) zeros; the first argument bounds the number of
digits -/
def digitsAux : Nat → Nat → List UInt8
  | 0, _ => []
  | fuel + 1, n => if n = 0 then [] else UInt8.ofNat (n % 256) :: digitsAux fuel (n / 256)

/-- little-endian digits of a number (a number has at most as many digits as its value) -/
def digitsLE (n : Nat) : List UInt8 := digitsAux n n

/-- `x.Bytes()` of a non-negative `big.Int`: minimal big-endian encoding, no leading zero byte. -/
def ofNat (n : Nat) : Bytes := (digitsLE n).reverse

end Bytes
end Verif
