import Verif.Model.Bytes

/-!
# conversion/conversion.go, conversion/key_provider.go: public keys as points of the curve secp256k1

The library functions of btcec that the two packages call are written out here (they are not part of the repository; the model follows
btcec's documented encoding). bech32 texts are parameters. A point is a pair of coordinates, `*big.Int` that are not negative.
-/
namespace Verif.Curve
open Verif.Go

/-- the field prime of secp256k1 (`btcec.S256().P`) -/
def fieldP : Nat := 2 ^ 256 - 2 ^ 32 - 977

/-- tss-lib's `crypto.ECPoint`, btcec's `PublicKey`: the coordinates -/
structure Point where
  x : Nat
  y : Nat
  deriving DecidableEq, Repr

/-- conversion/conversion.go:145-148 `isOnCurve` (btcec's `IsOnCurve`): y² = x³ + 7 in the field -/
def isOnCurve (x y : Nat) : Bool := decide (y * y % fieldP = (x * x * x + 7) % fieldP)

/-- `big.Int.Exp(a, e, m)` by squaring; the first argument after the modulus bounds the number of bits of the exponent -/
def powMod (m : Nat) : Nat → Nat → Nat → Nat
  | 0, _, _ => 1 % m
  | fuel + 1, a, e =>
    if e = 0 then 1 % m
    else
      let h := powMod m fuel (a * a % m) (e / 2)
      if e % 2 = 1 then a * h % m else h

/-- btcec's `paddedAppend`: zeros in front, up to 32 bytes -/
def padded (b : Bytes) : Bytes := List.replicate (32 - b.length) 0 ++ b

/-- btcec's `SerializeCompressed`: 2 or 3 for the parity of y, then the 32 bytes of x -/
def serializeCompressed (pt : Point) : Bytes := (if pt.y % 2 = 1 then 3 else 2) :: padded (Bytes.ofNat pt.x)

/-- btcec's `decompressPoint`: the y of the given parity that goes with x -/
def decompress (x : Nat) (odd : Bool) : Option Nat :=
  let c := (x * x * x + 7) % fieldP
  let r := powMod fieldP 256 c ((fieldP + 1) / 4)
  let y := if odd = decide (r % 2 = 1) then r else fieldP - r
  if y * y % fieldP = c then
    if odd = decide (y % 2 = 1) then some y else none
  else none

/-- the checks at the end of btcec's `ParsePubKey` -/
def checked (x y : Nat) : Option Point :=
  if x < fieldP then if y < fieldP then if isOnCurve x y then some ⟨x, y⟩ else none else none else none

/-- btcec's `ParsePubKey`: 33 bytes (2 or 3, then x) or 65 bytes (4, or 6/7 with the parity of y, then x and y) -/
def parsePubKey (b : Bytes) : Option Point :=
  match b with
  | [] => none
  | f :: rest =>
    let format := f.toNat / 2
    let ybit := decide (f.toNat % 2 = 1)
    if b.length = 65 then
      let x := Bytes.toNat (rest.take 32)
      let y := Bytes.toNat (rest.drop 32)
      if (format = 2 ∧ ybit = false) ∨ (format = 3 ∧ ybit = decide (y % 2 = 1)) then checked x y else none
    else if b.length = 33 then
      if format = 1 then
        let x := Bytes.toNat rest
        match decompress x ybit with
        | some y => checked x y
        | none => none
      else none
    else none

section
variable {K A : Type}

/-- conversion/conversion.go:150-170 `GetTssPubKey`; `enc` is `Bech32ifyPubKey` (`none` is an error), `addr` the address of the 33 bytes. The
result is key, address, and the error. An address that is returned beside an error is dropped. -/
def GetTssPubKey (enc : Bytes → Option K) (addr : Bytes → A) : Option Point → Res (K × A)
  | none => .err "invalid points"
  | some pt =>
    if isOnCurve pt.x pt.y then
      match enc (serializeCompressed pt) with
      | some k => .ok (k, addr (serializeCompressed pt))
      | none => .err "bech32"
    else .err "invalid points"

/-- conversion/key_provider.go:114-124 `CheckKeyOnCurve`; `dec` is `GetPubKeyFromBech32(..).Bytes()` -/
def CheckKeyOnCurve (dec : K → Option Bytes) (k : K) : Res Bool :=
  match dec k with
  | none => .err "fail to parse pub key"
  | some b =>
    match parsePubKey b with
    | none => .err "invalid pub key"
    | some pt => .ok (isOnCurve pt.x pt.y)
end

end Verif.Curve
