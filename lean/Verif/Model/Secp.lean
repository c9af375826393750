import Verif.Model.Curve
import Verif.Model.Conversion

/-!
# Arithmetic on the curve secp256k1, and ECDSA

The functions of btcec, decred's secp256k1 and crypto/ecdsa that the code calls (they are not part of the repository). btcec computes in Jacobian
coordinates and splits scalars for speed; the model adds and doubles affine points. The point at infinity, `(0, 0)` in btcec, is `none`.
-/
namespace Verif.Secp
open Verif.Go Verif.Curve Verif.Conversion

/-- `btcec.S256().Gx`, `Gy` -/
def baseG : Point :=
  ⟨0x79BE667EF9DCBBAC55A06295CE870B07029BFCDB2DCE28D959F2815B16F81798, 0x483ADA7726A3C4655DA4FBFC0E1108A8FD17B448A68554199C47D08FFB10D4B8⟩

/-- the inverse in the field -/
def invP (a : Nat) : Nat := powMod fieldP 256 a (fieldP - 2)

/-- the slope of the line through two points, or of the tangent -/
def slope (a b : Point) : Nat :=
  if a.x = b.x then 3 * a.x * a.x * invP (2 * a.y) % fieldP else (b.y + (fieldP - a.y)) * invP (b.x + (fieldP - a.x)) % fieldP

/-- btcec `KoblitzCurve.Add` and `Double` -/
def add : Option Point → Option Point → Option Point
  | none, q => q
  | some a, none => some a
  | some a, some b =>
    if a.x = b.x ∧ (a.y + b.y) % fieldP = 0 then none
    else
      let l := slope a b
      let x := (l * l + (fieldP - a.x) + (fieldP - b.x)) % fieldP
      some ⟨x, (l * (a.x + (fieldP - x)) + (fieldP - a.y)) % fieldP⟩

/-- doubling and adding; the first argument bounds the number of bits of the factor -/
def mulBits : Nat → Nat → Option Point → Option Point
  | 0, _, _ => none
  | n + 1, k, p =>
    if k = 0 then none
    else
      let h := mulBits n (k / 2) (add p p)
      if k % 2 = 1 then add p h else h

/-- btcec `ScalarMult`. The factors that occur have at most 256 bits. -/
def mul (k : Nat) (p : Option Point) : Option Point := mulBits 256 k p

/-- btcec `ScalarBaseMult` -/
def baseMul (k : Nat) : Option Point := mul k (some baseG)

/-- the inverse modulo the order: `ModInverse(s, N)` for a number that is not divisible by `N` -/
def invN (s : Nat) : Nat := powMod secp256k1N 256 s (secp256k1N - 2)

/-- crypto/ecdsa `Verify` with a key of this curve -/
def verify (q : Point) (hash : Bytes) (r s : Nat) : Bool :=
  if r = 0 ∨ s = 0 then false
  else if r ≥ secp256k1N ∨ s ≥ secp256k1N then false
  else
    let w := invN s
    let u1 := hashToInt hash secp256k1N * w % secp256k1N
    let u2 := r * w % secp256k1N
    match add (baseMul u1) (mul u2 (some q)) with
    | none => false
    | some p => decide (p.x % secp256k1N = r)

/-- btcec `signRFC6979` with the private key `d`; `nonce` is the number derived from the key and the hash, between 1 and `N - 1` -/
def sign (nonce : Nat → Bytes → Nat) (d : Nat) (hash : Bytes) : Option (Nat × Nat) :=
  match baseMul (nonce d hash) with
  | none => none
  | some p =>
    let r := p.x % secp256k1N
    if r = 0 then none
    else
      let s := (d * r + hashToInt hash secp256k1N) * invN (nonce d hash) % secp256k1N
      let s := if s > secp256k1N / 2 then secp256k1N - s else s
      if s = 0 then none else some (r, s)

/-! ## tendermint's crypto/secp256k1, used by common/tss_helper.go:85-97 -/

/-- `PrivKey.Sign`: the hash is signed; 32 bytes of r, 32 bytes of s -/
def signBytes (sha : Bytes → Bytes) (nonce : Nat → Bytes → Nat) (d : Nat) (msg : Bytes) : Option Bytes :=
  (sign nonce d (sha msg)).map fun p => padded (Bytes.ofNat p.1) ++ padded (Bytes.ofNat p.2)

/-- `PubKey.VerifySignature`: 64 bytes, a key that can be read, and an s in the lower half -/
def verifyBytes (sha : Bytes → Bytes) (key msg sig : Bytes) : Bool :=
  if sig.length = 64 then
    match parsePubKey key with
    | none => false
    | some q =>
      let s := Bytes.toNat (sig.drop 32)
      if s > secp256k1N / 2 then false else verify q (sha msg) (Bytes.toNat (sig.take 32)) s
  else false

/-- `PrivKey.PubKey`: the 33 bytes of the public key -/
def pubKeyOf (d : Nat) : Bytes :=
  match baseMul d with
  | none => serializeCompressed ⟨0, 0⟩
  | some p => serializeCompressed p

/-- keysign/notifier.go:45-56 `verifySignature`; `dec` is `GetPubKeyFromBech32(..).Bytes()` -/
def verifyPool {K : Type} (dec : K → Option Bytes) (key : K) (msg : Bytes) (r s : Nat) : Option Bool :=
  match dec key with
  | none => none
  | some b =>
    match parsePubKey b with
    | none => none
    | some q => some (verify q msg r s)

end Verif.Secp
