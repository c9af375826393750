import Verif.Model.Bytes

/-!
# bech32

Written from BIP-173, not from the model: the values of the letters of a text are the coefficients of a polynomial over the field with 32 elements; its remainder modulo a
fixed polynomial must be 1. A text may be longer here than the 90 characters of the BIP.
-/
namespace Verif.Spec.Bech32

/-- text -/
abbrev Str := List Char

/-- the letters, by value -/
def letter (v : Nat) : Char := "qpzry9x8gf2tvdw0s3jn54khce6mua7l".toList.getD v ' '

/-- Elements of the field are numbers below 32, their sum is the bitwise exclusive or. A number stands for the polynomial in `a` whose coefficients are its bits, with
a⁵ = a³ + 1. This is the product with `a`. -/
def times2 (x : Nat) : Nat := if x < 16 then 2 * x else (2 * x - 32) ^^^ 9

/-- the product of two elements -/
def mul (x y : Nat) : Nat :=
  (if y.testBit 0 then x else 0) ^^^ (if y.testBit 1 then times2 x else 0) ^^^ (if y.testBit 2 then times2 (times2 x) else 0) ^^^
    (if y.testBit 3 then times2 (times2 (times2 x)) else 0) ^^^ (if y.testBit 4 then times2 (times2 (times2 (times2 x))) else 0)

/-- a polynomial of degree below 6 -/
structure Poly where
  x5 : Nat
  x4 : Nat
  x3 : Nat
  x2 : Nat
  x1 : Nat
  x0 : Nat
  deriving DecidableEq

/-- The remainder of `p * x + v` modulo x⁶ + {29}x⁵ + {22}x⁴ + {20}x³ + {21}x² + {29}x + {18}. -/
def next (p : Poly) (v : Nat) : Poly :=
  ⟨p.x4 ^^^ mul p.x5 29, p.x3 ^^^ mul p.x5 22, p.x2 ^^^ mul p.x5 20, p.x1 ^^^ mul p.x5 21, p.x0 ^^^ mul p.x5 29, v ^^^ mul p.x5 18⟩

/-- the polynomial 1 -/
def one : Poly := ⟨0, 0, 0, 0, 0, 1⟩

/-- the remainder of the polynomial with the leading coefficient 1 and the further coefficients `vs` -/
def remainder (vs : List Nat) : Poly := vs.foldl next one

/-- the values for the prefix: the high bits of its characters, zero, and the low bits -/
def expand (hrp : Str) : List Nat := hrp.map (fun c => c.toNat / 32) ++ 0 :: hrp.map (fun c => c.toNat % 32)

/-- the bits of a number, the highest first -/
def bits (w v : Nat) : List Bool := (List.range w).map fun i => v.testBit (w - 1 - i)

/-- `t` is the text of the bytes `b` with the prefix `hrp`: behind the prefix and `1` come letters with five bits each, which are those of `b` and fewer than five zero
bits, and six letters such that the remainder is 1. -/
def IsText (hrp : Str) (b : Bytes) (t : Str) : Prop :=
  ∃ (data sum : List Nat) (k : Nat), (∀ v ∈ data ++ sum, v < 32) ∧ sum.length = 6 ∧ k < 5 ∧
    data.flatMap (bits 5) = b.flatMap (fun x => bits 8 x.toNat) ++ List.replicate k false ∧
    remainder (expand hrp ++ data ++ sum) = one ∧ t = hrp ++ '1' :: (data ++ sum).map letter

end Verif.Spec.Bech32
