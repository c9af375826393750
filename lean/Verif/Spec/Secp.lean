import Mathlib.AlgebraicGeometry.EllipticCurve.Affine.Point
import Verif.Lemmas.Curve
import Verif.Model.Conversion

/-!
# The group of the curve y² = x³ + 7 and ECDSA, as in the textbooks

The group is Mathlib's group of an elliptic curve over the field of `fieldP` elements.
-/
namespace Verif.Spec.Secp
open Verif.Curve Verif.Conversion

instance : Fact fieldP.Prime := ⟨prime_fieldP⟩

/-- the curve -/
def curve : WeierstrassCurve.Affine (ZMod fieldP) where
  a₁ := 0
  a₂ := 0
  a₃ := 0
  a₄ := 0
  a₆ := 7

section
attribute [local irreducible] fieldP

theorem fieldP_two : 2 < fieldP := by unfold fieldP; decide +kernel

theorem cast_sub {a : Nat} (h : a < fieldP) : ((fieldP - a : Nat) : ZMod fieldP) = -a := by
  rw [Nat.cast_sub h.le]; simp

theorem cast_mod (a : Nat) : ((a % fieldP : Nat) : ZMod fieldP) = a := ZMod.natCast_mod a fieldP

theorem cast_inj {a b : Nat} (ha : a < fieldP) (hb : b < fieldP) : (a : ZMod fieldP) = b ↔ a = b := by
  rw [ZMod.natCast_eq_natCast_iff]; unfold Nat.ModEq
  rw [Nat.mod_eq_of_lt ha, Nat.mod_eq_of_lt hb]

/-- the points of the curve -/
theorem nonsingular_iff (x y : ZMod fieldP) : curve.Nonsingular x y ↔ y ^ 2 = x ^ 3 + 7 := by
  have hΔ : curve.Δ ≠ 0 := by
    have : curve.Δ = -((21168 : Nat) : ZMod fieldP) := by
      simp only [WeierstrassCurve.Δ, WeierstrassCurve.b₂, WeierstrassCurve.b₄, WeierstrassCurve.b₆, WeierstrassCurve.b₈, curve]
      push_cast; ring
    rw [this, neg_ne_zero]
    have h2 : ((21168 : Nat) : ZMod fieldP) ≠ ((0 : Nat) : ZMod fieldP) := by
      rw [Ne, cast_inj (by unfold fieldP; decide +kernel) fieldP_pos]; decide
    simpa using h2
  rw [← WeierstrassCurve.Affine.equation_iff_nonsingular_of_Δ_ne_zero hΔ, WeierstrassCurve.Affine.equation_iff]
  simp [curve]

end

/-- its group -/
abbrev E : Type := curve.Point

/-- a pair of coordinates, or the point at infinity, stands for an element of the group -/
inductive Is : Option Point → E → Prop
  | zero : Is none 0
  | some {x y : Nat} (hx : x < fieldP) (hy : y < fieldP) (h : curve.Nonsingular (x : ZMod fieldP) (y : ZMod fieldP)) : Is (some ⟨x, y⟩) (.some _ _ h)

/-- the base point -/
def gx : Nat := 0x79BE667EF9DCBBAC55A06295CE870B07029BFCDB2DCE28D959F2815B16F81798
def gy : Nat := 0x483ADA7726A3C4655DA4FBFC0E1108A8FD17B448A68554199C47D08FFB10D4B8

theorem on_curve {x y : Nat} (h : isOnCurve x y = true) : curve.Nonsingular (x : ZMod fieldP) (y : ZMod fieldP) := by
  rw [nonsingular_iff]
  have h' : ((y * y : Nat) : ZMod fieldP) = ((x * x * x + 7 : Nat) : ZMod fieldP) := by
    rw [ZMod.natCast_eq_natCast_iff]; exact of_decide_eq_true h
  push_cast at h'
  rw [pow_two, h']; ring

def gen : E := .some (gx : ZMod fieldP) (gy : ZMod fieldP) (on_curve (by decide +kernel))

/-- ECDSA: the pair (r, s) is a signature of the number z for the public key Q -/
def Signs (Q : E) (z r s : Nat) : Prop :=
  0 < r ∧ r < secp256k1N ∧ 0 < s ∧ s < secp256k1N ∧
    ∃ w, s * w % secp256k1N = 1 ∧
      ∃ x y h, (z * w % secp256k1N) • gen + (r * w % secp256k1N) • Q = .some x y h ∧ x.val % secp256k1N = r

end Verif.Spec.Secp
