import Verif.Lemmas.Bech32Table
import Verif.Lemmas.Bech32Spec

set_option linter.unusedSectionVars false

/-! # Texts with correct checksums differ in at least five characters -/
namespace Verif.Bech32.Four
open Verif.Bech32
open Verif.Spec.Bech32 (Poly)

/-! ## what the tables say -/

/-- each row comes from the one before -/
def chain : List Nat → List (List Nat) → Bool
  | _, [] => true
  | r, r' :: rs => List.beq (r.map lin) r' && chain r' rs

theorem chain_ok : row0 = (List.range 31).map (· + 1) ∧ chain row0 rows.tail = true := by decide +kernel

/-- the remainders of a row are in the tree -/
noncomputable def inTree (r : List Nat) : Bool := r.all fun v => Tree.mem tree (Nat.shiftRight v 5)

theorem in_ok : rows.tail.all inTree = true := by decide +kernel

theorem zero_in : Tree.mem tree 0 = true := by decide +kernel

/-- the sums of `x` and the remainders of a row are not in the tree -/
noncomputable def out (x : Nat) (r : List Nat) : Bool := r.all fun v => !Tree.mem tree (Nat.shiftRight (Nat.xor x v) 5)

/-- `rs` are the rows before; the same for all later ones -/
noncomputable def apart : List (List Nat) → List (List Nat) → Bool
  | _, [] => true
  | rs, r :: rs' => rs.all (out (r.headD 0)) && apart (r :: rs) rs'

set_option maxRecDepth 100000 in
theorem apart_ok : apart [] rows.tail = true := by decide +kernel

end Verif.Bech32.Four
