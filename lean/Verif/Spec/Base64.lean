import Mathlib.Data.Nat.Digits.Defs
import Verif.Model.Bytes
import Verif.Model.MsgId

/-!
# Specification: base64 (RFC 4648)

The bits of the bytes, in groups of six; zero bits are added at the end to fill the last group, and a padding sign for two of them.
-/
namespace Verif.Spec.Base64
open Verif.MsgId (Str)

/-- the 64 letters: A-Z, a-z, 0-9, +, / -/
def letters : Str :=
  (List.range 26).map (fun i => Char.ofNat (65 + i)) ++ (List.range 26).map (fun i => Char.ofNat (97 + i)) ++
    (List.range 10).map (fun i => Char.ofNat (48 + i)) ++ ['+', '/']

/-- the number made up of these digits, the first is the most significant one -/
def number (base : Nat) (ds : List Nat) : Nat := Nat.ofDigits base ds.reverse

/-- `t` is a text of the bytes `b`: letters with the values `vs` and `pad` padding signs; together they have the bits of `b` and two more bits for each
sign, which make up the number `extra` -/
def Writes (t : Str) (b : Bytes) (extra : Nat) : Prop :=
  ∃ (vs : List Nat) (pad : Nat), (∀ v ∈ vs, v < 64) ∧ pad ≤ 2 ∧ t = vs.map (fun v => letters.getD v 'A') ++ List.replicate pad '=' ∧
    6 * vs.length = 8 * b.length + 2 * pad ∧ number 64 vs = number 256 (b.map UInt8.toNat) * 4 ^ pad + extra ∧ extra < 4 ^ pad

/-- `t` is the text of `b`: the added bits are zero -/
def IsText (t : Str) (b : Bytes) : Prop := Writes t b 0

/-- a text without its line ends -/
def unbroken (t : Str) : Str := t.filter fun c => c ≠ '\n' ∧ c ≠ '\r'

end Verif.Spec.Base64
