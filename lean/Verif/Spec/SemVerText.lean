import Verif.Model.Version
import Mathlib.Data.Nat.Digits.Defs

/-! # Specification: texts of semantic versions (semver.org, grammar of version 2.0.0, with numbers below 2^64) -/
namespace Verif.Spec.SemVerText
open Verif.Version

/-- a digit -/
def Digit (c : Char) : Prop := '0' ≤ c ∧ c ≤ '9'

/-- a character of an identifier -/
def IdChar (c : Char) : Prop := Digit c ∨ 'a' ≤ c ∧ c ≤ 'z' ∨ 'A' ≤ c ∧ c ≤ 'Z' ∨ c = '-'

/-- `s` is the decimal numeral of `n`: no leading zeros, except for the number 0 itself -/
def Numeral (s : List Char) (n : Nat) : Prop :=
  s ≠ [] ∧ (∀ c ∈ s, Digit c) ∧ (∀ r, s = '0' :: r → r = []) ∧ Nat.ofDigits 10 (s.reverse.map fun c => c.toNat - 48) = n ∧ n < 2 ^ 64

/-- an identifier: a number, or a word that is not only digits -/
def Identifier (s : List Char) : PR (List Char) → Prop
  | .num n => Numeral s n
  | .alpha w => s = w ∧ (∀ c ∈ w, IdChar c) ∧ ∃ c ∈ w, ¬ Digit c

/-- words with dots between them -/
def dotted : List (List Char) → List Char
  | [] => []
  | [w] => w
  | w :: ws => w ++ '.' :: dotted ws

/-- words with dots between them, behind a sign; nothing for no words -/
def part (sign : Char) (ws : List (List Char)) : List Char := if ws = [] then [] else sign :: dotted ws

/-- `s` is a text of the version `v`: the three numbers, the pre-release identifiers behind `-`, the build metadata behind `+` -/
def IsText (s : List Char) (v : Ver (List Char)) : Prop :=
  ∃ (a b c : List Char) (pre build : List (List Char)),
    s = a ++ '.' :: (b ++ '.' :: (c ++ (part '-' pre ++ part '+' build))) ∧
    Numeral a v.major ∧ Numeral b v.minor ∧ Numeral c v.patch ∧ List.Forall₂ Identifier pre v.pre ∧
    ∀ w ∈ build, w ≠ [] ∧ ∀ c ∈ w, IdChar c

/-- the versions with the leader: from 0.14.0 on, without the pre-releases of 0.14.0 itself -/
def FromGate (v : Ver (List Char)) : Prop :=
  1 ≤ v.major ∨ 15 ≤ v.minor ∨ (v.minor = 14 ∧ (1 ≤ v.patch ∨ v.pre = []))

end Verif.Spec.SemVerText
