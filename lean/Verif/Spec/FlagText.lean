import Mathlib.Data.Nat.Digits.Defs
import Mathlib.Data.Rat.Defs

/-!
# What numbers and durations on a command line say

Numbers in the notation of Go: decimal; octal behind a zero or `0o`; binary behind `0b`; hexadecimal behind `0x`; an underscore may stand between two digits, and between the
prefix and the first digit. Durations: amounts with units, written one behind the other.
-/
namespace Verif.Spec.FlagText

/-- text -/
abbrev Str := List Char

/-- a digit, in bases up to 36 -/
def Digit (c : Char) (d : Nat) : Prop :=
  "0123456789abcdefghijklmnopqrstuvwxyz".toList[d]? = some c ∨ "0123456789ABCDEFGHIJKLMNOPQRSTUVWXYZ".toList[d]? = some c

/-- digits of a base, with single underscores between them -/
inductive Grouped (base : Nat) : Str → List Nat → Prop
  | one {c d} : Digit c d → d < base → Grouped base [c] [d]
  | next {c d s ds} : Digit c d → d < base → Grouped base s ds → Grouped base (c :: s) (d :: ds)
  | under {c d s ds} : Digit c d → d < base → Grouped base s ds → Grouped base (c :: '_' :: s) (d :: ds)

/-- the number with these digits -/
def value (base : Nat) (ds : List Nat) : Nat := Nat.ofDigits base ds.reverse

/-- the letters of bases -/
inductive Letter : Char → Nat → Prop
  | b : Letter 'b' 2
  | B : Letter 'B' 2
  | o : Letter 'o' 8
  | O : Letter 'O' 8
  | x : Letter 'x' 16
  | X : Letter 'X' 16

/-- the text of a number without sign -/
inductive Unsigned : Str → Nat → Prop
  | decimal {c s ds} : c ≠ '0' → Grouped 10 (c :: s) ds → Unsigned (c :: s) (value 10 ds)
  | zero : Unsigned ['0'] 0
  | octal {s ds} : Grouped 8 s ds → Unsigned ('0' :: s) (value 8 ds)
  | octalUnder {s ds} : Grouped 8 s ds → Unsigned ('0' :: '_' :: s) (value 8 ds)
  | letter {p b s ds} : Letter p b → Grouped b s ds → Unsigned ('0' :: p :: s) (value b ds)
  | letterUnder {p b s ds} : Letter p b → Grouped b s ds → Unsigned ('0' :: p :: '_' :: s) (value b ds)

/-- the text of a number -/
inductive Signed : Str → Int → Prop
  | plain {s n} : Unsigned s n → Signed s n
  | plus {s n} : Unsigned s n → Signed ('+' :: s) n
  | minus {s n} : Unsigned s n → Signed ('-' :: s) (-(n : Int))

/-- units of time; microseconds are written in three ways -/
inductive TimeUnit
  | ns | us | us' | us'' | ms | s | m | h

/-- how a unit is written (the second and third letters for micro are U+00B5 and U+03BC) -/
def TimeUnit.text : TimeUnit → Str
  | .ns => ['n', 's']
  | .us => ['u', 's']
  | .us' => [Char.ofNat 0xB5, 's']
  | .us'' => [Char.ofNat 0x3BC, 's']
  | .ms => ['m', 's']
  | .s => ['s']
  | .m => ['m']
  | .h => ['h']

/-- nanoseconds in a unit -/
def TimeUnit.nanos : TimeUnit → Nat
  | .ns => 1
  | .us | .us' | .us'' => 10 ^ 3
  | .ms => 10 ^ 6
  | .s => 10 ^ 9
  | .m => 60 * 10 ^ 9
  | .h => 60 * 60 * 10 ^ 9

/-- the number of decimal digits -/
def num (s : Str) : Nat := Nat.ofDigits 10 (s.reverse.map fun c => c.toNat - 48)

/-- An amount of time: digits, perhaps a point and more digits, and a unit -/
structure Amount where
  whole : Str
  frac : Option Str
  unit : TimeUnit

/-- the digits behind the point -/
def Amount.decimals (a : Amount) : Str := a.frac.getD []

/-- how an amount is written -/
def Amount.text (a : Amount) : Str := a.whole ++ (match a.frac with | none => [] | some f => '.' :: f) ++ a.unit.text

/-- decimal digits, at least one before or behind the point -/
structure Amount.Good (a : Amount) : Prop where
  whole : ∀ c ∈ a.whole, c.isDigit = true
  frac : ∀ c ∈ a.decimals, c.isDigit = true
  some : a.whole ≠ [] ∨ a.decimals ≠ []

/-- the amount, in nanoseconds -/
def Amount.nanos (a : Amount) : ℚ := (num a.whole + num a.decimals / 10 ^ a.decimals.length) * a.unit.nanos

/-- the total of amounts -/
def total (l : List Amount) : ℚ := (l.map Amount.nanos).sum

/-- signs -/
inductive Sign
  | none | plus | minus

/-- how a sign is written -/
def Sign.text : Sign → Str
  | .none => []
  | .plus => ['+']
  | .minus => ['-']

/-- a number with a sign -/
def Sign.apply (n : Int) : Sign → Int
  | .minus => -n
  | _ => n

end Verif.Spec.FlagText
