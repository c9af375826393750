import Verif.Model.Flags
import Verif.Model.Json
import Verif.Model.Threshold
import Verif.Model.Multiaddr

/-!
# The texts of numbers and durations on the command line

`strconv.ParseInt(s, 0, 64)`, which package flag uses for `-p2p-port`, and `time.ParseDuration`, which it uses for `-gentimeout`, `-signtimeout` and `-preparamtimeout`
(cmd/tss/main.go:98-100, 106). Library code of Go 1.15 which is not in /repo. All errors are the same here. Texts are characters: a character beyond ASCII is
one of a unit or an error, as its bytes are.
-/
namespace Verif.FlagText
open Verif.Json (decimal)
open Verif.Threshold (fl)

/-- text -/
abbrev Str := List Char

/-! ## numbers -/

/-- strconv atoi.go `ParseUint`: the digit of a character -/
def digit (c : Char) : Option Nat :=
  if '0' ≤ c ∧ c ≤ '9' then some (c.toNat - 48)
  else if 'a' ≤ c ∧ c ≤ 'z' then some (c.toNat - 97 + 10)
  else if 'A' ≤ c ∧ c ≤ 'Z' then some (c.toNat - 65 + 10)
  else none

/-- strconv atoi.go `ParseUint`: the base that a letter behind the first zero stands for -/
def baseOf (c : Char) : Option Nat :=
  if c = 'b' ∨ c = 'B' then some 2 else if c = 'o' ∨ c = 'O' then some 8 else if c = 'x' ∨ c = 'X' then some 16 else none

/-- strconv atoi.go `ParseUint` with base 0: base and digits -/
def split (s : Str) : Nat × Str :=
  match s with
  | [] => (10, [])
  | c :: r =>
    if c = '0' then
      match r with
      | p :: d :: r' =>
        match baseOf p with
        | some b => (b, d :: r')
        | none => (8, p :: d :: r')
      | r => (8, r)
    else (10, c :: r)

/-- strconv atoi.go `ParseUint`, the loop: underscores are skipped. (The checks for overflow in the loop amount to the one at the end.) -/
def digits (base : Nat) : Str → Nat → Option Nat
  | [], n => some n
  | c :: r, n =>
    if c = '_' then digits base r n
    else match digit c with
      | none => none
      | some d => if d < base then digits base r (n * base + d) else none

/-- strconv atoi.go `underscoreOK`: what was seen last -/
inductive Seen
  | start | digit | under | other
  deriving DecidableEq

/-- strconv atoi.go `underscoreOK`, the loop -/
def underscores (hex : Bool) : Str → Seen → Bool
  | [], i => decide (i ≠ .under)
  | c :: r, i =>
    if ('0' ≤ c ∧ c ≤ '9') ∨ (hex = true ∧ (('a' ≤ c ∧ c ≤ 'f') ∨ ('A' ≤ c ∧ c ≤ 'F'))) then underscores hex r .digit
    else if c = '_' then (if i ≠ .digit then false else underscores hex r .under)
    else if i = .under then false
    else underscores hex r .other

/-- strconv atoi.go `underscoreOK` of a text without sign -/
def underscoreOK (s : Str) : Bool :=
  match s with
  | z :: p :: r =>
    if z = '0' then
      match baseOf p with
      | some b => underscores (b = 16) r .digit
      | none => underscores false s .start
    else underscores false s .start
  | s => underscores false s .start

/-- strconv atoi.go `ParseUint(s, 0, 64)` -/
def parseUint (s : Str) : Option Nat :=
  if s = [] then none
  else match digits (split s).1 (split s).2 0 with
    | none => none
    | some n => if n < 2 ^ 64 then (if '_' ∈ s ∧ underscoreOK s = false then none else some n) else none

/-- strconv atoi.go `ParseInt(s, 0, 64)` -/
def parseInt (s : Str) : Option Int :=
  match s with
  | [] => none
  | c :: r =>
    if c = '-' then
      match parseUint r with
      | none => none
      | some n => if n ≤ 2 ^ 63 then some (-(n : Int)) else none
    else
      match parseUint (if c = '+' then r else c :: r) with
      | none => none
      | some n => if n < 2 ^ 63 then some n else none

/-! ## durations -/

/-- time format.go `unitMap`, in nanoseconds -/
def units : List (Str × Nat) :=
  [("ns".toList, 1), ("us".toList, 1000), ("µs".toList, 1000), ("μs".toList, 1000), ("ms".toList, 1000000), ("s".toList, 1000000000),
   ("m".toList, 60000000000), ("h".toList, 3600000000000)]

/-- time format.go `unitMap` -/
def unitOf (u : Str) : Option Nat := (units.find? fun p => p.1 = u).map Prod.snd

/-- time format.go `leadingFraction`, the loop: the number and the scale, as long as the number fits into 63 bits -/
def fraction : Str → Nat → ℚ → Nat × ℚ
  | [], x, scale => (x, scale)
  | c :: r, x, scale => if x * 10 + (c.toNat - 48) < 2 ^ 63 then fraction r (x * 10 + (c.toNat - 48)) (fl (scale * 10)) else (x, scale)

/-- time format.go `ParseDuration`: `int64(float64(f) * (float64(unit) / scale))`, each operation rounded to a binary64 number. (Overflow to infinity, for more than 300
digits, is left out: the outcome is 0 in both cases.) -/
def fracNanos (ds : Str) (unit : Nat) : Nat :=
  if (fraction ds 0 1).1 > 0 then ⌊fl (fl ((fraction ds 0 1).1 : ℚ) * fl ((unit : ℚ) / (fraction ds 0 1).2))⌋.toNat else 0

/-- a character which is no part of a unit -/
def inNumber (c : Char) : Bool := c = '.' || c.isDigit

/-- time format.go `ParseDuration`, the unit and the sum; `v` and `ds` are what is before and after the point -/
def amount (v ds : Str) (s : Str) : Option (Nat × Str) :=
  if s.takeWhile (fun c => !inNumber c) = [] then none
  else match unitOf (s.takeWhile fun c => !inNumber c) with
    | none => none
    | some unit =>
      if decimal v > (2 ^ 63 - 1) / unit then none
      else if decimal v * unit + fracNanos ds unit < 2 ^ 63 then some (decimal v * unit + fracNanos ds unit, s.dropWhile fun c => !inNumber c)
      else none

/-- time format.go `ParseDuration`, one turn of the loop -/
def term (s : Str) : Option (Nat × Str) :=
  match s with
  | [] => none
  | c :: r =>
    if inNumber c = false then none
    else if decimal ((c :: r).takeWhile Char.isDigit) ≥ 2 ^ 63 then none
    else
      match (c :: r).dropWhile Char.isDigit with
      | d :: r' =>
        if d = '.' then
          if (c :: r).takeWhile Char.isDigit = [] ∧ r'.takeWhile Char.isDigit = [] then none
          else amount ((c :: r).takeWhile Char.isDigit) (r'.takeWhile Char.isDigit) (r'.dropWhile Char.isDigit)
        else amount ((c :: r).takeWhile Char.isDigit) [] (d :: r')
      | [] => none

/-- time format.go `ParseDuration`, the loop; the first argument bounds the turns -/
def terms : Nat → Str → Nat → Option Nat
  | _, [], d => some d
  | 0, _ :: _, _ => none
  | k + 1, c :: r, d =>
    match term (c :: r) with
    | none => none
    | some (v, rest) => if d + v < 2 ^ 63 then terms k rest (d + v) else none

/-- time format.go `ParseDuration` without the sign -/
def magnitude (s : Str) : Option Nat := if s = ['0'] then some 0 else if s = [] then none else terms s.length s 0

/-- time format.go `ParseDuration` -/
def parseDuration (s : Str) : Option Int :=
  match s with
  | [] => none
  | c :: r => if c = '-' then (magnitude r).map fun d => -(d : Int) else (magnitude (if c = '+' then r else c :: r)).map fun d => (d : Int)

/-! ## the command line -/

/-- the readers of the program -/
def env (cid : Str → Option Bytes) : Flags.Env Multiaddr.Addr := ⟨parseDuration, parseInt, Multiaddr.newMultiaddr cid⟩

end Verif.FlagText
