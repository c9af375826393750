import Verif.Model.Version
import Verif.Model.Base58
import Mathlib.Data.List.Lex
import Mathlib.Data.Char

/-!
# Texts of versions: github.com/blang/semver v3.5.1 `Parse`

The parser that `VersionLTCheck` (conversion/tss_helper.go:47-57) calls through `semver.Make`; library code, not in /repo. The build metadata is checked
and then dropped, as `Compare` ignores it. The kinds of errors are left out.
-/
namespace Verif.SemVerText
open Verif.Version

/-- text -/
abbrev Str := List Char

/-- blang/semver `numbers` -/
def numbers : Str := "0123456789".toList

/-- blang/semver `alphanum` -/
def alphanum : Str := "abcdefghijklmnopqrstuvwxyzABCDEFGHIJKLMNOPQRSTUVWXYZ-".toList ++ numbers

/-- blang/semver `containsOnly` -/
def containsOnly (s set : Str) : Bool := s.all (· ∈ set)

/-- a text divided at the first `d` (`strings.SplitN`, `strings.IndexRune`) -/
def cut (d : Char) (s : Str) : Str × Option Str :=
  (s.takeWhile (· ≠ d), match s.dropWhile (· ≠ d) with
    | [] => none
    | _ :: r => some r)

/-- `strings.Split` -/
def split (d : Char) : Str → List Str
  | [] => [[]]
  | c :: cs =>
    if c = d then [] :: split d cs
    else match split d cs with
      | w :: ws => (c :: w) :: ws
      | [] => [[c]]

/-- blang/semver: `containsOnly(s, numbers)`, `hasLeadingZeroes` and `strconv.ParseUint(s, 10, 64)` -/
def number (s : Str) : Option Nat :=
  if s = [] then none
  else if ¬ containsOnly s numbers then none
  else if 1 < s.length ∧ s.head? = some '0' then none
  else
    let n := Base58.value 10 (s.map fun c => c.toNat - '0'.toNat)
    if n < 2 ^ 64 then some n else none

/-- blang/semver `NewPRVersion` -/
def ident (s : Str) : Option (PR Str) :=
  if s = [] then none
  else if containsOnly s numbers then (number s).map .num
  else if containsOnly s alphanum then some (.alpha s)
  else none

/-- the loop over the pre-release identifiers -/
def idents : List Str → Option (List (PR Str))
  | [] => some []
  | w :: ws =>
    match ident w, idents ws with
    | some p, some ps => some (p :: ps)
    | _, _ => none

/-- the loop over the build metadata -/
def buildOk (ws : List Str) : Bool := ws.all fun w => decide (w ≠ []) && containsOnly w alphanum

/-- blang/semver `Parse`: the parts between the dots behind a sign; no parts without the sign -/
def words : Option Str → List Str
  | none => []
  | some t => split '.' t

/-- blang/semver `Parse` -/
def parse (s : Str) : Option (Ver Str) :=
  match cut '.' s with
  | (_, none) => none
  | (a, some r) =>
    match cut '.' r with
    | (_, none) => none
    | (b, some r) =>
      let (r, build) := cut '+' r
      let (c, pre) := cut '-' r
      match number a, number b, number c, idents (words pre) with
      | some x, some y, some z, some ps =>
        if buildOk (words build) then some ⟨x, y, z, ps⟩ else none
      | _, _, _, _ => none

/-- messages/version.go:4 `NEWJOINPARTYVERSION` -/
def gate : Str := "0.14.0".toList

/-- tss/tss.go:169-204 `joinParty`, the choice of the protocol from the text of the version in the request -/
def mode (version : Str) : Verif.Go.Res JoinMode := joinMode parse gate version

end Verif.SemVerText
