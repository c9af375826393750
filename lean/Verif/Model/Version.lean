import Verif.Model.Go
import Mathlib.Order.Defs.LinearOrder

/-!
# Version gate of the join-party protocol

conversion.VersionLTCheck uses github.com/blang/semver v3.5.1; its `Compare` is modelled below (library code, not in /repo).
Parsing is a parameter; build metadata, which `Compare` ignores, is dropped. Alphanumeric identifiers are an arbitrary
linearly ordered type `S`.
-/
namespace Verif.Version
open Verif.Go

/-- semver pre-release identifier. -/
inductive PR (S : Type) where
  | num (n : Nat)
  | alpha (s : S)
  deriving DecidableEq, Repr

/-- A parsed semantic version. -/
structure Ver (S : Type) where
  major : Nat
  minor : Nat
  patch : Nat
  pre : List (PR S)
  deriving DecidableEq, Repr

variable {S : Type} [LinearOrder S]

/-- blang/semver `PRVersion.Compare`. -/
def prCmp : PR S → PR S → Ordering
  | .num _, .alpha _ => .lt
  | .alpha _, .num _ => .gt
  | .num a, .num b => if a = b then .eq else if a > b then .gt else .lt
  | .alpha a, .alpha b => if a = b then .eq else if a > b then .gt else .lt

/-- The loop of blang/semver `Version.Compare` over the pre-release identifiers and the final length comparison. -/
def preLoop : List (PR S) → List (PR S) → Ordering
  | [], [] => .eq
  | [], _ :: _ => .lt
  | _ :: _, [] => .gt
  | a :: as, b :: bs =>
    match prCmp a b with
    | .eq => preLoop as bs
    | .gt => .gt
    | .lt => .lt

/-- blang/semver `Version.Compare`. -/
def verCmp (v o : Ver S) : Ordering :=
  if v.major ≠ o.major then (if v.major > o.major then .gt else .lt)
  else if v.minor ≠ o.minor then (if v.minor > o.minor then .gt else .lt)
  else if v.patch ≠ o.patch then (if v.patch > o.patch then .gt else .lt)
  else if v.pre.length = 0 ∧ o.pre.length = 0 then .eq
  else if v.pre.length = 0 ∧ o.pre.length > 0 then .gt
  else if v.pre.length > 0 ∧ o.pre.length = 0 then .lt
  else preLoop v.pre o.pre

/-- conversion/tss_helper.go:47-57 `VersionLTCheck`: the expected version is parsed first. -/
def VersionLTCheck {T : Type} (parse : T → Option (Ver S)) (currentVer expectedVer : T) : Res Bool :=
  match parse expectedVer with
  | none => .err "fail to parse the expected version"
  | some c =>
    match parse currentVer with
    | none => .err "fail to parse the current version"
    | some v => .ok (decide (verCmp v c = .lt))

/-- messages/version.go `NEWJOINPARTYVERSION = "0.14.0"`. -/
def newJoinParty : Ver S := ⟨0, 14, 0, []⟩

/-- Which join-party protocol tss/tss.go:169-204 `joinParty` runs. -/
inductive JoinMode where
  | leaderless
  | withLeader
  deriving DecidableEq, Repr

/-- tss/tss.go:169-177 and 187: choice of the protocol from the request's version. -/
def joinMode {T : Type} (parse : T → Option (Ver S)) (gate : T) (version : T) : Res JoinMode :=
  match VersionLTCheck parse version gate with
  | .ok true => .ok .leaderless
  | .ok false => .ok .withLeader
  | .err e => .err e
  | .panic => .panic

end Verif.Version
