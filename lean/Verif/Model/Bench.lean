import Verif.Model.JsonState
import Verif.Model.Secp

/-!
# The benchmark tools: cmd/tss-benchgen/main.go, cmd/tss-benchsign/main.go

One process runs all parties of tss-lib and hands their messages to each other; the first tool writes the shares into files, the second one signs with them. What the library
does is a list of events. Left out: the display of progress and the layout of the table, the number of threads, the fixed parameters for key generation, the arguments that
are not numbers.
-/
namespace Verif.Bench
open Verif.Go
open Verif.JsonState (SaveData Big)
open Verif.Conversion (Party sortPartyIDs)
open Verif.Storage (Path Disk)

/-- a message of a party: the place of its sender, and `GetTo()`, `none` for nil -/
structure Msg (M : Type) where
  sender : Nat
  dest : Option (List Nat)
  body : M

/-- cmd/tss-benchgen/main.go:152-168, cmd/tss-benchsign/main.go:144-160: to which of `n` parties a message is handed; `none` is a panic (a message to oneself, or an index out
of range) -/
def relay {M : Type} (n : Nat) (m : Msg M) : Option (List (Nat × M)) :=
  match m.dest with
  | none => some (((List.range n).filter (· ≠ m.sender)).map fun i => (i, m.body))
  | some [] => none
  | some (t :: _) => if t = m.sender then none else if t < n then some [(t, m.body)] else none

/-- how far a tool has come -/
inductive Status
  | running
  | crashed
  | finished
  deriving DecidableEq

/-! ## key generation -/

/-- cmd/tss-benchgen/main.go:60-63: are the numbers accepted? -/
def genArgs (parties quorum : Int) : Bool := !(decide (parties ≤ 0) || decide (quorum ≤ 1) || decide (parties < quorum))

/-- cmd/tss-benchgen/main.go:231-233, cmd/tss-benchsign/main.go:264-266 -/
def fileOf (dir : Path) (i : Nat) : Path := dir ++ [String.ofList ("keygen_data_".toList ++ Json.natText i ++ ".json".toList)]

/-- tss-lib `LocalPartySaveData.OriginalIndex`: the first place of the share's id among the ids of all; `none` is an error, or a nil pointer -/
def originalIndex (id : Int) : List Big → Option Nat
  | [] => none
  | none :: _ => none
  | some k :: ks => if k = id then some 0 else (originalIndex id ks).map (· + 1)

/-- what the library does: an error, a message, the share of a party (with what happens when its file is written) -/
inductive GenEvent (M : Type)
  | fail
  | msg (m : Msg M)
  | done (d : SaveData) (f : Option Storage.Fault)

/-- the state of the tool -/
structure Gen (M : Type) where
  disk : Disk
  ended : Nat
  handed : List (Nat × M)
  status : Status

/-- cmd/tss-benchgen/main.go:205-229 `tryWriteKeyGenDataFile`: a file that is there is left alone; errors are panics -/
def tryWriteKeyGenDataFile (dir : Path) (i : Nat) (s : SaveData) (f : Option Storage.Fault) (d : Disk) : Disk × Res Unit :=
  match Map.get d (fileOf dir i) with
  | some _ => (d, .ok ())
  | none => Storage.writeFile d (fileOf dir i) (Json.utf8 (JsonState.dataText s)) f

/-- cmd/tss-benchgen/main.go:146-201, one turn of the loop -/
def genStep {M : Type} (dir : Path) (n : Nat) (s : Gen M) (e : GenEvent M) : Gen M :=
  match s.status with
  | .crashed => s
  | .finished => s
  | .running =>
    match e with
    | .fail => { s with status := .crashed }
    | .msg m =>
      match relay n m with
      | none => { s with status := .crashed }
      | some l => { s with handed := s.handed ++ l }
    | .done d f =>
      match d.shareID.bind (originalIndex · d.ks) with
      | none => { s with status := .crashed }
      | some i =>
        match (tryWriteKeyGenDataFile dir i d f s.disk).2 with
        | .err _ => { s with disk := (tryWriteKeyGenDataFile dir i d f s.disk).1, status := .crashed }
        | .panic => { s with disk := (tryWriteKeyGenDataFile dir i d f s.disk).1, status := .crashed }
        | .ok _ =>
          { s with
            disk := (tryWriteKeyGenDataFile dir i d f s.disk).1
            ended := s.ended + 1
            status := if s.ended + 1 = n then (if d.ecdsaPub.isSome then .finished else .crashed) else .running }

/-- cmd/tss-benchgen/main.go:118-203 `runKeyGen`, after the events `h` of the library -/
def runKeyGen {M : Type} (dir : Path) (n : Nat) (d : Disk) (h : List (GenEvent M)) : Gen M := h.foldl (genStep dir n) ⟨d, 0, [], .running⟩

/-! ## signing -/

/-- cmd/tss-benchsign/main.go:56-59: are the numbers accepted? -/
def signArgs (startQuorum endQuorum runs : Int) : Bool := !(decide (endQuorum ≤ 1) || decide (runs < 1) || decide (endQuorum < startQuorum))

/-- cmd/tss-benchsign/main.go:240-253: reading one file -/
def readShare (dir : Path) (d : Disk) (i : Nat) : Res SaveData :=
  match Map.get d (fileOf dir i) with
  | none => .err "could not open the test fixture"
  | some raw =>
    match Json.unmarshal {} (Json.dStruct JsonState.dataFields) raw with
    | none => .err "could not unmarshal fixture data"
    | some s => .ok s

/-- cmd/tss-benchsign/main.go:239-255: the files in order -/
def readShares (dir : Path) (d : Disk) : List Nat → Res (List SaveData)
  | [] => .ok []
  | i :: l => (readShare dir d i).bind fun s => (readShares dir d l).bind fun r => .ok (s :: r)

/-- cmd/tss-benchsign/main.go:256-260: the party of a share; its moniker is its place from 1 on; `none` is a nil pointer -/
def idsOf : Nat → List SaveData → Option (List Party)
  | _, [] => some []
  | i, s :: l =>
    match s.shareID with
    | none => none
    | some k => (idsOf (i + 1) l).map (⟨i + 1, Bytes.ofNat k.natAbs, -1⟩ :: ·)

/-- cmd/tss-benchsign/main.go:233-262 `loadKeyGenData` as `runSign` calls it -/
def loadKeyGenData (dir : Path) (d : Disk) (qty : Int) : Res (List SaveData × List Party) :=
  if qty < 0 then .panic                                     -- make([]..., 0, qty)
  else
    (readShares dir d (List.range qty.toNat)).bind fun keys =>
      match idsOf 0 keys with
      | none => .panic
      | some ids => .ok (keys, sortPartyIDs ids)

/-- what the library does: an error, a message, a signature -/
inductive SignEvent (M : Type)
  | fail
  | msg (m : Msg M)
  | done (r s : Bytes)

/-- the state of one signing -/
structure Sign (M : Type) where
  ended : Nat
  handed : List (Nat × M)
  status : Status

/-- cmd/tss-benchsign/main.go:166-190: the check of the signature of the number `m` with the public key of the first share -/
def check (keys : List SaveData) (m : Nat) (r s : Bytes) : Bool :=
  match keys.head?.bind (·.ecdsaPub) with
  | none => false
  | some p => Secp.verify ⟨p.1.1.natAbs, p.1.2.natAbs⟩ (Bytes.ofNat m) (Bytes.toNat r) (Bytes.toNat s)

/-- cmd/tss-benchsign/main.go:138-195, one turn of the loop -/
def signStep {M : Type} (keys : List SaveData) (m : Nat) (s : Sign M) (e : SignEvent M) : Sign M :=
  match s.status with
  | .crashed => s
  | .finished => s
  | .running =>
    match e with
    | .fail => { s with status := .crashed }
    | .msg x =>
      match relay keys.length x with
      | none => { s with status := .crashed }
      | some l => { s with handed := s.handed ++ l }
    | .done r v =>
      { s with
        ended := s.ended + 1
        status := if s.ended + 1 = keys.length then (if check keys m r v then .finished else .crashed) else .running }

/-- cmd/tss-benchsign/main.go:110-196 `runSign`: the parties that are started, each with its share, and the state after the events `h`; `none` is a panic before -/
def runSign {M : Type} (dir : Path) (d : Disk) (t : Int) (m : Nat) (h : List (SignEvent M)) : Option (List (Party × SaveData) × Sign M) :=
  match loadKeyGenData dir d (t + 1) with
  | .ok (keys, ids) =>
    if (keys.length : Int) ≠ t + 1 ∨ (ids.length : Int) ≠ t + 1 then none
    else some (ids.zip keys, h.foldl (signStep keys m) ⟨0, [], .running⟩)
  | _ => none

/-- how a signing goes: the number to sign, the events, and the milliseconds it takes -/
structure Play (M : Type) where
  m : Nat
  events : List (SignEvent M)
  ms : Nat

/-- cmd/tss-benchsign/main.go:85-97, one run: signing with each quorum; `none` if one does not finish -/
def oneRun {M : Type} (dir : Path) (d : Disk) (play : Int → Play M) : List Int → Option (List (Int × Nat))
  | [] => some []
  | q :: l =>
    match runSign dir d (q - 1) (play q).m (play q).events with
    | none => none
    | some (_, s) => if s.status = .finished then (oneRun dir d play l).map ((q, (play q).ms) :: ·) else none

/-- cmd/tss-benchsign/main.go:81-98, the runs -/
def allRuns {M : Type} (dir : Path) (d : Disk) (play : Nat → Int → Play M) (qs : List Int) : List Nat → Option (List (List (Int × Nat)))
  | [] => some []
  | i :: l =>
    match oneRun dir d (play i) qs with
    | none => none
    | some r => (allRuns dir d play qs l).map (r :: ·)

/-- a row of the table -/
structure Row where
  quorum : Int
  times : List Nat
  mean : Nat
  deriving DecidableEq

/-- cmd/tss-benchsign/main.go:198-229 `printSummary` -/
def printSummary (results : List (List (Int × Nat))) : List Row :=
  match results with
  | [] => []
  | first :: _ => first.zipIdx.map fun (r, q) =>
      ⟨r.1, results.map fun l => ((l[q]?).map Prod.snd).getD 0, (results.map fun l => ((l[q]?).map Prod.snd).getD 0).sum / results.length⟩

/-- how the second tool comes out -/
inductive Outcome
  | refused
  | stopped                  -- a panic, or it waits for the library for ever
  | table (rows : List Row)
  deriving DecidableEq

/-- cmd/tss-benchsign/main.go:43-102 `main` -/
def signMain {M : Type} (startQuorum endQuorum runs : Int) (dir : Path) (found : Bool) (d : Disk) (play : Nat → Int → Play M) : Outcome :=
  if signArgs startQuorum endQuorum runs then
    if found then
      match Map.get d (fileOf dir (endQuorum - 1).toNat) with
      | none => .refused
      | some _ =>
        match allRuns dir d play ((List.range (endQuorum - startQuorum + 1).toNat).map fun (i : Nat) => startQuorum + i) (List.range runs.toNat) with
        | none => .stopped
        | some results => .table (printSummary results)
    else .refused
  else .refused

end Verif.Bench
