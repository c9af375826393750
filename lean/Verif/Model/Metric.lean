import Verif.Model.Go

/-!
# The counters and gauges of a node: monitor/metric.go

A prometheus counter vector is a map from label values to numbers; a combination of labels that was never used has no entry and reads as 0.
Durations are numbers.  Registration with prometheus (`Enable`) is not modelled.
-/
namespace Verif.Metric
open Verif.Go

/-- monitor/metric.go:11-19 `Metric` -/
structure St where
  keygenCounter : Map String Nat := []
  keysignCounter : Map String Nat := []
  joinPartyCounter : Map (String × String) Nat := []
  keySignTime : Nat := 0
  keyGenTime : Nat := 0
  joinPartyTime : Map String Nat := []

/-- the value of a counter or gauge with the given labels -/
def value {L : Type} [DecidableEq L] (m : Map L Nat) (l : L) : Nat := (Map.get m l).getD 0

/-- `WithLabelValues(l).Inc()` -/
def inc {L : Type} [DecidableEq L] (m : Map L Nat) (l : L) : Map L Nat := Map.set m l (value m l + 1)

/-- monitor/metric.go:21-28 `UpdateKeyGen` -/
def UpdateKeyGen (m : St) (d : Nat) (success : Bool) : St :=
  if success then { m with keyGenTime := d, keygenCounter := inc m.keygenCounter "success" }
  else { m with keygenCounter := inc m.keygenCounter "failure" }

/-- monitor/metric.go:30-37 `UpdateKeySign` -/
def UpdateKeySign (m : St) (d : Nat) (success : Bool) : St :=
  if success then { m with keySignTime := d, keysignCounter := inc m.keysignCounter "success" }
  else { m with keysignCounter := inc m.keysignCounter "failure" }

/-- monitor/metric.go:39-46 `KeygenJoinParty` -/
def KeygenJoinParty (m : St) (d : Nat) (success : Bool) : St :=
  if success then { m with joinPartyTime := Map.set m.joinPartyTime "keygen" d, joinPartyCounter := inc m.joinPartyCounter ("keygen", "success") }
  else { m with joinPartyCounter := inc m.joinPartyCounter ("keygen", "failure") }

/-- monitor/metric.go:48-55 `KeysignJoinParty` -/
def KeysignJoinParty (m : St) (d : Nat) (success : Bool) : St :=
  if success then { m with joinPartyTime := Map.set m.joinPartyTime "keysign" d, joinPartyCounter := inc m.joinPartyCounter ("keysign", "success") }
  else { m with joinPartyCounter := inc m.joinPartyCounter ("keysign", "failure") }

/-- which of the four updates -/
inductive Kind
  | keygen
  | keysign
  | joinKeygen
  | joinKeysign
  deriving DecidableEq

/-- an update of the metrics: kind, duration, success -/
structure Update where
  kind : Kind
  duration : Nat
  success : Bool
  deriving DecidableEq

def step (m : St) (u : Update) : St :=
  match u.kind with
  | .keygen => UpdateKeyGen m u.duration u.success
  | .keysign => UpdateKeySign m u.duration u.success
  | .joinKeygen => KeygenJoinParty m u.duration u.success
  | .joinKeysign => KeysignJoinParty m u.duration u.success

/-- monitor/metric.go:66-130 `NewMetric`, then the updates.  Prometheus counters are atomic, so concurrent updates are some sequence. -/
def run (h : List Update) : St := h.foldl step {}

end Verif.Metric
