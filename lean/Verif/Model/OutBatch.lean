import Verif.Model.TssCommon

/-!
# Outgoing shares (common/tss.go, second half)

Encoding (JSON) is left out: a sent message is the structure that is encoded. Signing of the payload is not modelled; the failure
of encoding or signing is, as an arbitrary verdict per attempt.
-/
namespace Verif.OutBatch
open Verif.Go Verif.Messages Verif.TssCommon

/-- What common/tss.go:501-562 reads of a `btss.Message`: `Type()`, `GetFrom().Moniker` and, from `WireBytes()`, the bytes and the
routing (`none` for its error). -/
structure Output where
  type : String
  moniker : String
  wire : Option (Bytes × Routing)

/-- a bulk message given to the network: `RoundInfo`, `MessageType`, the shares in `Message`, `Routing`, and the receivers
(common/tss.go:463-498) -/
structure Bulk (P : Type) where
  roundInfo : String
  msgType : MsgType
  shares : List BulkWireMsg
  routing : Option Routing
  peers : List P
  deriving DecidableEq, Repr

/-- the two caches of common/tss.go:51-52 and a ghost record of what was sent -/
structure St (P : Type) where
  uni : Map String (List BulkWireMsg)
  bro : Map String (List BulkWireMsg)
  sent : List (Bulk P)

/-- what does not change: common/tss.go:53 `msgNum`, `P2PPeers`, `PartyIDtoP2PID`; `pstr` is `PartyID.String` -/
structure Env (P : Type) where
  msgNum : Nat
  p2pPeers : List P
  partyIDtoP2PID : Map Nat P
  pstr : Nat → String

/-- `strings.Split(key, ":")[0]` -/
def beforeColon (s : String) : String := String.ofList (s.toList.takeWhile (· ≠ ':'))

/-- common/tss.go:446-499 `sendBulkMsg` when encoding and signing succeed; receivers without a peer id are left out. For an empty
list the code panics; the callers never pass one. -/
def sendBulkMsg {P : Type} (env : Env P) (wiredType : String) (msgType : MsgType) (l : List BulkWireMsg) : Bulk P :=
  let r := l.head?.bind BulkWireMsg.routing
  let to_ := (r.map Routing.to_).getD []
  let peers := if to_.length = 0 then env.p2pPeers else to_.filterMap (Map.get env.partyIDtoP2PID)
  ⟨wiredType, msgType, l, r, peers⟩

/-- common/tss.go:531-544 and 546-559, one visit of the loops: a full list is sent and removed; when sending fails it stays. -/
def visit {P : Type} (n : Nat) (mk : String → List BulkWireMsg → Bulk P) (ok : String → Bool)
    (acc : Map String (List BulkWireMsg) × List (Bulk P)) (e : String × List BulkWireMsg) :
    Map String (List BulkWireMsg) × List (Bulk P) :=
  if e.2.length = n then
    if ok e.1 then (Map.del acc.1 e.1, acc.2 ++ [mk e.1 e.2]) else acc
  else acc

/-- the loops over a cache, in visiting order `σ` -/
def flush {P : Type} (n : Nat) (mk : String → List BulkWireMsg → Bulk P) (σ : Shuffle (String × List BulkWireMsg)) (ok : String → Bool)
    (m : Map String (List BulkWireMsg)) (sent : List (Bulk P)) : Map String (List BulkWireMsg) × List (Bulk P) :=
  (σ.f m).foldl (visit n mk ok) (m, sent)

/-- common/tss.go:508-519 and 521-529: appending to the list of a key -/
def append (m : Map String (List BulkWireMsg)) (key : String) (x : BulkWireMsg) : Map String (List BulkWireMsg) :=
  Map.set m key ((Map.get m key).getD [] ++ [x])

/-- what the environment decides during a call: the visiting orders of the two caches and which attempts to send succeed -/
structure Sched where
  σu : Shuffle (String × List BulkWireMsg)
  σb : Shuffle (String × List BulkWireMsg)
  ok : String → Bool

/-- common/tss.go:501-562 `ProcessOutCh`. A unicast message without receiver panics (`r.To[0]`). -/
def ProcessOutCh {P : Type} (env : Env P) (sch : Sched) (o : Output) (msgType : MsgType) (s : St P) : St P × Res Unit :=
  match o.wire with
  | none => (s, .err "fail to get wire bytes")
  | some (data, r) =>
    let x : BulkWireMsg := ⟨data, o.moniker, some r⟩
    let finish := fun (uni bro : Map String (List BulkWireMsg)) =>
      let a := flush env.msgNum (fun key l => sendBulkMsg env (beforeColon key) msgType l) sch.σu sch.ok uni s.sent
      let b := flush env.msgNum (fun key l => sendBulkMsg env key msgType l) sch.σb sch.ok bro a.2
      ((⟨a.1, b.1, b.2⟩ : St P), Res.ok ())
    if r.isBroadcast then finish s.uni (append s.bro o.type x)
    else match r.to_ with
      | [] => (s, .panic)
      | d :: _ => finish (append s.uni (o.type ++ ":" ++ env.pstr d) x) s.bro

/-- the start of a session -/
def init {P : Type} : St P := ⟨[], [], []⟩

/-- a sequence of outputs of the local parties, one call each (keygen/tss_keygen.go:207-214, keysign/tss_keysign.go:248-254) -/
def runOut {P : Type} (env : Env P) (msgType : MsgType) : St P → List (Sched × Output) → St P
  | s, [] => s
  | s, (sch, o) :: rest => runOut env msgType (ProcessOutCh env sch o msgType s).1 rest

end Verif.OutBatch
