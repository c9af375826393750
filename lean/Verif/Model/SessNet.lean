import Verif.Model.OutBatch

/-!
# Several nodes in one session

A session runs on every member of the party: `Verif.TssCommon` models what a node does with the messages it receives,
`Verif.OutBatch` what it sends on behalf of its local parties. Here the two halves are put together and the nodes are connected.

The JSON encoders are parameters. Every message of the session carries the message id of the session, and only those reach the
session (Verif.Model.Subscribers, Verif.Model.Comm): the id in the envelope is left out. The network neither alters nor invents the
bytes an honest sender wrote (Verif.Model.Stream); it may lose, delay and reorder messages.
-/
namespace Verif.SessNet
open Verif.Go Verif.Conversion Verif.Messages Verif.Blame Verif.TssCommon

/-- `json.Marshal` of the messages of a session: messages/p2p_message.go:47-51 `WrappedMessage` (type and payload), 67-72 `WireMessage`,
60-64 `BroadcastConfirmMessage`, 79-84 `TssControl`, 86-88 `TssTaskNotifier`, and of a list of common/tss.go:80-84 `BulkWireMsg` -/
structure Encoders (P : Type) where
  wrap : MsgType → Bytes → Bytes
  wire : WireMessage → Bytes
  confirm : ConfirmMsg P → Bytes
  control : Control → Bytes
  task : Bool → Bytes
  bulk : List BulkWireMsg → Bytes

/-- What one node knows: the environments of its two halves, the blame manager with its party maps, the type of the messages of the
session (keygen/tss_keygen.go:209, keysign/tss_keysign.go:250) and common/tss_helper.go:85-90 `generateSignature` for its key and this
session. -/
structure Site (K P : Type) where
  env : TssCommon.Env K P
  out : OutBatch.Env P
  mgr : Manager K P
  type : MsgType
  sign : Bytes → Bytes

/-- One node: the processing of messages, the batching of outputs, whether the program has been ended by a panic while batching. `hist` and
`signed` are ghost records: what happened to the session, and the payloads signed in it. -/
structure Node (K P : Type) where
  ses : TssCommon.St K P
  out : OutBatch.St P
  dead : Bool
  hist : List (TssCommon.Event P)
  signed : List Bytes

/-- the start of a session, common/tss.go:55-78 -/
def start {K P : Type} (site : Site K P) : Node K P := ⟨newTssCommon site.mgr, OutBatch.init, false, [], []⟩

variable {K P : Type} [DecidableEq K] [DecidableEq P]

/-- common/tss.go:446-499 the message `sendBulkMsg` signs and sends for a bulk -/
def wireOf (enc : Encoders P) (site : Site K P) (b : OutBatch.Bulk P) : WireMessage :=
  ⟨b.routing, b.roundInfo, enc.bulk b.shares, site.sign (enc.bulk b.shares)⟩

/-- p2p/communication.go:113-135: the bytes go to every receiver but ourselves -/
def toPeers (me : P) (b : Bytes) (peers : List P) : List (P × P × Bytes) := (peers.filter (fun p => p ≠ me)).map (fun p => (me, p, b))

/-- common/tss.go:469-498: a bulk on the network -/
def renderBulk (enc : Encoders P) (site : Site K P) (b : OutBatch.Bulk P) : List (P × P × Bytes) :=
  toPeers site.env.localPeer (enc.wrap b.msgType (enc.wire (wireOf enc site b))) b.peers

/-- common/tss.go:679-699, common/tss_helper.go:257-270: a confirmation or a control message on the network -/
def renderSent (enc : Encoders P) (site : Site K P) (x : Sent P) : List (P × P × Bytes) :=
  toPeers site.env.localPeer
    (match x.payload with
      | .confirm t key hash => enc.wrap t (enc.confirm ⟨none, key, hash⟩)
      | .control c => enc.wrap TSSControlMsg (enc.control c)) x.peers

/-- what a node does by itself: a step of a worker, an output of a local party (common/tss.go:501-562), the report that the task is done
(common/tss_helper.go:221-240) -/
inductive LocalEvent
  | work (job : Nat)
  | output (sch : OutBatch.Sched) (o : OutBatch.Output)
  | notifyDone

/-- is the program still running? -/
def Node.alive (n : Node K P) : Bool := !n.dead && !n.ses.crashed

/-- common/tss.go:843-868: an event of the session, and what it puts on the network -/
def inbound (enc : Encoders P) (site : Site K P) (n : Node K P) (e : TssCommon.Event P) : Node K P × List (P × P × Bytes) :=
  if n.alive then
    let ses := TssCommon.step site.env n.ses e
    ({ n with ses, hist := n.hist ++ [e] }, (ses.sent.drop n.ses.sent.length).flatMap (renderSent enc site))
  else (n, [])

/-- what a node does by itself, and what it puts on the network -/
def localStep (enc : Encoders P) (site : Site K P) (n : Node K P) : LocalEvent → Node K P × List (P × P × Bytes)
  | .work job => inbound enc site n (.work job)
  | .output sch o =>
    if n.alive then
      let (out, r) := OutBatch.ProcessOutCh site.out sch o site.type n.out
      let bulks := out.sent.drop n.out.sent.length
      ({ n with
          out
          dead := decide (r = Res.panic)
          signed := n.signed ++ bulks.map (fun b => enc.bulk b.shares) },
        bulks.flatMap (renderBulk enc site))
    else (n, [])
  | .notifyDone =>
    if n.alive then (n, toPeers site.env.localPeer (enc.wrap TSSTaskDone (enc.task true)) site.env.p2pPeers) else (n, [])

/-- the honest nodes, and the messages on their way: sender, receiver, bytes -/
structure Net (K P : Type) where
  nodes : P → Node K P
  pool : List (P × P × Bytes)

/-- Events of the network: an honest node does something by itself; the message at position `i` reaches its receiver, who processes it under a
schedule; a node that is not honest sends something. -/
inductive NetEvent (P : Type)
  | at_ (q : P) (e : LocalEvent)
  | deliver (i : Nat) (sch : TssCommon.Sched P)
  | foreign (p q : P) (raw : Bytes) (sch : TssCommon.Sched P)

/-- change of the state of one node -/
def Net.update (n : Net K P) (q : P) (s : Node K P) : P → Node K P := fun x => if x = q then s else n.nodes x

/-- One event. Messages to nodes that are not honest leave the network. -/
def netStep (enc : Encoders P) (site : P → Site K P) (honest : P → Bool) (n : Net K P) : NetEvent P → Net K P
  | .at_ q e =>
    if honest q then
      let (s, out) := localStep enc (site q) (n.nodes q) e
      ⟨n.update q s, n.pool ++ out⟩
    else n
  | .deliver i sch =>
    match n.pool[i]? with
    | none => n
    | some (p, q, raw) =>
      if honest q then
        let (s, out) := inbound enc (site q) (n.nodes q) (.msg raw p sch)
        ⟨n.update q s, n.pool.eraseIdx i ++ out⟩
      else { n with pool := n.pool.eraseIdx i }
  | .foreign p q raw sch =>
    if honest p = false ∧ honest q = true then
      let (s, out) := inbound enc (site q) (n.nodes q) (.msg raw p sch)
      ⟨n.update q s, n.pool ++ out⟩
    else n

/-- a history of the network -/
def netRun (enc : Encoders P) (site : P → Site K P) (honest : P → Bool) (h : List (NetEvent P)) : Net K P :=
  h.foldl (netStep enc site honest) ⟨fun q => start (site q), []⟩

end Verif.SessNet
