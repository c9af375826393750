import Verif.Model.Server
import Verif.Model.Comm

/-!
# p2p/party_coordinator.go: what joining nodes write to and read from the network, and networks of joining nodes

Every node makes at most one join call, for one job; the groups of other calls are part of the `Groups` it starts with. `S` are names of streams.
Protobuf is a parameter. libp2p is given by the outcomes of `NewStream` and of the writes, and by the chunks a reader sees; it tells a reader the
true identity of the other side. The replies "done" (82-86, 177-181) are not modelled: whoever waits for one (316-321) ignores what it reads.
-/
namespace Verif.JoinNet
open Verif.Go Verif.JoinParty Verif.Server

/-- messages/join_party.proto `JoinPartyLeaderComm` -/
structure Comm where
  id : String
  msgType : String
  typ : RespType
  peerIDs : List String
  deriving DecidableEq

/-- `proto.Marshal` and `proto.Unmarshal` of `JoinPartyRequest` (a message id) and of `JoinPartyLeaderComm` -/
structure Wire where
  encReq : String → Option Bytes
  decReq : Bytes → Option String
  encComm : Comm → Option Bytes
  decComm : Bytes → Option Comm

/-- p2p/communication.go:27-30 the two protocols -/
inductive Proto
  | joinParty | joinPartyWithLeader
  deriving DecidableEq

/-- what a node was asked for: the arguments of `joinParty` -/
structure Job where
  msgID : String
  version : Str
  blockHeight : Int
  keys : List Str
  threshold : Int

/-- One attempt to send: protocol, receiver, and the stream with the bytes that reached it, if one could be opened -/
structure Send (P S : Type) where
  proto : Proto
  peer : P
  out : Option (S × Bytes)

/-- A node. `call`: its join call, or the error it returned at once. `pending`: the goroutines of `sendResponseToAll` that have not run. `sends` is a
ghost. (The model sets the result of a leader before its answers are written; the code returns after that.) -/
structure Node (P S : Type) where
  call : Option (Except (JoinOut P) (JoinCall P)) := none
  pending : List (P × Bytes) := []
  streams : StreamMgr.State S := StreamMgr.init
  sends : List (Send P S) := []

/-- events of a node; `local_` are those of the join call itself -/
inductive Event (P S : Type)
  | start (gs : Groups P)
  | local_ (e : JoinParty.Event P)
  | request (q : P) (o : Comm.Outcome S)
  | answer (i : Nat) (o : Comm.Outcome S)
  | incoming (pr : Proto) (s : S) (p : P) (chunks : List Bytes)
  | release (id : String)

variable {P S A H L : Type} [DecidableEq P] [LinearOrder A] [LinearOrder H]

/-- p2p/party_coordinator.go:112-144 `HandleStream`: the id under which the stream is kept, and what is handled -/
def readLeaderless (w : Wire) (p : P) (chunks : List Bytes) : String × Option (String × Body P) :=
  match (Stream.ReadStreamWithBuffer chunks).1 with
  | .ok payload =>
    match w.decReq payload with
    | none => ("UNKNOWN", none)
    | some id => (id, some (id, .leaderless p))
  | _ => ("UNKNOWN", none)

/-- p2p/party_coordinator.go:147-188 `HandleStreamWithLeader` with the filing of the stream in 68 and 93 -/
def readWithLeader (w : Wire) (p : P) (chunks : List Bytes) : String × Option (String × Body P) :=
  match (Stream.ReadStreamWithBuffer chunks).1 with
  | .ok payload =>
    match w.decReq payload with
    | none => ("UNKNOWN", none)
    | some _ =>
      match w.decComm payload with
      | none => ("UNKNOWN", none)
      | some m =>
        if m.msgType = "request" then (m.id, some (m.id, .request p))
        else if m.msgType = "response" then (m.id, some (m.id, .response p ⟨m.typ, m.peerIDs⟩))
        else ("UNKNOWN", none)
  | _ => ("UNKNOWN", none)

/-- the handler of a protocol: p2p/party_coordinator.go:54-55 -/
def readStream (w : Wire) : Proto → P → List Bytes → String × Option (String × Body P)
  | .joinParty => readLeaderless w
  | .joinPartyWithLeader => readWithLeader w

/-- the peers the job is about, as the coordinator decodes them: tss/tss.go:178-200, p2p/party_coordinator.go:209-219, 436 -/
def allPeers (env : Env P A H L) (job : Job) : List P :=
  match Conversion.GetPeerIDsFromPubKeys env.codec job.keys with
  | .ok ps =>
    match getPeerIDs env.peers (ps.map env.peers.str) with
    | .ok l => l
    | _ => []
  | _ => []

/-- p2p/party_coordinator.go:221-242 `sendResponseToAll`: one goroutine for each peer -/
def sendResponseToAll (env : Env P A H L) (w : Wire) (job : Job) (c : JoinCall P) (r : Resp) : List (P × Bytes) :=
  match w.encComm ⟨c.msgID, "response", r.typ, r.peerIDs⟩ with
  | none => []
  | some b => (allPeers env job).map fun q => (q, b)

/-- what a running join call wants to write to `q`: p2p/party_coordinator.go:244-258 (`sendRequestToLeader`, called in 348-353 until the wait has
ended), 497-503 and 260-275 (`sendRequestToAll`, called in 524 until the wait has ended, then in 551 with the peers found online; the node itself is not
in the peer map). How often the leaderless call writes to the peers found online, once in the code, is not modelled. -/
def wish (env : Env P A H L) (w : Wire) (job : Job) (c : JoinCall P) (q : P) : Option (Proto × Bytes) :=
  match c.kind with
  | .leader _ => none
  | .member _ =>
    if env.peers.decode c.leader = some q ∧ (c.st.phase = .waiting ∨ c.st.phase = .ended) then
      (w.encComm ⟨c.msgID, "request", .unknown, []⟩).map fun b => (.joinPartyWithLeader, b)
    else none
  | .leaderless _ =>
    if q ∈ allPeers env job ∧ q ≠ env.me ∧ c.st.result.all (fun r => decide (q ∈ r.online)) = true then (w.encReq c.msgID).map fun b => (.joinParty, b) else none

/-- p2p/party_coordinator.go:277-324 `sendMsgToPeer`: what reaches which stream -/
def sendMsgToPeer (b : Bytes) : Comm.Outcome S → Option (S × Bytes)
  | .noStream => none
  | .stream s fault => some (s, (Stream.WriteStreamWithBuffer b fault).1)

/-- the stream is kept (308-309) and the attempt is noted -/
def Node.sent (n : Node P S) (msgID : String) (pr : Proto) (q : P) (out : Option (S × Bytes)) : Node P S :=
  { n with streams := StreamMgr.addStream n.streams msgID (out.map Prod.fst), sends := n.sends ++ [⟨pr, q, out⟩] }

/-- is it an event of the join call itself, and not a message from outside? -/
def isLocal : JoinParty.Event P → Bool
  | .incoming _ _ => false
  | _ => true

/-- one event of a node; an event that is not possible changes nothing -/
def step (env : Env P A H L) (w : Wire) (job : Job) (n : Node P S) : Event P S → Node P S
  | .start gs =>
    match n.call with
    | none => { n with call := some (joinParty env gs job.msgID job.version job.blockHeight job.keys job.threshold) }
    | some _ => n
  | .local_ e =>
    match n.call with
    | some (.ok c) =>
      if isLocal e then
        let c' := c.step env e
        { n with call := some (.ok c')
                 pending := match c.st.sent, c'.st.sent with
                  | none, some r => n.pending ++ sendResponseToAll env w job c r
                  | _, _ => n.pending }
      else n
    | _ => n
  | .request q o =>
    match n.call with
    | some (.ok c) =>
      match wish env w job c q with
      | none => n
      | some (pr, b) => n.sent c.msgID pr q (sendMsgToPeer b o)
    | _ => n
  -- p2p/party_coordinator.go:231-238
  | .answer i o =>
    match n.call, n.pending[i]? with
    | some (.ok c), some (q, b) =>
      if q = env.me then { n with pending := n.pending.eraseIdx i }
      else ({ n with pending := n.pending.eraseIdx i } : Node P S).sent c.msgID .joinPartyWithLeader q (sendMsgToPeer b o)
    | _, _ => n
  | .incoming pr s p chunks =>
    let r := readStream w pr p chunks
    { n with streams := StreamMgr.addStream n.streams r.1 (some s)
             call := match n.call, r.2 with
              | some (.ok c), some (id, b) => some (.ok (c.step env (.incoming id b)))
              | _, _ => n.call }
  -- p2p/party_coordinator.go:558-560
  | .release id => { n with streams := StreamMgr.releaseStream n.streams id }

/-- a history of a node -/
def run (env : Env P A H L) (w : Wire) (job : Job) (h : List (Event P S)) : Node P S := h.foldl (step env w job) {}

/-- what the join call of a node has returned, if it has -/
def Node.result (n : Node P S) : Option (Result P) :=
  match n.call with
  | some (.ok c) => c.st.result
  | _ => none

/-! ## several nodes -/

/-- the honest nodes and the streams that are on their way: sender, receiver, protocol, bytes -/
structure Net (P S : Type) where
  nodes : P → Node P S
  pool : List (P × P × Proto × Bytes)

/-- events of a network: an honest node does something; the stream at position `i` reaches its receiver, which reads the chunks; a node that is not
honest opens a stream -/
inductive NetEvent (P S : Type)
  | at_ (q : P) (e : Event P S)
  | deliver (i : Nat) (s : S) (chunks : List Bytes)
  | foreign (pr : Proto) (s : S) (p q : P) (chunks : List Bytes)

/-- is it the arrival of a stream? -/
def isIncoming : Event P S → Bool
  | .incoming _ _ _ _ => true
  | _ => false

/-- what an event of a node puts on the network -/
def written (n n' : Node P S) (q : P) : List (P × P × Proto × Bytes) :=
  (n'.sends.drop n.sends.length).filterMap fun s => s.out.map fun o => (q, s.peer, s.proto, o.2)

/-- change of the state of one node -/
def Net.update (n : Net P S) (q : P) (s : Node P S) : P → Node P S := fun x => if x = q then s else n.nodes x

/-- One event. A reader sees a prefix of what was written, in any chunks: the transport neither alters nor invents bytes of an honest sender, and a
stream is read once. -/
def netStep (env : P → Env P A H L) (w : Wire) (job : P → Job) (honest : P → Bool) (n : Net P S) : NetEvent P S → Net P S
  | .at_ q e =>
    if honest q = true ∧ isIncoming e = false then
      let n' := step (env q) w (job q) (n.nodes q) e
      ⟨n.update q n', n.pool ++ written (n.nodes q) n' q⟩
    else n
  | .deliver i s chunks =>
    match n.pool[i]? with
    | none => n
    | some (p, q, pr, b) =>
      if honest q = true ∧ chunks.flatten <+: b then ⟨n.update q (step (env q) w (job q) (n.nodes q) (.incoming pr s p chunks)), n.pool.eraseIdx i⟩
      else n
  | .foreign pr s p q chunks =>
    if honest p = false ∧ honest q = true then ⟨n.update q (step (env q) w (job q) (n.nodes q) (.incoming pr s p chunks)), n.pool⟩ else n

/-- a history of a network -/
def netRun (env : P → Env P A H L) (w : Wire) (job : P → Job) (honest : P → Bool) (h : List (NetEvent P S)) : Net P S :=
  h.foldl (netStep env w job honest) ⟨fun _ => {}, []⟩

end Verif.JoinNet
