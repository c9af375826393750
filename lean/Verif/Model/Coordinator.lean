import Verif.Model.JoinNet

/-!
# p2p/party_coordinator.go: several join calls of one node

`Verif.JoinParty` and `Verif.JoinNet` follow a single join call, under the assumption that the group of its message id is not replaced while it runs.
Here a node makes any number of join calls, one after the other or at the same time, also for the same message id.

A call keeps a pointer to the group it created (`peerGroup`); the coordinator's map tells the stream handlers which group belongs to a message id. The
group of a call is part of its state (`call.st.groups`, a map with one entry); `groups` maps a message id to the number of the call whose group it has.
A stream handler looks the group up (71-73, 94-96, 129-131) and updates it later (79-80, 102-109, 136-143): in between it is `pending`.

The bytes on the network and the streams are those of `Verif.JoinNet` and left out.
-/
namespace Verif.Coordinator
open Verif.Go Verif.JoinParty Verif.Server

/-- A join call: what it was asked for and its state. `hist` is a ghost: what happened to it. -/
structure Call (P : Type) where
  job : JoinNet.Job
  call : JoinCall P
  hist : List (JoinParty.Event P)

/-- A node: its join calls, returned ones included; p2p/party_coordinator.go:31 `peersGroup`; the handlers that have looked up a group. -/
structure Node (P : Type) where
  calls : List (Call P) := []
  groups : Map String Nat := []
  pending : List (Nat × Body P) := []

/-- Events of a node: a join call begins; a message for a message id arrives and the handler looks up the group; a handler goes on; a call goes on. -/
inductive Event (P : Type)
  | begin_ (job : JoinNet.Job)
  | arrive (id : String) (b : Body P)
  | handle (i : Nat)
  | act (k : Nat) (e : JoinParty.Event P)

variable {P A H L : Type} [DecidableEq P] [LinearOrder A] [LinearOrder H]

/-- one event of a call -/
def Call.step (env : Env P A H L) (c : Call P) (e : JoinParty.Event P) : Call P := { c with call := c.call.step env e, hist := c.hist ++ [e] }

/-- does the call remove the group of its id from the map when it returns? Only the leaderless one: p2p/party_coordinator.go:510 -/
def removes : JoinKind → Bool
  | .leaderless _ => true
  | _ => false

/-- one event; an event that is not possible changes nothing -/
def step (env : Env P A H L) (n : Node P) : Event P → Node P
  -- tss/tss.go:169-204, p2p/party_coordinator.go:196-207: a new group in the place of any other
  | .begin_ job =>
    match joinParty env [] job.msgID job.version job.blockHeight job.keys job.threshold with
    | .ok c => { n with calls := n.calls ++ [⟨job, c, []⟩], groups := Map.set n.groups job.msgID n.calls.length }
    | .error _ => n
  | .arrive id b =>
    match Map.get n.groups id with
    | none => n
    | some k => { n with pending := n.pending ++ [(k, b)] }
  | .handle i =>
    match n.pending[i]? with
    | none => n
    | some (k, b) =>
      { n with
        calls := match n.calls[k]? with
          | none => n.calls
          | some c => n.calls.set k (c.step env (.incoming c.job.msgID b))
        pending := n.pending.eraseIdx i }
  | .act k e =>
    match n.calls[k]? with
    | none => n
    | some c =>
      if JoinNet.isLocal e then
        let c' := c.step env e
        { n with
          calls := n.calls.set k c'
          -- p2p/party_coordinator.go:190-194, 510: by message id, whosever group it is
          groups := if removes c.call.kind ∧ c.call.st.result.isNone ∧ c'.call.st.result.isSome then Map.del n.groups c.job.msgID else n.groups }
      else n

/-- a history of a node -/
def run (env : Env P A H L) (h : List (Event P)) : Node P := h.foldl (step env) {}

/-! ## several nodes -/

/-- the honest nodes, and the messages on their way: sender, receiver, message id, content -/
structure Net (P : Type) where
  nodes : P → Node P
  pool : List (P × P × String × Body P)

/-- who wrote a message: the remote peer of the stream -/
def writer : Body P → P
  | .leaderless p => p
  | .request p => p
  | .response p _ => p

/-- events: an honest node does something by itself; its call `k` writes to `p`; the message at position `i` reaches its receiver; a node that is not
honest writes -/
inductive NetEvent (P : Type)
  | at_ (q : P) (e : Event P)
  | ask (q : P) (k : Nat) (p : P)
  | deliver (i : Nat)
  | foreign (q : P) (id : String) (b : Body P)

/-- does it come from outside? -/
def isArrival : Event P → Bool
  | .arrive _ _ => true
  | _ => false

/-- what a running call writes to `p`; see `JoinNet.wish` -/
def asks (env : Env P A H L) (c : Call P) (p : P) : Option (Body P) :=
  match c.call.kind with
  | .leader _ => none
  | .member _ => if env.peers.decode c.call.leader = some p ∧ (c.call.st.phase = .waiting ∨ c.call.st.phase = .ended) then some (.request env.me) else none
  | .leaderless _ =>
    if p ∈ JoinNet.allPeers env c.job ∧ p ≠ env.me ∧ c.call.st.result.all (fun r => decide (p ∈ r.online)) = true then some (.leaderless env.me) else none

/-- p2p/party_coordinator.go:221-242 `sendResponseToAll`: the verdicts an event produces. (That some of them are never written is the same as that they
never arrive.) -/
def verdicts (env : Env P A H L) (q : P) (n n' : Node P) : Event P → List (P × P × String × Body P)
  | .act k _ =>
    match n.calls[k]?, n'.calls[k]? with
    | some c, some c' =>
      match c.call.st.sent, c'.call.st.sent with
      | none, some r => ((JoinNet.allPeers env c.job).filter (fun p => p ≠ q)).map fun p => (q, p, c.job.msgID, .response q r)
      | _, _ => []
    | _, _ => []
  | _ => []

/-- change of the state of one node -/
def Net.update (n : Net P) (q : P) (s : Node P) : P → Node P := fun x => if x = q then s else n.nodes x

/-- one event of the network -/
def netStep (env : P → Env P A H L) (honest : P → Bool) (n : Net P) : NetEvent P → Net P
  | .at_ q e =>
    if honest q = true ∧ isArrival e = false then
      let s := step (env q) (n.nodes q) e
      ⟨n.update q s, n.pool ++ verdicts (env q) q (n.nodes q) s e⟩
    else n
  | .ask q k p =>
    if honest q then
      match (n.nodes q).calls[k]? with
      | none => n
      | some c =>
        match asks (env q) c p with
        | none => n
        | some b => { n with pool := n.pool ++ [(q, p, c.job.msgID, b)] }
    else n
  | .deliver i =>
    match n.pool[i]? with
    | none => n
    | some (_, q, id, b) =>
      if honest q then ⟨n.update q (step (env q) (n.nodes q) (.arrive id b)), n.pool.eraseIdx i⟩ else { n with pool := n.pool.eraseIdx i }
  | .foreign q id b =>
    if honest (writer b) = false ∧ honest q = true then { n with nodes := n.update q (step (env q) (n.nodes q) (.arrive id b)) } else n

/-- a history of the network -/
def netRun (env : P → Env P A H L) (honest : P → Bool) (h : List (NetEvent P)) : Net P := h.foldl (netStep env honest) ⟨fun _ => {}, []⟩

end Verif.Coordinator
