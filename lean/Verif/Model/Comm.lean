import Verif.Model.Stream
import Verif.Model.StreamMgr
import Verif.Model.Subscribers

/-!
# The communication layer of a node: p2p/communication.go 104-193, 303-318, 369-443

`P` are peer ids, `C` channels of sessions, `S` names of network streams.  JSON of wrapped messages is a parameter.  libp2p is given by the
outcomes of `NewStream` and of the writes, and by the chunks a reader sees; it tells a reader the true identity of the other side.  Every
goroutine is a list entry; which of them moves is the choice of the environment.
-/
namespace Verif.Comm
open Verif.Go

/-- messages/p2p_message.go:44-48 `WrappedMessage`.  (A type outside of the constants behaves like `unknown`: nobody subscribes to it.) -/
structure Wrapped where
  topic : Subscribers.Topic
  msgID : String
  payload : Bytes
  deriving DecidableEq

/-- what does not change: the own peer id, `json.Marshal` of a wrapped message, type and id found by `json.Unmarshal`, and the capacities of the
channels -/
structure Env (P C : Type) where
  me : P
  enc : Wrapped → Option Bytes
  dec : Bytes → Option (Subscribers.Topic × String)
  cap : C → Nat

/-- a goroutine of `broadcastToPeers`: receiver, bytes, message id -/
structure Writer (P : Type) where
  peer : P
  data : Bytes
  msgID : String
  deriving DecidableEq

/-- p2p/types.go `Message` on its way to the channel of a session -/
structure Delivery (P C : Type) where
  chan : C
  peer : P
  payload : Bytes
  deriving DecidableEq

/-- State.  `queue` is `BroadcastMsgChan`, `looping` tells that `ProcessBroadcast` has not ended, `stopped` that `stopChan` is closed, `opened` are the
streams of peers whose handler has found the node running.  Ghosts:
`accepted` (what was put into the queue), `finished` (writers that have ended, with the bytes that reached a stream), `received` (what sessions
have taken from their channels). -/
structure St (P C S : Type) where
  queue : List (Wrapped × List P) := []
  looping : Bool := true
  stopped : Bool := false
  opened : List (S × P) := []
  writers : List (Writer P) := []
  streams : StreamMgr.State S := StreamMgr.init
  subs : Subscribers.State C := []
  handlers : List (Delivery P C) := []
  chans : List (Delivery P C) := []
  accepted : List (Wrapped × List P) := []
  finished : List (Writer P × Option (S × Bytes)) := []
  received : List (Delivery P C) := []

/-- how a write ends: no stream could be opened, or a stream was opened and all is written, or the transport failed after some bytes -/
inductive Outcome (S : Type)
  | noStream
  | stream (s : S) (fault : Option Nat)

/-- events -/
inductive Event (P C S : Type)
  | broadcast (w : Wrapped) (peers : List P)  -- a session puts a message into `BroadcastMsgChan`
  | process                                   -- `ProcessBroadcast` takes a message
  | loopStop                                  -- `ProcessBroadcast` sees the closed `stopChan`
  | write (i : Nat) (o : Outcome S)           -- writer `i` runs
  | accept (s : S) (p : P)                    -- `handleStream` for a stream opened by `p` starts
  | incoming (s : S) (p : P) (chunks : List Bytes)  -- and has read the stream (perhaps much later, even after a stop)
  | handler (i : Nat)                         -- the handler of a delivery puts it into the channel
  | handover (i : Nat)                        -- the session takes it from the handler (the channel is empty)
  | receive (i : Nat)                         -- a session takes from its channel
  | subscribe (t : Subscribers.Topic) (id : String) (c : C)
  | cancel (t : Subscribers.Topic) (id : String)
  | release (id : String)
  | stop

variable {P C S : Type} [DecidableEq P] [DecidableEq C] [DecidableEq S]

/-- p2p/communication.go:104-128 `Broadcast` and `broadcastToPeers`: one goroutine for each entry of the list -/
def writersOf (data : Bytes) (msgID : String) (peers : List P) : List (Writer P) := peers.map fun p => ⟨p, data, msgID⟩

/-- p2p/communication.go:130-150 `writeToStream` (with `connectToOnePeer`, 303-318): what reaches which stream; `none` for the node itself or if no
stream could be opened -/
def writeToStream (me : P) (w : Writer P) : Outcome S → Option (S × Bytes)
  | .noStream => none
  | .stream s fault => if w.peer = me then none else some (s, (Stream.WriteStreamWithBuffer w.data fault).1)

/-- p2p/communication.go:152-186 `readFromStream`, up to the send on the channel: the message id under which the stream is kept, and the delivery -/
def readFromStream (env : Env P C) (subs : Subscribers.State C) (p : P) (chunks : List Bytes) : String × Option (Delivery P C) :=
  match (Stream.ReadStreamWithBuffer chunks).1 with
  | .ok data =>
    match env.dec data with
    | none => ("UNKNOWN", none)
    | some (t, id) =>
      match Subscribers.getSubscriber subs t id with
      | none => (id, none)
      | some c => (id, some ⟨c, p, data⟩)
  | _ => ("UNKNOWN", none)

/-- the number of elements in a channel -/
def inChan (chans : List (Delivery P C)) (c : C) : Nat := (chans.filter fun d => d.chan = c).length

/-- is delivery `i` the first one of its channel? -/
def isFirst (chans : List (Delivery P C)) (i : Nat) (d : Delivery P C) : Bool := (chans.take i).all fun d' => decide (d'.chan ≠ d.chan)

/-- one event; an event that is not possible changes nothing -/
def step (env : Env P C) (s : St P C S) : Event P C S → St P C S
  -- p2p/communication.go:87: the channel has room for 1024 messages
  | .broadcast w peers => if s.queue.length < 1024 then { s with queue := s.queue ++ [(w, peers)], accepted := s.accepted ++ [(w, peers)] } else s
  -- p2p/communication.go:420-434
  | .process =>
    if s.looping then
      match s.queue with
      | [] => s
      | (w, peers) :: rest =>
        match env.enc w with
        | none => { s with queue := rest }
        | some data => { s with queue := rest, writers := s.writers ++ writersOf data w.msgID peers }
    else s
  -- p2p/communication.go:435-436
  | .loopStop => if s.stopped then { s with looping := false } else s
  -- p2p/communication.go:119-124, 130-150
  | .write i o =>
    match s.writers[i]? with
    | none => s
    | some w =>
      let r := writeToStream env.me w o
      { s with writers := s.writers.eraseIdx i, finished := s.finished ++ [(w, r)]
               streams := StreamMgr.addStream s.streams w.msgID (r.map Prod.fst) }
  -- p2p/communication.go:188-193 and 156-158
  | .accept st p => if s.stopped then s else { s with opened := s.opened ++ [(st, p)] }
  -- p2p/communication.go:159-185
  | .incoming st p chunks =>
    if (st, p) ∉ s.opened then s
    else
      let r := readFromStream env s.subs p chunks
      { s with streams := StreamMgr.addStream s.streams r.1 (some st), handlers := s.handlers ++ r.2.toList }
  | .handler i =>
    match s.handlers[i]? with
    | none => s
    | some d => if inChan s.chans d.chan < env.cap d.chan then { s with handlers := s.handlers.eraseIdx i, chans := s.chans ++ [d] } else s
  | .handover i =>
    match s.handlers[i]? with
    | none => s
    | some d => if inChan s.chans d.chan = 0 then { s with handlers := s.handlers.eraseIdx i, received := s.received ++ [d] } else s
  | .receive i =>
    match s.chans[i]? with
    | none => s
    | some d => if isFirst s.chans i d then { s with chans := s.chans.eraseIdx i, received := s.received ++ [d] } else s
  | .subscribe t id c => { s with subs := Subscribers.setSubscribe s.subs t id c }
  | .cancel t id => { s with subs := Subscribers.cancelSubscribe s.subs t id }
  -- p2p/communication.go:441-443
  | .release id => { s with streams := StreamMgr.releaseStream s.streams id }
  -- p2p/communication.go:369-377; a second stop panics (C86)
  | .stop => { s with stopped := true }

/-- a history -/
def run (env : Env P C) (h : List (Event P C S)) : St P C S := h.foldl (step env) {}

/-! ## several nodes -/

/-- the honest nodes and the streams that are on their way: sender, receiver, bytes -/
structure Net (P C S : Type) where
  nodes : P → St P C S
  pool : List (P × P × Bytes)

/-- events of a network: an honest node does something (its handler may accept a stream from anybody); the receiver of the stream at position `i`
has read it, in these chunks; a receiver has read the stream of a node that is not honest -/
inductive NetEvent (P C S : Type)
  | at_ (q : P) (e : Event P C S)
  | deliver (i : Nat) (s : S) (chunks : List Bytes)
  | foreign (s : S) (p q : P) (chunks : List Bytes)

/-- is it the arrival of a stream? -/
def isIncoming : Event P C S → Bool
  | .incoming _ _ _ => true
  | _ => false

/-- what an event of a node puts on the network -/
def written (env : Env P C) (s : St P C S) : Event P C S → Option (P × Bytes)
  | .write i o => match s.writers[i]? with
    | none => none
    | some w => (writeToStream env.me w o).map fun r => (w.peer, r.2)
  | _ => none

/-- change of the state of one node -/
def Net.update (n : Net P C S) (q : P) (s : St P C S) : P → St P C S := fun x => if x = q then s else n.nodes x

/-- One event.  A reader sees a prefix of what was written, in any chunks: the transport neither alters nor invents bytes of an honest sender, and
a stream is read once. -/
def netStep (env : P → Env P C) (honest : P → Bool) (n : Net P C S) : NetEvent P C S → Net P C S
  | .at_ q e =>
    if honest q = true ∧ isIncoming e = false then
      ⟨n.update q (step (env q) (n.nodes q) e), n.pool ++ ((written (env q) (n.nodes q) e).map fun r => (q, r.1, r.2)).toList⟩
    else n
  | .deliver i s chunks =>
    match n.pool[i]? with
    | none => n
    | some (p, q, b) =>
      if honest q = true ∧ chunks.flatten <+: b then ⟨n.update q (step (env q) (n.nodes q) (.incoming s p chunks)), n.pool.eraseIdx i⟩ else n
  | .foreign s p q chunks =>
    if honest p = false ∧ honest q = true then ⟨n.update q (step (env q) (n.nodes q) (.incoming s p chunks)), n.pool⟩ else n

/-- a history of a network -/
def netRun (env : P → Env P C) (honest : P → Bool) (h : List (NetEvent P C S)) : Net P C S := h.foldl (netStep env honest) ⟨fun _ => {}, []⟩

end Verif.Comm
