import Verif.Model.PeerStatus

/-!
# p2p/party_coordinator.go: forming the signing party

One join call (leader, member or leaderless) is a state machine whose events are the messages handled by the stream handlers
(for any message id), the scheduling of the waiting goroutine, timers and the signature channel. A handler's look-up of the
group, its update and its channel send form one event: the group of a message id is not replaced while the join runs.
Sending the requests to others has no effect on the local state and is not modelled, except for the leader's verdict.
-/
namespace Verif.JoinParty
open Verif.Go Verif.Peers

variable {P : Type} [DecidableEq P]

/-- libp2p peer ids as text: `peer.ID.String` and `peer.Decode`. -/
structure PeerCodec (P : Type) where
  str : P → String
  decode : String → Option P

/-- A buffered Go channel, of which only the number of elements matters; `blocked` counts the goroutines blocked in a send. -/
structure Chan where
  cap : Nat
  len : Nat
  blocked : Nat
  deriving DecidableEq, Repr

/-- `c <- true` -/
def Chan.send (c : Chan) : Chan := if c.len < c.cap then { c with len := c.len + 1 } else { c with blocked := c.blocked + 1 }

/-- `<-c` succeeds; a blocked sender, if any, takes the free slot. -/
def Chan.recv (c : Chan) : Option Chan :=
  if c.blocked ≠ 0 then some { c with blocked := c.blocked - 1 }
  else if c.len ≠ 0 then some { c with len := c.len - 1 } else none

/-- messages/join_party.pb.go:24-31 the response types. -/
inductive RespType where
  | unknown | success | timeout | leaderNotReady | unknownPeer
  deriving DecidableEq, Repr

/-- The part of `JoinPartyLeaderComm` used by the coordinator (messages/join_party.pb.go). -/
structure Resp where
  typ : RespType
  peerIDs : List String
  deriving DecidableEq, Repr

/-- A peer group with its channels: p2p/peer_status.go:12-22. -/
structure Group (P : Type) where
  ps : PeerStatus P
  leaderResponse : Option Resp
  notify : Chan
  newFound : Chan

/-- Message handled by a stream handler, after decoding; the peer is the authenticated remote peer of the stream.
`leaderless`: HandleStream; `request`, `response`: HandleStreamWithLeader. -/
inductive Body (P : Type) where
  | leaderless (from_ : P)
  | request (from_ : P)
  | response (from_ : P) (r : Resp)
  deriving DecidableEq

/-- p2p/peer_status.go:36-55: the channels have capacity `len(peerNodes)`. -/
def newGroup (peerNodes : List P) (me : P) (leader : String) (threshold : Int) : Group P :=
  { ps := NewPeerStatus peerNodes me leader threshold
    leaderResponse := none
    notify := ⟨peerNodes.length, 0, 0⟩
    newFound := ⟨peerNodes.length, 0, 0⟩ }

/-- The effect of a handled message on its group: p2p/party_coordinator.go:136-143 (HandleStream), 102-109 (processReqMsg),
78-88 (processRespMsg; the reply on the stream is not modelled). -/
def Group.handle (cd : PeerCodec P) (g : Group P) : Body P → Group P
  | .leaderless p =>
    let (ps, r) := updatePeer g.ps p
    match r with
    | .ok true => { g with ps, newFound := g.newFound.send }
    | _ => { g with ps }
  | .request p =>
    let (ps, r) := updatePeer g.ps p
    match r with
    | .ok true => { g with ps, notify := g.notify.send }
    | _ => { g with ps }
  | .response p r =>
    if cd.str p = g.ps.leader then { g with leaderResponse := some r, notify := g.notify.send } else g

/-- `PartyCoordinator.peersGroup`. -/
abbrev Groups (P : Type) := Map String (Group P)

/-- The handlers look the group up by the message id and ignore messages of unknown ids: p2p/party_coordinator.go:71-77,
94-100, 129-135. -/
def handle (cd : PeerCodec P) (gs : Groups P) (id : String) (b : Body P) : Groups P :=
  match Map.get gs id with
  | none => gs
  | some g => Map.set gs id (g.handle cd b)

/-- p2p/party_coordinator.go:209-219 `getPeerIDs`. -/
def getPeerIDs (cd : PeerCodec P) : List String → Res (List P)
  | [] => .ok []
  | item :: rest =>
    match cd.decode item with
    | none => .err "fail to decode peer id"
    | some pid => (getPeerIDs cd rest).bind fun r => .ok (pid :: r)

/-- p2p/party_coordinator.go:196-207 `createJoinPartyGroups`. -/
def createJoinPartyGroups (cd : PeerCodec P) (me : P) (gs : Groups P) (id leader : String) (peers : List String)
    (threshold : Int) : Res (Groups P) :=
  (getPeerIDs cd peers).bind fun pIDs => .ok (Map.set gs id (newGroup pIDs me leader threshold))

/-- p2p/party_coordinator.go:190-194 `removePeerGroup`. -/
def removePeerGroup (gs : Groups P) (id : String) : Groups P := Map.del gs id

/-- The errors of a join call. -/
inductive JoinErr where
  | timeout          -- ErrJoinPartyTimeout
  | leaderNotReady   -- ErrLeaderNotReady
  | signReceived     -- ErrSignReceived
  | notEnough        -- errors.New("not enough peer")
  | decode           -- getPeerIDs failed
  deriving DecidableEq, Repr

/-- What a join call returns. -/
structure Result (P : Type) where
  online : List P
  err : Option JoinErr
  deriving DecidableEq

/-- Where the joining goroutine is. -/
inductive Phase where
  | waiting    -- in the select
  | ended      -- the select ended, shared state not yet read again
  | checked    -- member: line 384 and 393 passed
  | listed     -- member: the list was read (397) and decoded
  | done
  deriving DecidableEq, Repr

/-- State of one join call together with the coordinator's groups. `list` is the member's local variable `pIDs`;
`sent` is the verdict the leader sent to everybody. -/
structure State (P : Type) where
  groups : Groups P
  phase : Phase
  sigNotify : String
  list : List P
  result : Option (Result P)
  sent : Option Resp

/-- The scheduler's choice of the order in which a `range` visits the peer map. -/
structure Shuffle (P : Type) where
  f : List (P × Bool) → List (P × Bool)
  perm : ∀ l, (f l).Perm l

/-- Events of a join call. `incoming`: a stream handler processes a message; `other`: another join call creates or removes
the group of its own message id; `wake`: the select takes the notify case; `step`: the goroutine goes on to its next read
of shared state. -/
inductive Event (P : Type) where
  | incoming (id : String) (b : Body P)
  | other (id : String) (g : Option (Group P))
  | wake (σ : Shuffle P)
  | timeout
  | sig (s : String)
  | step (σ : Shuffle P)

/-- the own group -/
def own (st : State P) (id : String) : Option (Group P) := Map.get st.groups id

/-- Take an element from the notify channel of the own group. -/
def recvNotify (gs : Groups P) (id : String) : Option (Groups P) :=
  match Map.get gs id with
  | none => none
  | some g =>
    match g.notify.recv with
    | none => none
    | some c => some (Map.set gs id { g with notify := c })

/-- Another join call, of another message id, creates or removes its group. -/
def otherJoin (gs : Groups P) (id id' : String) (g : Option (Group P)) : Groups P :=
  if id' = id then gs
  else match g with
    | none => Map.del gs id'
    | some g => Map.set gs id' g

/-- The entries of the own peer map, in the order chosen by the scheduler. -/
def visit (gs : Groups P) (id : String) (σ : Shuffle P) : List (P × Bool) :=
  match Map.get gs id with
  | none => []
  | some g => σ.f g.ps.peersResponse

/-- State after the group was created. -/
def start (gs : Groups P) : State P := ⟨gs, .waiting, "", [], none, none⟩

/-! ## Leader -/

/-- p2p/party_coordinator.go:451-477: what the leader does after the wait: its result and the verdict sent to everybody. -/
def leaderFinish (cd : PeerCodec P) (me : P) (threshold : Int) (sigNotify : String) (order : List (P × Bool)) :
    Result P × Option Resp :=
  if sigNotify = "signature received" then (⟨[], some .signReceived⟩, none)
  else
    let onlinePeers := (getPeersStatus order).1 ++ [me]
    let tssNodes := onlinePeers.map cd.str
    if (onlinePeers.length : Int) < threshold + 1 then (⟨onlinePeers, some .timeout⟩, some ⟨.timeout, tssNodes⟩)
    else (⟨onlinePeers, none⟩, some ⟨.success, tssNodes⟩)

/-- One event of `joinPartyLeader`, p2p/party_coordinator.go:430-478, after the group was created. An event which is not
possible leaves the state as it is. -/
def leaderStep (cd : PeerCodec P) (me : P) (threshold : Int) (id : String) (st : State P) : Event P → State P
  | .incoming id' b => { st with groups := handle cd st.groups id' b }
  | .other id' g => { st with groups := otherJoin st.groups id id' g }
  | .wake _ =>
    if st.phase = .waiting then
      match recvNotify st.groups id with
      | none => st
      | some gs => { st with groups := gs, phase := .ended }
    else st
  | .timeout => if st.phase = .waiting then { st with phase := .ended } else st
  | .sig s => if st.phase = .waiting then { st with sigNotify := s } else st
  | .step σ =>
    if st.phase = .ended then
      let (r, sent) := leaderFinish cd me threshold st.sigNotify (visit st.groups id σ)
      { st with phase := .done, result := some r, sent := sent }
    else st

/-! ## Member -/

/-- One event of `joinPartyMember`, p2p/party_coordinator.go:359-413, after the group was created. The leader response is
read three times (384, 397, 409) and may change in between; it never becomes nil again. -/
def memberStep (cd : PeerCodec P) (threshold : Int) (id : String) (st : State P) : Event P → State P
  | .incoming id' b => { st with groups := handle cd st.groups id' b }
  | .other id' g => { st with groups := otherJoin st.groups id id' g }
  | .wake _ =>
    if st.phase = .waiting then
      match recvNotify st.groups id with
      | none => st
      | some gs => { st with groups := gs, phase := .ended }
    else st
  | .timeout => if st.phase = .waiting then { st with phase := .ended } else st
  | .sig s => if st.phase = .waiting then { st with sigNotify := s, phase := .ended } else st
  | .step _ =>
    match (own st id).bind Group.leaderResponse with
    | none => if st.phase = .ended then { st with phase := .done, result := some ⟨[], some .leaderNotReady⟩ } else st
    | some r =>
      match st.phase with
      | .ended =>
        if st.sigNotify = "signature received" then { st with phase := .done, result := some ⟨[], some .signReceived⟩ }
        else { st with phase := .checked }
      | .checked =>
        match getPeerIDs cd r.peerIDs with
        | .ok pIDs =>
          if (pIDs.length : Int) < threshold then { st with phase := .done, result := some ⟨pIDs, some .notEnough⟩ }
          else { st with phase := .listed, list := pIDs }
        | _ => { st with phase := .done, result := some ⟨[], some .decode⟩ }
      | .listed =>
        if r.typ = .success then { st with phase := .done, result := some ⟨st.list, none⟩ }
        else { st with phase := .done, result := some ⟨st.list, some .timeout⟩ }
      | _ => st

/-! ## Leaderless -/

/-- One event of `JoinPartyWithRetry`, p2p/party_coordinator.go:527-556, after the group was created with leader "NONE". On
return the group is removed (510). `npeers` is `len(peers)`. -/
def retryStep (cd : PeerCodec P) (me : P) (npeers : Nat) (id : String) (st : State P) : Event P → State P
  | .incoming id' b => { st with groups := handle cd st.groups id' b }
  | .other id' g => { st with groups := otherJoin st.groups id id' g }
  | .wake σ =>
    if st.phase = .waiting then
      match recvNotify st.groups id with
      | none => st
      | some gs => { st with groups := gs, phase := if getCoordinationStatus (visit gs id σ) then .ended else .waiting }
    else st
  | .timeout => if st.phase = .waiting then { st with phase := .ended } else st
  | .sig _ => st
  | .step σ =>
    if st.phase = .ended then
      let onlinePeers := (getPeersStatus (visit st.groups id σ)).1 ++ [me]
      { st with
        groups := removePeerGroup st.groups id
        phase := .done
        result := some ⟨onlinePeers, if onlinePeers.length = npeers then none else some .timeout⟩ }
    else st

end Verif.JoinParty
