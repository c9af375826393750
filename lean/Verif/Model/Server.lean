import Verif.Model.Notifier
import Verif.Model.JoinParty
import Verif.Model.Version
import Verif.Model.Leader
import Verif.Model.MsgId
import Verif.Model.Storage

/-!
# tss/tss.go: what Keygen and KeySign have in common

Keys, messages and versions of requests are texts (`MsgId.Str`). Encodings, hashes and the parser of versions are parameters.
-/
namespace Verif.Server
open Verif.Go Verif.Conversion Verif.Blame Verif.JoinParty

/-- texts -/
abbrev Str := MsgId.Str

/-- storage/localstate_mgr.go:23-28 `KeygenLocalState`; `L` is the type of tss-lib's share data -/
structure LocalState (L : Type) where
  pubKey : Str
  localData : L
  participantKeys : List Str
  localPartyKey : Str

/-- common/status.go -/
inductive Status
  | na | success | fail
  deriving DecidableEq, Repr

/-- the parts of a node outside of the modelled code, and its configuration -/
structure Env (P S H L : Type) where
  codec : Codec Str P
  peers : PeerCodec P
  /-- the local peer id -/
  me : P
  parseVer : Str → Option (Version.Ver S)
  /-- messages.NEWJOINPARTYVERSION -/
  gate : Str
  /-- sha256 and hex of common.MsgToHashString -/
  shaID : Str → String
  /-- sha256 and hex of LeaderNode -/
  shaLeader : String → H
  storage : Storage.Env (LocalState L)
  folder : Storage.Path
  /-- the decoders and the like of a session; the fields that depend on the session are replaced -/
  session : TssCommon.Env Str P
  pstr : Nat → String
  isBroadcast : OutBatch.Output → Bool

variable {P S H L : Type} [DecidableEq P] [LinearOrder S] [LinearOrder H]

/-- which join call runs: p2p/party_coordinator.go:480-493, tss/tss.go:185 -/
inductive JoinKind
  | leaderless (npeers : Nat)
  | leader (threshold : Int)
  | member (threshold : Int)

/-- the errors of `joinParty`: one that occurs before the waiting begins, or one of the join call -/
inductive JErr
  | before
  | join (e : JoinErr)
  deriving DecidableEq

/-- what tss/tss.go:169-204 `joinParty` returns; `online = none` is nil -/
structure JoinOut (P : Type) where
  online : Option (List P)
  leader : String
  err : Option JErr

/-- a running join call -/
structure JoinCall (P : Type) where
  kind : JoinKind
  leader : String
  msgID : String
  st : JoinParty.State P

/-- creating the group and starting to wait -/
def startJoin (env : Env P S H L) (gs : Groups P) (kind : JoinKind) (leader msgID : String) (nodes : List String) (threshold : Int) :
    Except (JoinOut P) (JoinCall P) :=
  match createJoinPartyGroups env.peers env.me gs msgID leader nodes threshold with
  | .ok gs' => .ok ⟨kind, leader, msgID, JoinParty.start gs'⟩
  | _ => .error ⟨none, leader, some .before⟩

/-- tss/tss.go:169-204 `joinParty` up to the waiting; p2p/party_coordinator.go:480-493 `JoinPartyWithLeader` and 496-510. (A panic of
`LeaderNode` is impossible.) -/
def joinParty (env : Env P S H L) (gs : Groups P) (msgID : String) (version : Str) (blockHeight : Int) (participants : List Str)
    (threshold : Int) : Except (JoinOut P) (JoinCall P) :=
  match Version.VersionLTCheck env.parseVer version env.gate with
  | .ok true =>
    match GetPeerIDsFromPubKeys env.codec participants with
    | .ok peerIDs => startJoin env gs (.leaderless peerIDs.length) "NONE" msgID (peerIDs.map env.peers.str) 1
    | _ => .error ⟨none, "NONE", some .before⟩
  | .ok false =>
    if participants.length = 0 then .error ⟨none, "", some .before⟩
    else match GetPeerIDsFromPubKeys env.codec participants with
    | .ok peerIDs =>
      match Leader.LeaderNode env.shaLeader msgID blockHeight (peerIDs.map env.peers.str) with
      | .ok leader =>
        if env.peers.str env.me = leader then startJoin env gs (.leader threshold) leader msgID (peerIDs.map env.peers.str) threshold
        else startJoin env gs (.member threshold) leader msgID [leader] threshold
      | _ => .error ⟨none, "", some .before⟩
    | _ => .error ⟨none, "", some .before⟩
  | _ => .error ⟨none, "", some .before⟩

/-- one event of the running join call -/
def JoinCall.step (env : Env P S H L) (c : JoinCall P) (e : JoinParty.Event P) : JoinCall P :=
  { c with st := match c.kind with
    | .leaderless n => retryStep env.peers env.me n c.msgID c.st e
    | .leader t => leaderStep env.peers env.me t c.msgID c.st e
    | .member t => memberStep env.peers t c.msgID c.st e }

/-- what the join call returned, if it has -/
def JoinCall.out (c : JoinCall P) : Option (JoinOut P) :=
  c.st.result.map fun r => ⟨some r.online, c.leader, r.err.map .join⟩

/-- tss/keygen.go:82-89, tss/keysign.go:114-120: the blame of the leader -/
def blameLeader (env : Env P S H L) (leader : String) : Blame Str :=
  match env.peers.decode leader with
  | none => NewBlame TssSyncFail []
  | some p =>
    match GetPubKeyFromPeerID env.codec p with
    | .ok k => NewBlame TssSyncFail [⟨k, [], []⟩]
    | _ => NewBlame TssSyncFail []

end Verif.Server
