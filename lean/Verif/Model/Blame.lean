import Verif.Model.Conversion
import Verif.Model.Messages
import Mathlib.Data.List.Dedup

/-!
# blame package

`K` are bech32 public keys, `P` peer ids (`peer.ID.String` is injective and is left out). Locks make every method atomic.
-/
set_option linter.dupNamespace false
namespace Verif.Blame
open Verif.Go Verif.Conversion Verif.Messages

variable {K P : Type} [DecidableEq K] [DecidableEq P]

/-! blame/types.go:10-16 the reasons -/
def HashCheckFail := "hash check failed"
def TssTimeout := "Tss timeout"
def TssSyncFail := "signers fail to sync before keygen/keysign"
def TssBrokenMsg := "tss share verification failed"
def InternalError := "fail to start the join party "

/-- blame/types.go:33-37 `Node`. A nil slice and an empty one are identified. -/
structure Node (K : Type) where
  pubkey : K
  data : Bytes
  sig : Bytes
  deriving DecidableEq, Repr

/-- blame/types.go:41-46 `Blame`. -/
structure Blame (K : Type) where
  failReason : String
  isUnicast : Bool
  nodes : List (Node K)
  deriving DecidableEq, Repr

/-- blame/blame.go:19-24 `Equal`: the evidence data is not compared. -/
def Node.equal (a b : Node K) : Bool := decide (a.pubkey = b.pubkey) && decide (a.sig = b.sig)

/-- blame/blame.go:27-33 `NewBlame`. -/
def NewBlame (reason : String) (nodes : List (Node K)) : Blame K := ⟨reason, false, nodes⟩

/-- blame/blame.go:44-50 `SetBlame`. -/
def Blame.setBlame (b : Blame K) (reason : String) (nodes : List (Node K)) (isUnicast : Bool) : Blame K :=
  ⟨reason, isUnicast, b.nodes ++ nodes⟩

/-- blame/blame.go:52-56 `AlreadyBlame`. -/
def Blame.alreadyBlame (b : Blame K) : Bool := decide (b.nodes.length > 0)

/-- blame/blame.go:62-73 the body of the loop of `AddBlameNodes`. -/
def Blame.addOne (b : Blame K) (node : Node K) : Blame K :=
  if b.nodes.any (fun el => node.equal el) then b else { b with nodes := b.nodes ++ [node] }

/-- blame/blame.go:59-74 `AddBlameNodes`. -/
def Blame.addBlameNodes (b : Blame K) (new : List (Node K)) : Blame K := new.foldl Blame.addOne b

/-- blame/round_mgr.go:9-13 `RoundInfo` -/
structure RoundInfo where
  index : Nat
  roundMsg : String
  msgIdentifier : String
  deriving DecidableEq, Repr

/-- blame/manager.go:12-25 `Manager`; `requested` is the share manager (blame/share_mgr.go:7-10), `storedMsg` the round
manager (blame/round_mgr.go:15-18), `partyIDMap` is `partyInfo.PartyIDMap`. `partyInfo` is non-nil: keygen and keysign call
`SetPartyInfo` before they start to process messages. `lastMsg` (type and broadcast flag) is the last message the local party
produced. -/
structure Manager (K P : Type) where
  blame : Blame K
  lastUnicastPeer : Map String (List P)
  requested : Map String Bool
  storedMsg : Map String WireMessage
  partyIDMap : Map Nat Party
  partyIDtoP2PID : Map Nat P
  lastMsg : Option (String × Bool)
  acceptedShares : Map RoundInfo (List Nat)
  localPartyID : Nat

/-- blame/manager.go:27-41 `NewBlameManager`, with the maps of blame/manager.go:94-106 `SetPartyInfo` and of
`conversion.SetupIDMaps` filled in. -/
def newManager (partyIDMap : Map Nat Party) (ids : Map Nat P) (localPartyID : Nat) : Manager K P :=
  { blame := NewBlame "" [], lastUnicastPeer := [], requested := [], storedMsg := [], partyIDMap, partyIDtoP2PID := ids
    lastMsg := none, acceptedShares := [], localPartyID }

/-- blame/manager.go:94-106 `SetPartyInfo`: `order` are the ids of the local parties in visiting order of the party map; with
an empty map the nil interface is dereferenced. -/
def Manager.setPartyInfo (m : Manager K P) (order : List Nat) (partyIDMap : Map Nat Party) : Res (Manager K P) :=
  match order with
  | [] => .panic
  | i :: _ => .ok { m with partyIDMap, localPartyID := i }

/-- blame/manager.go:55-66 `UpdateAcceptShare`. -/
def Manager.updateAcceptShare (m : Manager K P) (round : RoundInfo) (id : Nat) : Manager K P :=
  match Map.get m.acceptedShares round with
  | none => { m with acceptedShares := Map.set m.acceptedShares round [id] }
  | some l => { m with acceptedShares := Map.set m.acceptedShares round (l ++ [id]) }

/-- blame/manager.go:68-80 `CheckMsgDuplication`. -/
def Manager.checkMsgDuplication (m : Manager K P) (round : RoundInfo) (id : Nat) : Bool :=
  match Map.get m.acceptedShares round with
  | none => false
  | some l => l.any (fun el => el = id)

/-- blame/manager.go:108-119 `SetLastUnicastPeer`. -/
def Manager.setLastUnicastPeer (m : Manager K P) (peer : P) (roundInfo : String) : Manager K P :=
  match Map.get m.lastUnicastPeer roundInfo with
  | none => { m with lastUnicastPeer := Map.set m.lastUnicastPeer roundInfo [peer] }
  | some l => { m with lastUnicastPeer := Map.set m.lastUnicastPeer roundInfo (l ++ [peer]) }

/-- blame/round_mgr.go:27-35 `Get`. -/
def Manager.roundGet (m : Manager K P) (key : String) : Option WireMessage := Map.get m.storedMsg key

/-- blame/round_mgr.go:37-41 `Set`. -/
def Manager.roundSet (m : Manager K P) (key : String) (msg : WireMessage) : Manager K P :=
  { m with storedMsg := Map.set m.storedMsg key msg }

/-- blame/round_mgr.go:43-53 `GetByRound`; `order` is the visiting order of the map. -/
def getByRound (roundInfo : String) : List (String × WireMessage) → Res (List Nat)
  | [] => .ok []
  | (_, el) :: rest =>
    if el.roundInfo = roundInfo then
      match el.sender with
      | none => .panic
      | some i => (getByRound roundInfo rest).bind fun l => .ok (i :: l)
    else getByRound roundInfo rest

/-- blame/share_mgr.go:19-23 `Set`. -/
def Manager.shareSet (m : Manager K P) (key : String) : Manager K P :=
  { m with requested := Map.set m.requested key true }

/-- blame/share_mgr.go:25-31 `QueryAndDelete`. -/
def Manager.queryAndDelete (m : Manager K P) (key : String) : Manager K P × Bool :=
  ({ m with requested := Map.del m.requested key }, (Map.get m.requested key).getD false)

/-- blame/policy_helper.go:6-25 `getBlamePubKeysInList`; `order` is the visiting order of the peer map. A peer listed
several times is appended several times. -/
def getBlamePubKeysInList (c : Codec K P) (partyIDMap : Map Nat Party) (order : List (Nat × P)) (peers : List P) :
    Res (List K) :=
  AccPubKeysFromPartyIDs c partyIDMap
    (order.flatMap fun (partyID, p2pID) => (peers.filter (fun el => el = p2pID)).map (fun _ => partyID))

/-- blame/policy_helper.go:27-53 `getBlamePubKeysNotInList`. An element `none` of `peers` stands for the text of the zero
peer id, which is the text of no peer. -/
def getBlamePubKeysNotInList (c : Codec K P) (partyIDMap : Map Nat Party) (localPartyID : Nat) (order : List (Nat × P))
    (peers : List (Option P)) : Res (List K) :=
  AccPubKeysFromPartyIDs c partyIDMap
    ((order.filter fun (partyID, p2pID) =>
      !(decide (localPartyID = partyID)) && !(peers.any (fun each => some p2pID = each))).map Prod.fst)

/-- blame/policy_helper.go:56-68 `GetBlamePubKeysLists` (the two `range` statements may use different orders). -/
def Manager.getBlamePubKeysLists (c : Codec K P) (m : Manager K P) (σ₁ σ₂ : Shuffle (Nat × P)) (peers : List P) :
    Res (List K × List K) :=
  (getBlamePubKeysInList c m.partyIDMap (σ₁.f m.partyIDtoP2PID) peers).bind fun inList =>
  (getBlamePubKeysNotInList c m.partyIDMap m.localPartyID (σ₂.f m.partyIDtoP2PID) (peers.map some)).bind fun notIn =>
  .ok (inList, notIn)

/-- `NewNode(pk, nil, nil)` for every key. -/
def plainNodes (ks : List K) : List (Node K) := ks.map fun k => ⟨k, [], []⟩

/-- blame/policy.go:15-45 `tssTimeoutBlame`; `σ₁` orders the round manager's map, `σ₂` the set difference. -/
def Manager.tssTimeoutBlame (c : Codec K P) (m : Manager K P) (σ₁ : Shuffle (String × WireMessage)) (σ₂ : Shuffle Nat)
    (lastMessageType : String) : Res (List K) :=
  let peersSet := ((m.partyIDMap.map (fun e => e.2.id)).dedup).filter (fun i => i ≠ m.localPartyID)
  (getByRound lastMessageType (σ₁.f m.storedMsg)).bind fun standbyNodes =>
  if standbyNodes.length = 0 then .ok []
  else AccPubKeysFromPartyIDs c m.partyIDMap (σ₂.f (peersSet.filter (fun i => !(standbyNodes.contains i))))

/-- blame/policy.go:104-115 `GetBroadcastBlame`. -/
def Manager.getBroadcastBlame (c : Codec K P) (m : Manager K P) (σ₁ : Shuffle (String × WireMessage)) (σ₂ : Shuffle Nat)
    (lastMessageType : String) : Res (List (Node K)) :=
  match m.tssTimeoutBlame c σ₁ σ₂ lastMessageType with
  | .ok ks => .ok (plainNodes ks)
  | .err _ => .err "fail to get the blamed peers"
  | .panic => .panic

/-- blame/policy.go:51-65 the loop of `NodeSyncBlame`; the nodes collected when an error occurs are returned as well. -/
def nodeSyncLoop (c : Codec K P) (onlinePeers : List P) : List K → List (Node K) → List (Node K) × Res Unit
  | [], acc => (acc, .ok ())
  | item :: rest, acc =>
    match GetPeerIDFromPubKey c item with
    | .ok peerID =>
      if onlinePeers.any (fun p => p = peerID) then nodeSyncLoop c onlinePeers rest acc
      else nodeSyncLoop c onlinePeers rest (acc ++ [⟨item, [], []⟩])
    | _ => (acc, .err "fail to get peer id from pub key")

/-- blame/policy.go:48-67 `NodeSyncBlame`. -/
def NodeSyncBlame (c : Codec K P) (keys : List K) (onlinePeers : List P) : Blame K × Res Unit :=
  let (nodes, r) := nodeSyncLoop c onlinePeers keys []
  (NewBlame TssSyncFail nodes, r)

/-- blame/policy.go:70-101 `GetUnicastBlame`; `σ₀` orders the set of peers. -/
def Manager.getUnicastBlame (c : Codec K P) (m : Manager K P) (σ₀ : Shuffle P) (σ₁ σ₂ : Shuffle (Nat × P))
    (lastMsgType : String) : Res (List (Node K)) :=
  if m.lastUnicastPeer.length = 0 then .ok []
  else match Map.get m.lastUnicastPeer lastMsgType with
  | none => .err "fail to find peers of the given msg type"
  | some peersID =>
    match m.getBlamePubKeysLists c σ₁ σ₂ (σ₀.f peersID.dedup) with
    | .ok (_, blamePeers) => .ok (plainNodes blamePeers)
    | .err _ => .err "fail to get the blamed peers"
    | .panic => .panic

/-- blame/policy.go:118-130 `TssWrongShareBlame`. -/
def Manager.tssWrongShareBlame (c : Codec K P) (m : Manager K P) (w : WireMessage) : Res K :=
  match w.sender with
  | none => .panic
  | some i =>
    match Map.get m.partyIDMap i with
    | none => .err "fail to find the share Owner"
    | some p => PartyIDtoPubKey c p

/-- blame/policy.go:141-150 the first loop of `TssMissingShareBlame`: the accepted shares by message and round. An index
outside of the slice panics. -/
def groupShares (rounds : Nat) : List (RoundInfo × List Nat) → Map String (List (List Nat)) → Res (Map String (List (List Nat)))
  | [], acc => .ok acc
  | (ri, v) :: rest, acc =>
    if ri.index < rounds then
      let cached := (Map.get acc ri.msgIdentifier).getD (List.replicate rounds [])
      groupShares rounds rest (Map.set acc ri.msgIdentifier (cached.set ri.index v))
    else .panic

/-- blame/policy.go:155-158,183: the first round whose number of accepted shares plus one is not the committee size. -/
def firstMissing (n : Nat) : Nat → List (List Nat) → Option (Nat × List Nat)
  | _, [] => none
  | index, el :: rest => if el.length + 1 = n then firstMissing n (index + 1) rest else some (index, el)

/-- blame/policy.go:160-174 is the missing round treated as unicast? -/
def missingUnicast (rounds index : Nat) : Bool :=
  (decide (rounds = TSSKEYGENROUNDS) && decide (index = 1)) || (decide (rounds = TSSKEYSIGNROUNDS) && decide (index < 5))

/-- blame/policy.go:153-196 the second loop of `TssMissingShareBlame`. `peers` is declared before the loop and keeps the
peers of the groups visited before. `σ i` orders the peer map in the i-th round of the loop. -/
def missingLoop (c : Codec K P) (m : Manager K P) (rounds : Nat) (σ : Nat → Shuffle (Nat × P)) :
    Nat → List (String × List (List Nat)) → List (Option P) → List (Node K) → Bool → Res (List (Node K) × Bool)
  | _, [], _, nodes, isUnicast => .ok (nodes, isUnicast)
  | i, (_, cachedShares) :: rest, peers, nodes, isUnicast =>
    let (peers', isUnicast') :=
      match firstMissing m.partyIDtoP2PID.length 0 cachedShares with
      | none => (peers, isUnicast)
      | some (index, el) =>
        (peers ++ (el ++ [m.localPartyID]).map (fun pid => Map.get m.partyIDtoP2PID pid),
          isUnicast || missingUnicast rounds index)
    (getBlamePubKeysNotInList c m.partyIDMap m.localPartyID ((σ i).f m.partyIDtoP2PID) peers').bind fun ks =>
    missingLoop c m rounds σ (i + 1) rest peers' (nodes ++ plainNodes ks) isUnicast'

/-- blame/policy.go:135-198 `TssMissingShareBlame`; `σ₁` and `σ₂` order the two maps that are ranged over. -/
def Manager.tssMissingShareBlame (c : Codec K P) (m : Manager K P) (rounds : Nat) (σ₁ : Shuffle (RoundInfo × List Nat))
    (σ₂ : Shuffle (String × List (List Nat))) (σ : Nat → Shuffle (Nat × P)) : Res (List (Node K) × Bool) :=
  (groupShares rounds (σ₁.f m.acceptedShares) []).bind fun groups => missingLoop c m rounds σ 0 (σ₂.f groups) [] [] false

end Verif.Blame
