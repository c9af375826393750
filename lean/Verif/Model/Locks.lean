import Verif.Model.Go

/-!
# The locks of a node and the shared state they protect

Every function of /repo that takes a lock, or that touches state shared between goroutines, as the sequence of its lock operations and accesses.
A branch is an argument of the function, so every path through the code is covered. What happens between two operations without touching shared
state (computing, logging, waiting for the network or a channel) is left out. No function waits for a channel or the network while it holds a lock,
with two exceptions: `Keygen` holds its lock during the whole call, and keysign/signature_notifier.go:89-104 sends under `notifierLock` on a channel
that has room (C48).

Not modelled: locks inside of libraries (`sync.Map`, tss-lib, libp2p), state that is complete before the goroutines that read it are started
(party maps, `P2PPeers`, party info: keygen/tss_keygen.go:89-114, keysign/tss_keysign.go:124-140).
-/
namespace Verif.Locks

/-- The locks. `s` numbers sessions, `g` join-party groups, `m` the stream managers (communication, party coordinator, signature notifier), `t` the
subscriber objects, `i` the cache items of a session. -/
inductive Lock
  | keygen                      -- tss/tss.go:36
  | subscribers                 -- p2p/communication.go:57
  | topic (t : Nat)             -- p2p/message_id_subscriber.go:7
  | streams (m : Nat)           -- p2p/stream_helper.go:29
  | groups                      -- p2p/party_coordinator.go:36
  | peerStatus (g : Nat)        -- p2p/peer_status.go:14
  | leaderResponse (g : Nat)    -- p2p/peer_status.go:18
  | notifiers                   -- keysign/signature_notifier.go:35
  | party (s : Nat)             -- common/tss.go:33
  | unconfirmed (s : Nat)       -- common/tss.go:36
  | peers (s : Nat)             -- common/tss.go:41
  | culprits (s : Nat)          -- common/tss.go:49
  | item (s i : Nat)            -- common/local_cache_item.go:13
  | blame (s : Nat)             -- blame/types.go:45
  | lastMsg (s : Nat)           -- blame/manager.go:20
  | accepted (s : Nat)          -- blame/manager.go:23
  | stored (s : Nat)            -- blame/round_mgr.go:17
  | requested (s : Nat)         -- blame/share_mgr.go:9
  | addressBook                 -- storage/localstate_mgr.go:42
  deriving DecidableEq, Repr

/-- The shared state. `acceptedSpare`, `streamSpare` are the array cells behind the end of the slices in `accepted`, `unused`, into which `append`
writes. -/
inductive Var
  | subscribers                 -- Communication.subscribers
  | topicSubs (t : Nat)         -- MessageIDSubscriber.subscribers
  | unused (m : Nat)            -- StreamMgr.unusedStreams
  | streamSpare (m : Nat)
  | peersGroup                  -- PartyCoordinator.peersGroup
  | response (g : Nat)          -- PeerStatus.peersResponse, reqCount
  | leaderResponse (g : Nat)    -- PeerStatus.leaderResponse
  | leader (g : Nat)            -- PeerStatus.leader
  | notifiers                   -- SignatureNotifier.notifiers
  | partyInfo (s : Nat)         -- TssCommon.partyInfo
  | unconfirmed (s : Nat)       -- TssCommon.unConfirmedMessages
  | p2pPeers (s : Nat)          -- TssCommon.P2PPeers
  | culprits (s : Nat)          -- TssCommon.culprits
  | finished (s : Nat)          -- TssCommon.finishedPeers
  | confirmed (s i : Nat)       -- LocalCacheItem.ConfirmedList
  | content (s i : Nat)         -- LocalCacheItem.Msg, Hash
  | blame (s : Nat)             -- the fields of Blame
  | lastMsg (s : Nat)           -- Manager.lastMsg
  | lastUnicast (s : Nat)       -- Manager.lastUnicastPeer
  | accepted (s : Nat)          -- Manager.acceptedShares
  | acceptedSpare (s : Nat)
  | stored (s : Nat)            -- RoundMgr.storedMsg
  | requested (s : Nat)         -- ShareMgr.requested
  | addressBook                 -- the file address_book.seed
  deriving DecidableEq, Repr

/-- `RLock` or `Lock` (a `sync.Mutex` only knows the latter) -/
inductive Mode
  | shared
  | excl
  deriving DecidableEq, Repr

/-- an operation of a goroutine; `acc v true` writes `v`, `acc v false` reads it -/
inductive Op
  | acq (l : Lock) (m : Mode)
  | rel (l : Lock) (m : Mode)
  | acc (v : Var) (write : Bool)
  deriving DecidableEq, Repr

/-- what a goroutine does -/
abbrev Prog := List Op

open Op

/-- `Lock` … `Unlock` around accesses -/
def locked (l : Lock) (p : Prog) : Prog := acq l .excl :: p ++ [rel l .excl]

/-- `RLock` … `RUnlock` around accesses -/
def rlocked (l : Lock) (p : Prog) : Prog := acq l .shared :: p ++ [rel l .shared]

/-! ## p2p -/

/-- p2p/stream_helper.go:60-74 `AddStream` -/
def AddStream (m : Nat) (isNil : Bool) : Prog :=
  if isNil then [] else locked (.streams m) [acc (.unused m) false, acc (.streamSpare m) true, acc (.unused m) true]

/-- p2p/stream_helper.go:41-58 `ReleaseStream`: the `append` of line 46 is outside of the lock -/
def ReleaseStream (m : Nat) (found : Bool) : Prog :=
  rlocked (.streams m) [acc (.unused m) false, acc (.unused m) false] ++ [acc (.streamSpare m) true] ++
  (if found then acc (.streamSpare m) false :: locked (.streams m) [acc (.unused m) true] else [])

/-- p2p/message_id_subscriber.go:20-24 `Subscribe` -/
def Subscribe (t : Nat) : Prog := locked (.topic t) [acc (.topicSubs t) true]

/-- p2p/message_id_subscriber.go:27-31 `UnSubscribe` -/
def UnSubscribe (t : Nat) : Prog := locked (.topic t) [acc (.topicSubs t) true]

/-- p2p/message_id_subscriber.go:34-42 `GetSubscriber` -/
def GetSubscriber (t : Nat) : Prog := locked (.topic t) [acc (.topicSubs t) false]

/-- p2p/message_id_subscriber.go:45-49 `IsEmpty` -/
def IsEmpty (t : Nat) : Prog := locked (.topic t) [acc (.topicSubs t) false]

/-- p2p/communication.go:379-389 `SetSubscribe` -/
def SetSubscribe (t : Nat) (found : Bool) : Prog :=
  locked .subscribers (acc .subscribers false :: (if found then [] else [acc .subscribers true]) ++ Subscribe t)

/-- p2p/communication.go:391-400 `getSubscriber` -/
def getSubscriber (t : Nat) (found : Bool) : Prog :=
  locked .subscribers (acc .subscribers false :: (if found then GetSubscriber t else []))

/-- p2p/communication.go:402-418 `CancelSubscribe` -/
def CancelSubscribe (t : Nat) (found empty : Bool) : Prog :=
  locked .subscribers (acc .subscribers false ::
    (if found then UnSubscribe t ++ IsEmpty t ++ (if empty then [acc .subscribers true] else []) else []))

/-- p2p/communication.go:152-193 `handleStream`, `readFromStream` -/
def readFromStream (t : Nat) (readable found : Bool) : Prog :=
  if readable then AddStream 0 false ++ getSubscriber t found else AddStream 0 false

/-- p2p/peer_status.go:24-28 -/
def getLeaderResponse (g : Nat) : Prog := rlocked (.leaderResponse g) [acc (.leaderResponse g) false]

/-- p2p/peer_status.go:30-34 -/
def setLeaderResponse (g : Nat) : Prog := locked (.leaderResponse g) [acc (.leaderResponse g) true]

/-- p2p/peer_status.go:57-76 `getCoordinationStatus`, `getPeersStatus` -/
def getPeersStatus (g : Nat) : Prog := rlocked (.peerStatus g) [acc (.response g) false]

/-- p2p/peer_status.go:78-107 `updatePeer` -/
def updatePeer (g : Nat) (known change : Bool) : Prog :=
  locked (.peerStatus g) (acc (.response g) false ::
    (if known then acc (.leader g) false :: (if change then [acc (.response g) true] else []) else []))

/-- the look-up of a group, p2p/party_coordinator.go:71-73, 94-96, 129-131 -/
def findGroup : Prog := locked .groups [acc .peersGroup false]

/-- p2p/party_coordinator.go:67-89 `processRespMsg` -/
def processRespMsg (g : Nat) (found fromLeader : Bool) : Prog :=
  AddStream 1 false ++ findGroup ++
  (if found then acc (.leader g) false :: (if fromLeader then setLeaderResponse g else [acc (.leader g) false]) else [])

/-- p2p/party_coordinator.go:92-110 `processReqMsg`, 112-144 `HandleStream` -/
def processReqMsg (g : Nat) (readable found known change : Bool) : Prog :=
  AddStream 1 false ++ (if readable then findGroup ++ (if found then updatePeer g known change else []) else [])

/-- p2p/party_coordinator.go:190-194 -/
def removePeerGroup : Prog := locked .groups [acc .peersGroup true]

/-- p2p/party_coordinator.go:196-207 -/
def createJoinPartyGroups : Prog := locked .groups [acc .peersGroup true]

/-- p2p/party_coordinator.go:326-414 `joinPartyMember`: line 336 writes the leader without lock; `n` of the up to three looks at the answer -/
def joinPartyMember (g : Nat) (decoded : Bool) (n : Nat) : Prog :=
  createJoinPartyGroups ++ (if decoded then acc (.leader g) true :: (List.replicate n (getLeaderResponse g)).flatten else [])

/-- p2p/party_coordinator.go:416-478 `joinPartyLeader`; `early`: it ends before line 454 -/
def joinPartyLeader (g : Nat) (early : Bool) : Prog :=
  createJoinPartyGroups ++ locked (.peerStatus g) [acc (.leader g) true] ++ (if early then [] else getPeersStatus g)

/-- p2p/party_coordinator.go:495-556 `JoinPartyWithRetry`, woken `n` times -/
def JoinPartyWithRetry (g n : Nat) : Prog :=
  createJoinPartyGroups ++ getPeersStatus g ++ (List.replicate n (getPeersStatus g)).flatten ++ getPeersStatus g ++ removePeerGroup

/-! ## keysign/signature_notifier.go -/

/-- keysign/signature_notifier.go:56-104 `handleStream` -/
def sigHandleStream (valid found finished : Bool) : Prog :=
  AddStream 2 false ++
  (if valid then locked .notifiers (acc .notifiers false :: (if found ∧ finished then [acc .notifiers true] else [])) else [])

/-- keysign/signature_notifier.go:186-190 -/
def addToNotifiers : Prog := locked .notifiers [acc .notifiers true]

/-- keysign/signature_notifier.go:192-196 -/
def removeNotifier : Prog := locked .notifiers [acc .notifiers true]

/-- keysign/signature_notifier.go:199-215 `WaitForSignature` -/
def WaitForSignature : Prog := addToNotifiers ++ removeNotifier

/-! ## blame -/

/-- blame/manager.go:55-66 -/
def UpdateAcceptShare (s : Nat) : Prog :=
  locked (.accepted s) [acc (.accepted s) false, acc (.acceptedSpare s) true, acc (.accepted s) true]

/-- blame/manager.go:68-80 -/
def CheckMsgDuplication (s : Nat) : Prog := locked (.accepted s) [acc (.accepted s) false, acc (.acceptedSpare s) false]

/-- blame/manager.go:82-86 -/
def SetLastMsg (s : Nat) : Prog := locked (.lastMsg s) [acc (.lastMsg s) true]

/-- blame/manager.go:88-92 -/
def GetLastMsg (s : Nat) : Prog := rlocked (.lastMsg s) [acc (.lastMsg s) false]

/-- blame/manager.go:108-119 -/
def SetLastUnicastPeer (s : Nat) : Prog := locked (.lastMsg s) [acc (.lastUnicast s) false, acc (.lastUnicast s) true]

/-- blame/round_mgr.go:27-35 and 43-53 -/
def roundGet (s : Nat) : Prog := locked (.stored s) [acc (.stored s) false]

/-- blame/round_mgr.go:37-41 -/
def roundSet (s : Nat) : Prog := locked (.stored s) [acc (.stored s) true]

/-- blame/share_mgr.go:19-23 -/
def shareSet (s : Nat) : Prog := locked (.requested s) [acc (.requested s) true]

/-- blame/share_mgr.go:25-31 -/
def QueryAndDelete (s : Nat) : Prog := locked (.requested s) [acc (.requested s) false, acc (.requested s) true]

/-- blame/blame.go:44-50, 59-74 `SetBlame`, `AddBlameNodes` -/
def SetBlame (s : Nat) : Prog := locked (.blame s) [acc (.blame s) false, acc (.blame s) true]

/-- blame/blame.go:52-56 (not called anywhere) -/
def AlreadyBlame (s : Nat) : Prog := rlocked (.blame s) [acc (.blame s) false]

/-- blame/policy.go:70-101 `GetUnicastBlame` -/
def GetUnicastBlame (s : Nat) (none : Bool) : Prog :=
  rlocked (.lastMsg s) (acc (.lastUnicast s) false :: (if none then [] else [acc (.lastUnicast s) false]))

/-- blame/policy.go:104-115 `GetBroadcastBlame` -/
def GetBroadcastBlame (s : Nat) : Prog := roundGet s

/-- blame/policy.go:135-198 `TssMissingShareBlame`: line 178 appends outside of the lock -/
def TssMissingShareBlame (s : Nat) (missing : Bool) : Prog :=
  locked (.accepted s) [acc (.accepted s) false] ++ (if missing then [acc (.acceptedSpare s) true] else [])

/-! ## common -/

/-- common/tss.go:170-174 -/
def getPartyInfo (s : Nat) : Prog := locked (.party s) [acc (.partyInfo s) false]

/-- common/tss.go:184-222 `processInvalidMsgBlame` for `n` culprits -/
def processInvalidMsgBlame (s n : Nat) : Prog :=
  locked (.culprits s) [acc (.culprits s) false, acc (.culprits s) true] ++ (List.replicate n (roundGet s)).flatten ++ SetBlame s

/-- common/tss.go:114-141 `doTssJob` for one share; `culprits` of the error, if there is one -/
def doTssJob (s : Nat) (culprits : Option Nat) : Prog :=
  match culprits with
  | none => UpdateAcceptShare s
  | some n => processInvalidMsgBlame s n

/-- common/tss.go:276-307, a share in the loop of `updateLocal`; `dup`: it was accepted before -/
def oneShare (s : Nat) (dup : Bool) : Prog :=
  CheckMsgDuplication s ++ (if dup then [] else rlocked (.culprits s) [acc (.culprits s) false, acc (.culprits s) false])

/-- common/tss.go:225-312 `updateLocal`, with the shares it comes to -/
def updateLocal (s : Nat) (unicast : Bool) (shares : List Bool) : Prog :=
  getPartyInfo s ++ (if unicast then SetLastUnicastPeer s else []) ++ shares.flatMap (oneShare s)

/-- common/tss.go:811-819 -/
def TryGetLocalCacheItem (s : Nat) : Prog := locked (.unconfirmed s) [acc (.unconfirmed s) false]

/-- common/tss.go:831-841 `updateLocalUnconfirmedMessages`, `removeKey` -/
def setUnconfirmed (s : Nat) : Prog := locked (.unconfirmed s) [acc (.unconfirmed s) true]

/-- common/local_cache_item.go:27-31 -/
def UpdateConfirmList (s i : Nat) : Prog := locked (.item s i) [acc (.confirmed s i) true]

/-- common/local_cache_item.go:34-38 -/
def TotalConfirmParty (s i : Nat) : Prog := locked (.item s i) [acc (.confirmed s i) false]

/-- common/tss.go:314-329 `checkDupAndUpdateVerMsg` -/
def checkDup (s i : Nat) (found : Bool) : Prog :=
  TryGetLocalCacheItem s ++ (if found then locked (.item s i) [acc (.confirmed s i) false] else [])

/-- the branches of `hashCheck`: is the owner known, are there enough confirmations, did the owner confirm? -/
structure Check where
  known : Bool
  enough : Bool
  owner : Bool

/-- common/tss.go:399-444 `hashCheck`, `getMsgHash` -/
def hashCheck (s i : Nat) (c : Check) : Prog :=
  acc (.content s i) false :: (if c.known then TotalConfirmParty s i ++
    (if c.enough then
      locked (.item s i) [acc (.content s i) false, acc (.confirmed s i) false, acc (.confirmed s i) c.owner]
     else [])
   else [])

/-- common/tss.go:600-639 `requestShareFromPeer`: it reads the confirmations without lock -/
def requestShareFromPeer (s i : Nat) (target : Bool) : Prog :=
  acc (.confirmed s i) false :: (if target then acc (.confirmed s i) false :: shareSet s else [])

/-- how `applyShare` goes on -/
inductive Apply
  | wait
  | request (target : Bool)
  | blame
  | apply (shares : List Bool) (done : Bool)

/-- common/tss.go:564-598 `applyShare` -/
def applyShare (s i : Nat) (c : Check) (a : Apply) : Prog :=
  acc (.content s i) false :: hashCheck s i c ++
  (match a with
   | .wait => []
   | .request target => acc (.content s i) true :: requestShareFromPeer s i target
   | .blame => acc (.content s i) false :: SetBlame s
   | .apply l done => acc (.content s i) false :: roundSet s ++ updateLocal s false l ++ (if done then setUnconfirmed s else []))

/-- common/tss.go:641-671 `processVerMsg`; it asks for the content or applies the share -/
def processVerMsg (s i : Nat) (found : Bool) (p : Bool ⊕ (Check × Apply)) : Prog :=
  getPartyInfo s ++ TryGetLocalCacheItem s ++ (if found then [] else setUnconfirmed s) ++ UpdateConfirmList s i ++
  [acc (.confirmed s i) false, acc (.content s i) false] ++
  (match p with
   | .inl target => requestShareFromPeer s i target
   | .inr (c, a) => applyShare s i c a)

/-- common/tss.go:704-731 `receiverBroadcastHashToPeers` -/
def receiverBroadcastHashToPeers (s : Nat) : Prog := rlocked (.peers s) [acc (.p2pPeers s) false]

/-- the branches of `processTSSMsg` -/
inductive Tss
  | invalid
  | unicast (shares : List Bool)
  | broadcast (forward found content : Bool) (c : Check) (a : Apply)

/-- common/tss.go:734-798 `processTSSMsg` -/
def processTSSMsg (s i : Nat) (b : Tss) : Prog :=
  getPartyInfo s ++
  (match b with
   | .invalid => []
   | .unicast l => updateLocal s true l
   | .broadcast forward found content c a =>
     (if forward then [] else receiverBroadcastHashToPeers s) ++ getPartyInfo s ++ TryGetLocalCacheItem s ++
     (if found then acc (.content s i) false :: (if content then [] else [acc (.content s i) true]) else setUnconfirmed s) ++
     UpdateConfirmList s i ++ applyShare s i c a)

/-- common/tss.go:355-373, a report that a peer is done -/
def taskDone (s : Nat) (known : Bool) : Prog :=
  acc (.finished s) false :: (if known then [] else [acc (.finished s) true, acc (.finished s) false])

/-- common/tss.go:374-393 with common/tss_helper.go:242-272: a request for a share, or the check of an answer -/
def control (s : Nat) (request : Bool) : Prog := if request then roundGet s else QueryAndDelete s

/-- common/tss.go:446-499 `sendBulkMsg`, common/tss_helper.go:221-240 `NotifyTaskDone` -/
def sendBulkMsg (s : Nat) (broadcast : Bool) : Prog := if broadcast then rlocked (.peers s) [acc (.p2pPeers s) false] else []

/-! ## keygen, keysign, storage, tss -/

/-- keygen/tss_keygen.go:162-207, keysign/tss_keysign.go:195-248, the timeout: the fields of the blame are used without its lock in lines 166, 195, 202
and 199, 235, 243 -/
def timeout (s : Nat) (early keysign none uni nobody missing set : Bool) : Prog :=
  GetLastMsg s ++ [acc (.blame s) false] ++
  (if early then [] else
    (if keysign then rlocked (.peers s) [acc (.p2pPeers s) false] ++ GetUnicastBlame s none
     else GetUnicastBlame s none ++ rlocked (.peers s) [acc (.p2pPeers s) false]) ++
    (if uni then SetBlame s else []) ++ GetBroadcastBlame s ++ SetBlame s ++ [acc (.blame s) false] ++
    (if nobody then TssMissingShareBlame s missing ++ (if set then SetBlame s ++ [acc (.blame s) true] else []) else []))

/-- tss/keygen.go:117, 129, tss/keysign.go:160: the blame is copied into the answer, without its lock -/
def copyBlame (s : Nat) : Prog := [acc (.blame s) false]

/-- storage/localstate_mgr.go:114-137 -/
def SaveAddressBook : Prog := locked .addressBook [acc .addressBook true]

/-- storage/localstate_mgr.go:139-170 -/
def RetrieveP2PAddresses : Prog := rlocked .addressBook [acc .addressBook false]

/-! ## calls and goroutines -/

/-- The functions a goroutine may call. -/
inductive Call
  | addStream (m : Nat) (isNil : Bool)
  | releaseStream (m : Nat) (found : Bool)
  | setSubscribe (t : Nat) (found : Bool)
  | cancelSubscribe (t : Nat) (found empty : Bool)
  | readFromStream (t : Nat) (readable found : Bool)
  | processRespMsg (g : Nat) (found fromLeader : Bool)
  | processReqMsg (g : Nat) (readable found known change : Bool)
  | joinPartyMember (g : Nat) (decoded : Bool) (n : Nat)
  | joinPartyLeader (g : Nat) (early : Bool)
  | joinPartyWithRetry (g n : Nat)
  | sigHandleStream (valid found finished : Bool)
  | waitForSignature
  | setLastMsg (s : Nat)
  | doTssJob (s : Nat) (culprits : Option Nat)
  | processVerMsg (s i : Nat) (dup found : Bool) (p : Bool ⊕ (Check × Apply))
  | processTSSMsg (s i : Nat) (b : Tss)
  | taskDone (s : Nat) (known : Bool)
  | control (s : Nat) (request : Bool)
  | sendBulkMsg (s : Nat) (broadcast : Bool)
  | timeout (s : Nat) (early keysign none uni nobody missing set : Bool)
  | alreadyBlame (s : Nat)
  | copyBlame (s : Nat)
  | saveAddressBook
  | retrieveP2PAddresses

/-- what a call does -/
def Call.body : Call → Prog
  | .addStream m n => AddStream m n
  | .releaseStream m f => ReleaseStream m f
  | .setSubscribe t f => SetSubscribe t f
  | .cancelSubscribe t f e => CancelSubscribe t f e
  | .readFromStream t r f => Locks.readFromStream t r f
  | .processRespMsg g f l => Locks.processRespMsg g f l
  | .processReqMsg g r f k c => Locks.processReqMsg g r f k c
  | .joinPartyMember g d n => Locks.joinPartyMember g d n
  | .joinPartyLeader g s => Locks.joinPartyLeader g s
  | .joinPartyWithRetry g n => JoinPartyWithRetry g n
  | .sigHandleStream v f d => Locks.sigHandleStream v f d
  | .waitForSignature => WaitForSignature
  | .setLastMsg s => SetLastMsg s
  | .doTssJob s c => Locks.doTssJob s c
  | .processVerMsg s i dup f p => checkDup s i f ++ (if dup then [] else Locks.processVerMsg s i f p)
  | .processTSSMsg s i b => Locks.processTSSMsg s i b
  | .taskDone s k => Locks.taskDone s k
  | .control s r => Locks.control s r
  | .sendBulkMsg s b => Locks.sendBulkMsg s b
  | .timeout s e k n u nb mi se => Locks.timeout s e k n u nb mi se
  | .alreadyBlame s => AlreadyBlame s
  | .copyBlame s => Locks.copyBlame s
  | .saveAddressBook => SaveAddressBook
  | .retrieveP2PAddresses => RetrieveP2PAddresses

/-- common/tss.go:843-868 `ProcessInboundMessages`: the calls that only this goroutine of a session makes -/
def Call.session : Call → Option Nat
  | .processVerMsg s _ _ _ _ => some s
  | .processTSSMsg s _ _ => some s
  | .taskDone s _ => some s
  | .control s _ => some s
  | _ => none

/-- kinds of goroutines -/
inductive Role
  | inbound (s : Nat)   -- `ProcessInboundMessages` of a session
  | keygen              -- a call of `Keygen`
  | other               -- a call of `KeySign`, a handler of a stream, a worker, ...
  deriving DecidableEq

/-- The program of a goroutine: any sequence of calls, where the calls of `ProcessInboundMessages` are left to it; tss/keygen.go:13-15: `Keygen` holds
its lock all the time. -/
def Runs : Role → Prog → Prop
  | .inbound s, p => ∃ cs : List Call, (∀ c ∈ cs, c.session = none ∨ c.session = some s) ∧ p = cs.flatMap Call.body
  | .keygen, p => ∃ cs : List Call, (∀ c ∈ cs, c.session = none) ∧ p = locked .keygen (cs.flatMap Call.body)
  | .other, p => ∃ cs : List Call, (∀ c ∈ cs, c.session = none) ∧ p = cs.flatMap Call.body

/-! ## execution -/

/-- a goroutine: its kind, the locks it holds, what it has still to do -/
structure Gor where
  role : Role
  held : List (Lock × Mode)
  prog : Prog

/-- the goroutines of a node -/
abbrev St (n : Nat) := Fin n → Gor

/-- may goroutine `i` do its next operation? `sync.RWMutex`: a writer excludes everybody, readers exclude writers -/
def may {n : Nat} (s : St n) (i : Fin n) : Prop :=
  match (s i).prog with
  | [] => False
  | acq l .excl :: _ => ∀ j m, (l, m) ∉ (s j).held
  | acq l .shared :: _ => ∀ j, (l, .excl) ∉ (s j).held
  | rel _ _ :: _ => True
  | acc _ _ :: _ => True

/-- does goroutine `j` wait for the lock as a writer? -/
def waits {n : Nat} (s : St n) (j : Fin n) (l : Lock) : Prop := ∃ p, (s j).prog = acq l .excl :: p

/-- Will it be let through? As `may`, but a waiting writer keeps new readers out. (Whether it does depends on which came first, so a run may do more
than this.) -/
def sure {n : Nat} (s : St n) (i : Fin n) : Prop :=
  may s i ∧ ∀ l p, (s i).prog = acq l .shared :: p → ∀ j, ¬ waits s j l

/-- a goroutine after its next operation -/
def Gor.next (g : Gor) : Gor :=
  match g.prog with
  | [] => g
  | acq l m :: p => { g with held := (l, m) :: g.held, prog := p }
  | rel l m :: p => { g with held := g.held.erase (l, m), prog := p }
  | acc _ _ :: p => { g with prog := p }

/-- goroutine `i` moves -/
def move {n : Nat} (s : St n) (i : Fin n) : St n := Function.update s i (s i).next

/-- `run s h s'`: the goroutines in `h` move one after the other, each when it may -/
inductive Run {n : Nat} : St n → List (Fin n) → St n → Prop
  | nil (s) : Run s [] s
  | cons (s i h s') : may s i → Run (move s i) h s' → Run s (i :: h) s'

/-- a node whose goroutines are about to start; `ProcessInboundMessages` is started once for a session (keygen/tss_keygen.go:126,
keysign/tss_keysign.go:151) -/
structure Start {n : Nat} (s : St n) : Prop where
  free : ∀ i, (s i).held = []
  runs : ∀ i, Runs (s i).role (s i).prog
  one : ∀ i j k, (s i).role = .inbound k → (s j).role = .inbound k → i = j

end Verif.Locks
