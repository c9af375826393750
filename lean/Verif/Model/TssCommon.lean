import Verif.Model.Blame
import Verif.Model.Threshold

/-!
# common package: processing of inbound messages (`TssCommon`)

`ProcessInboundMessages` is one goroutine, so messages are processed one after the other. The only concurrency inside is that of
the workers started by `updateLocal`; a worker's handling of a share is modelled by two atomic steps (hand the share to the local
party; record the outcome). A schedule says which worker steps happen between the steps of the main goroutine; an early return of
`updateLocal` leaves its workers running, so their steps may also happen later.

The JSON decoders, sha256, signature verification, the parser of tss-lib wire messages and the local tss-lib parties are
parameters (`Env`). Peer ids in text form are identified with peer ids. `broadcastChannel` is set and never full: what is sent is
recorded in `sent`. Logging is dropped. `partyInfo` is non-nil: keygen/tss_keygen.go:110-113 and keysign/tss_keysign.go:134-139
set it before they start `ProcessInboundMessages`; it and `PartyIDtoP2PID` have the same content as the maps of the blame manager
(keygen/tss_keygen.go:95-97, keysign/tss_keysign.go:126-127), which are used here.
-/
namespace Verif.TssCommon
open Verif.Go Verif.Conversion Verif.Messages Verif.Blame Verif.Threshold

/-- The content types of tss-lib messages distinguished by common/tss_helper.go:143-218, in the order of that switch;
`other` is any further type. -/
inductive Content
  | KGRound1Message | KGRound2Message1 | KGRound2Message2 | KGRound3Message
  | SignRound1Message1 | SignRound1Message2 | SignRound2Message | SignRound3Message | SignRound4Message
  | SignRound5Message | SignRound6Message | SignRound7Message
  | other
  deriving DecidableEq, Repr

/-- common/tss_helper.go:143-218: round number and name of a content type (`MsgIdentifier` is left empty). -/
def contentRound : Content → Option RoundInfo
  | .KGRound1Message => some ⟨0, KEYGEN1, ""⟩
  | .KGRound2Message1 => some ⟨1, KEYGEN2aUnicast, ""⟩
  | .KGRound2Message2 => some ⟨2, KEYGEN2b, ""⟩
  | .KGRound3Message => some ⟨3, KEYGEN3, ""⟩
  | .SignRound1Message1 => some ⟨0, KEYSIGN1aUnicast, ""⟩
  | .SignRound1Message2 => some ⟨1, KEYSIGN1b, ""⟩
  | .SignRound2Message => some ⟨2, KEYSIGN2Unicast, ""⟩
  | .SignRound3Message => some ⟨3, KEYSIGN3, ""⟩
  | .SignRound4Message => some ⟨4, KEYSIGN4, ""⟩
  | .SignRound5Message => some ⟨5, KEYSIGN5, ""⟩
  | .SignRound6Message => some ⟨6, KEYSIGN6, ""⟩
  | .SignRound7Message => some ⟨7, KEYSIGN7, ""⟩
  | .other => none

/-- common/tss_helper.go:138-219 `GetMsgRound`; `parse` is tss-lib's `ParseWireMessage`, whose failure and content type depend
on the bytes only. -/
def GetMsgRound (parse : Bytes → Option Content) (msg : Bytes) : Option RoundInfo := (parse msg).bind contentRound

/-- `strings.Contains` -/
def strContains (s sub : List Char) : Bool := s.tails.any (fun t => sub.isPrefixOf t)

/-- common/tss_helper.go:121-136 `checkUnicast`. -/
def checkUnicast (round : RoundInfo) : Bool :=
  if strContains round.roundMsg.toList "KGR".toList then decide (round.index = 1) || decide (round.index = 2)
  else decide (round.index < 5)

/-- common/tss.go:80-84 `BulkWireMsg`. -/
structure BulkWireMsg where
  wired : Bytes
  ident : String
  routing : Option Routing
  deriving DecidableEq, Repr

/-- a share as handed to a local tss-lib party: which party, from whom, flag and bytes (common/tss.go:132) -/
structure Share where
  ident : String
  from_ : Nat
  isBroadcast : Bool
  bytes : Bytes
  deriving DecidableEq, Repr

/-- A `*btss.PartyID` reported by the local party: its id, and whether it is the very pointer stored in `PartyIDMap`
(common/tss.go:284-291 compares pointers; keysign creates fresh party ids for every message to sign,
keysign/tss_keysign.go:112-121). -/
structure Culprit where
  id : Nat
  stored : Bool
  deriving DecidableEq, Repr

/-- One call of `UpdateFromBytes`: ghost record kept for the theorems. `carrier` is the wire message that carried the share,
`ok` tells that the call returned no error. -/
structure Entry where
  share : Share
  round : RoundInfo
  carrier : WireMessage
  ok : Bool
  deriving DecidableEq, Repr

/-- common/tss.go:94-101 `tssJob` with its progress: waiting, or handed to the party with the given outcome (the culprits of an
error). `id` numbers the jobs. -/
structure Job where
  id : Nat
  share : Share
  round : RoundInfo
  carrier : WireMessage
  outcome : Option (Option (List Culprit))
  deriving DecidableEq, Repr

/-- common/local_cache_item.go:10-15 `LocalCacheItem`. -/
structure Item (P : Type) where
  msg : Option WireMessage
  hash : String
  confirmed : Map P String
  deriving DecidableEq, Repr

/-- What is sent to peers: a confirmation (key, hash) of a given type, or a control message. -/
inductive Payload
  | confirm (type : MsgType) (key hash : String)
  | control (c : Control)
  deriving DecidableEq, Repr

/-- a message put on the broadcast channel -/
structure Sent (P : Type) where
  payload : Payload
  peers : List P
  deriving DecidableEq, Repr

/-- Everything outside of the modelled code. `decWrapped` gives type and payload of a wrapped message; `verify pk data sig`;
`upd log share` is the answer of the local party to a share, given all calls made before: `none` for success, otherwise the
culprits of the error. -/
structure Env (K P : Type) where
  codec : Codec K P
  decWrapped : Bytes → Option (MsgType × Bytes)
  decWire : Bytes → Option WireMessage
  decConfirm : Bytes → Option (ConfirmMsg P)
  decTask : Bytes → Option Bool
  decControl : Bytes → Option Control
  decBulk : Bytes → Option (List BulkWireMsg)
  parse : Bytes → Option Content
  hash : Bytes → String
  verify : Bytes → Bytes → Bytes → Bool
  msgID : Bytes
  parties : List String
  upd : List Entry → Share → Option (List Culprit)
  localPeer : P
  p2pPeers : List P

/-- common/tss.go:30-53 `TssCommon`, the parts that change; `log`, `sent` are ghost records, `jobs` the jobs in the workers'
channels and hands, `crashed` tells that a panic ended the program. -/
structure St (K P : Type) where
  mgr : Manager K P
  cache : Map String (Item P)
  finished : List P
  taskDone : Bool
  culprits : List Culprit
  log : List Entry
  jobs : List Job
  nextJob : Nat
  sent : List (Sent P)
  crashed : Bool

/-- common/tss.go:55-78 `NewTssCommon` after the set-up of the party maps. -/
def newTssCommon {K P : Type} (mgr : Manager K P) : St K P :=
  { mgr, cache := [], finished := [], taskDone := false, culprits := [], log := [], jobs := [], nextJob := 0, sent := [],
    crashed := false }

variable {K P : Type} [DecidableEq K] [DecidableEq P]

/-- A schedule for the processing of one message: the visiting orders of the two frequency tables and of the confirmation map,
and the worker steps (ids of jobs) before each share of the bulk and at the end. -/
structure Sched (P : Type) where
  f1 : Shuffle (String × Nat)
  f2 : Shuffle (String × Nat)
  o : Shuffle (P × String)
  ticks : List (List Nat)

/-! ## the confirmed hashes -/

/-- common/tss_helper.go:103-106 the frequency table. -/
def freqTable (l : List String) : Map String Nat :=
  l.foldl (fun m n => Map.set m n ((Map.get m n).getD 0 + 1)) []

/-- common/tss_helper.go:107-114 the most frequent value. -/
def highest (l : List (String × Nat)) : String × Int :=
  l.foldl (fun best e => if (e.2 : Int) > best.2 then (e.1, (e.2 : Int)) else best) ("", -1)

/-- common/tss_helper.go:99-116 `getHighestFreq`; `σ` orders the frequency table. -/
def getHighestFreq (σ : Shuffle (String × Nat)) (confirmed : Map P String) : Res (String × Int) :=
  if confirmed.length = 0 then .err "empty input"
  else .ok (highest (σ.f (freqTable (confirmed.map Prod.snd))))

/-- The error values of blame/types.go:18-30 returned by the hash check; `noOwner` is common/tss.go:417. -/
inductive HashErr
  | noOwner | notEnoughPeer | fromOwner | hashCheck | inconsistency | notMajority
  deriving DecidableEq, Repr

/-- common/tss.go:399-410 `getMsgHash`. -/
def getMsgHash (σ : Shuffle (String × Nat)) (item : Item P) (threshold : Int) : Except HashErr String :=
  match getHighestFreq σ item.confirmed with
  | .ok (hash, freq) => if freq < threshold - 1 then .error .inconsistency else .ok hash
  | _ => .error .hashCheck

/-- common/tss.go:412-444 `hashCheck` for a cached message of owner `owner`: the item and the error. -/
def hashCheck (s : St K P) (σ : Shuffle (String × Nat)) (item : Item P) (owner : Nat) (threshold : Int) :
    Item P × Option HashErr :=
  match Map.get s.mgr.partyIDtoP2PID owner with
  | none => (item, some .noOwner)
  | some ownerPeer =>
    if (item.confirmed.length : Int) < threshold then (item, some .notEnoughPeer)
    else if ownerPeer ∈ Map.keys item.confirmed then
      ({ item with confirmed := Map.del item.confirmed ownerPeer }, some .fromOwner)
    else match getMsgHash σ item threshold with
    | .error e => (item, some e)
    | .ok hash => if item.hash = hash then (item, none) else (item, some .notMajority)

/-! ## the workers -/

/-- common/tss.go:184-222 `processInvalidMsgBlame`. -/
def processInvalidMsgBlame (env : Env K P) (s : St K P) (round : RoundInfo) (culprits : List Culprit) : St K P :=
  let unicast := checkUnicast round
  let s := { s with culprits := s.culprits ++ culprits }
  let invalidMsgs := culprits.map fun el => s.mgr.roundGet (cacheKey el.id round.roundMsg)
  match AccPubKeysFromPartyIDs env.codec s.mgr.partyIDMap (culprits.map Culprit.id) with
  | .ok pubkeys =>
    let blameNodes := (pubkeys.zip invalidMsgs).map fun (pk, m) =>
      match m with
      | none => (⟨pk, [], []⟩ : Node K)
      | some w => ⟨pk, w.message, w.sig⟩
    { s with mgr := { s.mgr with blame := s.mgr.blame.setBlame TssBrokenMsg blameNodes unicast } }
  | _ => { s with mgr := { s.mgr with blame := s.mgr.blame.setBlame TssBrokenMsg [] unicast } }

/-- common/tss.go:114-141 one step of a worker on the job with number `id`: `UpdateFromBytes`, or what follows it. -/
def stepJob (env : Env K P) (id : Nat) (s : St K P) : St K P :=
  match s.jobs.find? (fun j => j.id = id) with
  | none => s
  | some j =>
    match j.outcome with
    | none =>
      let r := env.upd s.log j.share
      { s with
        log := s.log ++ [⟨j.share, j.round, j.carrier, r.isNone⟩]
        jobs := s.jobs.map (fun k => if k.id = id then { k with outcome := some r } else k) }
    | some none =>
      { s with mgr := s.mgr.updateAcceptShare j.round j.share.from_, jobs := s.jobs.filter (fun k => k.id ≠ id) }
    | some (some culprits) =>
      processInvalidMsgBlame env { s with jobs := s.jobs.filter (fun k => k.id ≠ id) } j.round culprits

/-- a sequence of worker steps -/
def stepJobs (env : Env K P) (ids : List Nat) (s : St K P) : St K P := ids.foldl (fun s id => stepJob env id s) s

/-- common/tss.go:309-310 `close`, `Wait`: the jobs numbered from `start` on are finished. -/
def drain (env : Env K P) (start : Nat) (s : St K P) : St K P :=
  (s.jobs.filter (fun j => start ≤ j.id)).foldl (fun s j => stepJob env j.id (stepJob env j.id s)) s

/-! ## applying a wire message -/

/-- common/tss.go:261-311 the loop of `updateLocal` over the shares of a bulk message `w`. -/
def feed (env : Env K P) (w : WireMessage) (start : Nat) : List BulkWireMsg → List (List Nat) → St K P → St K P × Res Unit
  | [], ticks, s => (drain env start (stepJobs env (ticks.headD []) s), .ok ())
  | m :: rest, ticks, s =>
    let s := stepJobs env (ticks.headD []) s
    if m.ident ∈ env.parties then
      match m.routing with
      | none => (s, .panic)
      | some r =>
        match r.sender with
        | none => (s, .panic)
        | some i =>
          match Map.get s.mgr.partyIDMap i with
          | none => (s, .err "cannot find the party to handle the message")
          | some _ =>
            match GetMsgRound env.parse m.wired with
            | none => (s, .err "broken tss share")
            | some round =>
              let round := { round with msgIdentifier := m.ident }
              if s.mgr.checkMsgDuplication round i then feed env w start rest ticks.tail s
              else if s.culprits.any (fun c => c.stored && decide (c.id = i)) then (s, .err TssBrokenMsg)
              else feed env w start rest ticks.tail
                { s with
                  jobs := s.jobs ++ [⟨s.nextJob, ⟨m.ident, i, r.isBroadcast, m.wired⟩, round, w, none⟩]
                  nextJob := s.nextJob + 1 }
    else (s, .err "cannot find the party")

/-- common/tss.go:225-312 `updateLocal`. For an unknown sender the error text dereferences a nil pointer (line 236). -/
def updateLocal (env : Env K P) (ticks : List (List Nat)) (w : WireMessage) (s : St K P) : St K P × Res Unit :=
  if w.noSender then (s, .err "invalid wireMsg")
  else match w.sender with
  | none => (s, .panic)
  | some i =>
    match Map.get s.mgr.partyIDMap i with
    | none => (s, .panic)
    | some _ =>
      match Map.get s.mgr.partyIDtoP2PID i with
      | none => (s, .err "fail to find the peer")
      | some peer =>
        let s := if w.isBroadcast then s else { s with mgr := s.mgr.setLastUnicastPeer peer w.roundInfo }
        match env.decBulk w.message with
        | none => (s, .err "unmarshal")
        | some bulk => feed env w s.nextJob bulk ticks s

/-! ## requests for shares -/

/-- common/tss_helper.go:242-272 `processRequestMsgFromPeer`. -/
def processRequestMsgFromPeer (s : St K P) (peers : List P) (msg : Control) (requester : Bool) : St K P :=
  if requester then { s with sent := s.sent ++ [⟨.control msg, peers⟩] }
  else match s.mgr.roundGet msg.reqKey with
  | none => s
  | some stored => { s with sent := s.sent ++ [⟨.control { msg with msg := some stored }, peers⟩] }

/-- common/tss.go:600-639 `requestShareFromPeer`; peer texts of the confirmation map always decode. -/
def requestShareFromPeer (sch : Sched P) (item : Item P) (threshold : Int) (key : String) (msgType : MsgType) (s : St K P) :
    St K P :=
  match getMsgHash sch.f2 item threshold with
  | .error _ => s
  | .ok targetHash =>
    let peers := ((sch.o.f item.confirmed).filter (fun e => e.2 = targetHash)).map Prod.fst
    let s := { s with mgr := s.mgr.shareSet targetHash }
    let msg (t : MsgType) : Control := ⟨targetHash, key, t, none⟩
    if msgType = TSSKeyGenVerMsg then processRequestMsgFromPeer s peers (msg TSSKeyGenMsg) true
    else if msgType = TSSKeySignVerMsg then processRequestMsgFromPeer s peers (msg TSSKeySignMsg) true
    else if msgType = TSSKeySignMsg ∨ msgType = TSSKeyGenMsg then processRequestMsgFromPeer s peers (msg msgType) true
    else s

/-! ## broadcast shares -/

/-- common/tss.go:578-586, the part of `applyShare` that blames the owner of the message. -/
def blameShareOwner (env : Env K P) (w : WireMessage) (s : St K P) : St K P × Res Unit :=
  match s.mgr.tssWrongShareBlame env.codec w with
  | .ok pk =>
    ({ s with mgr := { s.mgr with blame := s.mgr.blame.setBlame HashCheckFail [⟨pk, w.message, w.sig⟩] (!w.isBroadcast) } },
      .err HashCheckFail)
  | .err _ =>
    ({ s with mgr := { s.mgr with blame := s.mgr.blame.setBlame HashCheckFail [] (!w.isBroadcast) } },
      .err "error in getting the blame nodes")
  | .panic => (s, .panic)

/-- common/tss.go:564-598 `applyShare` for the cache item `item` stored under `key`. -/
def applyShare (env : Env K P) (sch : Sched P) (item : Item P) (threshold : Int) (key : String) (msgType : MsgType)
    (s : St K P) : St K P × Res Unit :=
  match item.msg with
  | none => (s, .panic)
  | some w =>
    match w.sender with
    | none => (s, .panic)
    | some owner =>
      let (item, e) := hashCheck s sch.f1 item owner threshold
      let s := { s with cache := Map.set s.cache key item }
      match e with
      | none =>
        let s := { s with mgr := s.mgr.roundSet key w }
        let (s, r) := updateLocal env sch.ticks w s
        match r with
        | .ok _ => ({ s with cache := Map.del s.cache key }, .ok ())
        | .err e => (s, .err ("fail to update the message to local party: " ++ e))
        | .panic => (s, .panic)
      | some .notEnoughPeer => (s, .ok ())
      | some .notMajority =>
        let item := { item with msg := none }
        (requestShareFromPeer sch item threshold key msgType { s with cache := Map.set s.cache key item }, .ok ())
      | some _ => blameShareOwner env w s

/-- common/tss.go:800-809 `getBroadcastMessageType`. -/
def getBroadcastMessageType (t : MsgType) : MsgType :=
  if t = TSSKeyGenMsg then TSSKeyGenVerMsg else if t = TSSKeySignMsg then TSSKeySignVerMsg else Unknown

/-- common/tss.go:704-731 and 673-702 `receiverBroadcastHashToPeers`, `broadcastHashToPeers`; the error is only logged. -/
def receiverBroadcastHash (env : Env K P) (owner : Nat) (key msgHash : String) (msgType : MsgType) (s : St K P) : St K P :=
  match Map.get s.mgr.partyIDtoP2PID owner with
  | none => s
  | some ownerPeer =>
    let peers := env.p2pPeers.filter (fun el => el ≠ ownerPeer)
    if peers.length = 0 then s
    else { s with sent := s.sent ++ [⟨.confirm (getBroadcastMessageType msgType) key msgHash, peers⟩] }

/-- common/tss.go:777-791 the cache item after the arrival of a broadcast message `w`. -/
def arrived (env : Env K P) (old : Option (Item P)) (w : WireMessage) : Item P :=
  let item : Item P := match old with
    | none => ⟨some w, env.hash w.message, []⟩
    | some it => if it.msg.isNone then { it with msg := some w, hash := env.hash w.message } else it
  { item with confirmed := Map.set item.confirmed env.localPeer (env.hash w.message) }

/-- common/tss.go:653-659 the cache item after a confirmation. -/
def confirmedItem (old : Option (Item P)) (peer : P) (d : String) : Item P :=
  let item : Item P := match old with
    | none => ⟨none, d, []⟩
    | some it => it
  { item with confirmed := Map.set item.confirmed peer d }

/-- common/tss.go:734-798 `processTSSMsg`. -/
def processTSSMsg (env : Env K P) (sch : Sched P) (w : WireMessage) (msgType : MsgType) (forward : Bool) (s : St K P) :
    St K P × Res Unit :=
  if w.noSender then (s, .err "invalid wireMsg")
  else match w.sender with
  | none => (s, .panic)
  | some i =>
    match Map.get s.mgr.partyIDMap i with
    | none => (s, .err "error in find the data owner")
    | some dataOwner =>
      if !env.verify dataOwner.key (w.message ++ env.msgID) w.sig then (s, .err "signature verify failed")
      else if !w.isBroadcast then updateLocal env sch.ticks w s
      else
        let key := cacheKey i w.roundInfo
        let msgHash := env.hash w.message
        let s := if forward then s else receiverBroadcastHash env i key msgHash msgType s
        let item := arrived env (Map.get s.cache key) w
        let s := { s with cache := Map.set s.cache key item }
        match GetThreshold s.mgr.partyIDMap.length with
        | .ok threshold => applyShare env sch item threshold key msgType s
        | .err e => (s, .err e)
        | .panic => (s, .panic)

/-- common/tss.go:641-671 `processVerMsg`. (`P2PID` has been set to the sending peer, so the case `none` does not occur.) -/
def processVerMsg (env : Env K P) (sch : Sched P) (b : ConfirmMsg P) (msgType : MsgType) (s : St K P) :
    St K P × Res Unit :=
  match b.p2pid with
  | none => (s, .ok ())
  | some peer =>
    let item := confirmedItem (Map.get s.cache b.key) peer b.hash
    let s := { s with cache := Map.set s.cache b.key item }
    match GetThreshold s.mgr.partyIDMap.length with
    | .ok threshold =>
      if item.msg.isNone then (requestShareFromPeer sch item threshold b.key msgType s, .ok ())
      else applyShare env sch item threshold b.key msgType s
    | .err e => (s, .err e)
    | .panic => (s, .panic)

/-- common/tss.go:314-329 `checkDupAndUpdateVerMsg`: the message with the sending peer filled in, if this is the peer's first
confirmation of the cached message. -/
def checkDup (s : St K P) (b : ConfirmMsg P) (peer : P) : Option (ConfirmMsg P) :=
  match Map.get s.cache b.key with
  | none => some { b with p2pid := some peer }
  | some it => if peer ∈ Map.keys it.confirmed then none else some { b with p2pid := some peer }

/-- common/tss.go:356-375 a task-done message. Closing a closed channel panics. -/
def processTaskDone (peer : P) (s : St K P) : St K P × Res Unit :=
  if peer ∈ s.finished then (s, .err "duplicated notification")
  else
    let s := { s with finished := s.finished ++ [peer] }
    if (s.finished.length : Int) = (s.mgr.partyIDMap.length : Int) - 1 then
      if s.taskDone then (s, .panic) else ({ s with taskDone := true }, .ok ())
    else (s, .ok ())

/-- common/tss.go:331-397 `ProcessOneMessage`. -/
def ProcessOneMessage (env : Env K P) (sch : Sched P) (type : MsgType) (payload : Bytes) (peer : P) (s : St K P) :
    St K P × Res Unit :=
  if type = TSSKeyGenMsg ∨ type = TSSKeySignMsg then
    match env.decWire payload with
    | none => (s, .err "fail to unmarshal wire message")
    | some w => processTSSMsg env sch w type false s
  else if type = TSSKeyGenVerMsg ∨ type = TSSKeySignVerMsg then
    match env.decConfirm payload with
    | none => (s, .err "fail to unmarshal broadcast confirm message")
    | some b =>
      match checkDup s b peer with
      | some b => processVerMsg env sch b type s
      | none => (s, .ok ())
  else if type = TSSTaskDone then
    match env.decTask payload with
    | none => (s, .ok ())
    | some false => (s, .ok ())
    | some true => processTaskDone peer s
  else if type = TSSControlMsg then
    match env.decControl payload with
    | none => (s, .err "fail to unmarshal wire message")
    | some c =>
      match c.msg with
      | none => (processRequestMsgFromPeer s [peer] c false, .ok ())
      | some w =>
        let (mgr, exist) := s.mgr.queryAndDelete c.reqHash
        let s := { s with mgr }
        if exist then processTSSMsg env sch w c.requestType true s else (s, .ok ())
  else (s, .ok ())

/-- What can happen to a session: a message from a peer, processed under a schedule; a step of a worker left over. -/
inductive Event (P : Type)
  | msg (raw : Bytes) (peer : P) (sch : Sched P)
  | work (job : Nat)

/-- common/tss.go:843-868 `ProcessInboundMessages`, one event. A panic ends the program. -/
def step (env : Env K P) (s : St K P) (e : Event P) : St K P :=
  if s.crashed then s
  else match e with
  | .msg raw peer sch =>
    match env.decWrapped raw with
    | none => s
    | some (type, payload) =>
      let (s, r) := ProcessOneMessage env sch type payload peer s
      match r with
      | .panic => { s with crashed := true }
      | _ => s
  | .work job => stepJob env job s

/-- a whole session -/
def run (env : Env K P) (s : St K P) (h : List (Event P)) : St K P := h.foldl (step env) s

end Verif.TssCommon
