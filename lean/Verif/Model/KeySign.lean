import Verif.Model.Server

/-!
# tss/keysign.go: `KeySign`

After its checks KeySign runs two goroutines: one waits for signatures from others, the other joins the party and signs. The machine
below interleaves their steps, the steps of the signature notifier (`Verif.SigNotifier`), of the join call (`Verif.JoinParty`) and of the
signing session (`Verif.Session`). The channel between the goroutines has capacity 2. The state holds the record of what the node does to
the outside (`effects`) and of all sends on the channel (`sends`). The waiting for up to five seconds and for the session's goroutines
after a successful signing is modelled in `Verif.SessionCall`, the subscriptions in `Verif.Subscribers` and `Verif.Calls`; this machine leaves
them out.
-/
namespace Verif.KeySign
open Verif.Go Verif.Conversion Verif.Blame Verif.JoinParty Verif.Server Verif.Session

variable {P S H L : Type} [DecidableEq P] [LinearOrder S] [LinearOrder H]

/-- keysign/request.go -/
structure Request where
  poolPubKey : Str
  messages : List Str
  signerPubKeys : List Str
  blockHeight : Int
  version : Str

/-- keysign/response.go:17-21 -/
structure Response where
  signatures : List Signature
  status : Status
  blame : Blame Str
  deriving DecidableEq

/-- `keysign.Response{}` -/
def zero : Response := ⟨[], .na, NewBlame "" []⟩

/-- the errors returned by KeySign and its goroutines -/
inductive Err
  | msgID | state | decode | version | noSigners | threshold | notEnough
  | signReceived  -- p2p.ErrSignReceived
  | notActive     -- p2p.ErrNotActiveSigner
  deriving DecidableEq, Repr

/-- what KeySign and generateSignature return -/
abbrev Answer := Response × Option Err

/-- a `Fail` with this blame and no error -/
def failed (b : Blame Str) : Answer := (⟨[], .fail, b⟩, none)

/-- what a signing task consists of after the checks -/
structure Job (L : Type) where
  msgID : String
  msgs : List Bytes
  threshold : Int
  state : LocalState L
  signers : List Str

/-- tss/keysign.go:228-235: decoding all messages -/
def decodeAll (base64 : Str → Option Bytes) : List Str → Option (List Bytes)
  | [] => some []
  | m :: ms => (base64 m).bind fun b => (decodeAll base64 ms).map fun l => b :: l

/-- tss/keysign.go:185-275 the checks of `KeySign`. `requestToMsgId` sorts the messages and signer keys in place (tss/tss.go:153, 162), so
the sorted lists are used from then on. -/
def prepare (env : Env P S H L) (base64 : Str → Option Bytes) (disk : Storage.Disk) (req : Request) : Res (Except Answer (Job L)) :=
  match MsgId.requestToMsgId env.shaID (.keysign req.poolPubKey req.messages req.signerPubKeys req.blockHeight req.version) with
  | .panic => .panic
  | .err _ => .ok (.error (zero, some .msgID))
  | .ok msgID =>
    let messages := MsgId.sortStrings req.messages
    let signers := MsgId.sortStrings req.signerPubKeys
    match Storage.GetLocalState env.storage env.folder (String.ofList req.poolPubKey) disk with
    | .panic => .panic
    | .err _ => .ok (.error (zero, some .state))
    | .ok state =>
      match decodeAll base64 messages with
      | none => .ok (.error (zero, some .decode))
      | some decoded =>
        match Version.VersionLTCheck env.parseVer req.version env.gate with
        | .ok old =>
          if signers.length = 0 ∧ old = true then .ok (.error (zero, some .noSigners))
          else match Threshold.GetThreshold state.participantKeys.length with
          | .ok threshold =>
            if (signers.length : Int) ≤ threshold ∧ old = true then .ok (.error (zero, some .notEnough))
            else .ok (.ok ⟨msgID, sortMessages decoded, threshold, state, signers⟩)
          | _ => .ok (.error (zero, some .threshold))
        | _ => .ok (.error (⟨[], .fail, NewBlame InternalError []⟩, some .version))

/-- tss/keysign.go:335-351 `batchSignatures` -/
def batchSignatures (sigs : List Sig) (msgs : List Bytes) : Option Response :=
  (batchLoop sigs msgs).map fun l => ⟨l, .success, NewBlame "" []⟩

/-! ## signing: keysign/tss_keysign.go:84-178 `SignMessage` -/

/-- visiting orders of the maps ranged over in the set-up -/
structure SetupSched (P : Type) where
  a : Go.Shuffle (Nat × Party)
  b : Go.Shuffle (Nat × Party)
  c : Go.Shuffle (Nat × P)

/-- the outcome of the set-up: an error, a return of (nil, nil), a panic, or the start of the session -/
inductive Setup (P : Type)
  | error
  | nothing
  | panic
  | run (env : LoopEnv Str P) (mgr : Manager Str P)

/-- keysign/tss_keysign.go:107-121: the monikers of the local parties -/
def monikers (msgs : List Bytes) : List String :=
  msgs.zipIdx.map fun m => toString (hashToInt m.1 secp256k1N) ++ ":" ++ toString m.2

/-- keysign/tss_keysign.go:85-149 the set-up. -/
def signSetup (env : Env P S H L) (sch : SetupSched P) (task : Job L) (signers : List Str) : Setup P :=
  match GetParties env.codec.dec signers task.state.localPartyKey with
  | .err _ => .error
  | .panic => .panic
  | .ok (parties, loc) =>
    if loc ∉ parties then .nothing
    else match Threshold.GetThreshold task.state.participantKeys.length with
    | .err _ => .error
    | .panic => .panic
    | .ok _ =>
      let pm := SetupPartyIDMap parties
      let r₁ := SetupIDMaps env.codec (sch.a.f pm) []
      let r₂ := SetupIDMaps env.codec (sch.b.f pm) []
      if r₁.2 = .ok () ∧ r₂.2 = .ok () then
        match (newManager [] r₂.1 0).setPartyInfo (List.replicate task.msgs.length loc.id) pm with
        | .ok mgr =>
          let p2pPeers := GetPeersID (sch.c.f r₁.1) env.me
          .run
            { ses := { env.session with codec := env.codec, msgID := task.msgID.toUTF8.data.toList, parties := monikers task.msgs,
                                        localPeer := env.me, p2pPeers }
              out := ⟨task.msgs.length, p2pPeers, r₁.1, env.pstr⟩
              isBroadcast := env.isBroadcast }
            mgr
        | _ => .panic
      else .nothing

/-! ## the two goroutines -/

/-- what the node does to the outside -/
inductive Effect (P : Type)
  | joining                      -- sends join requests
  | signing (online : List P)    -- starts a signing session with these peers
  | broadcastSigs (l : List Sig) (peers : List P)  -- tells these peers the signatures
  | broadcastFailure (peers : List P)              -- tells these peers that signing failed
  | joinMetric (success : Bool)  -- `KeysignJoinParty`
  | metric (success : Bool)      -- `UpdateKeySign`
  deriving DecidableEq

/-- the waiting goroutine -/
inductive Waiter
  | start
  | waiting (w : Nat)
  | send (r : Response)
  | done (r : Option Response)  -- none: errWait ≠ nil

/-- what the generating goroutine does after its send on the channel -/
inductive After (P : Type)
  | badKeys
  | failed (env : LoopEnv Str P) (s : SignSt Str P)
  | setupFailed
  | signed (l : List Sig)

/-- the generating goroutine -/
inductive Gen (P : Type)
  | start
  | joining (c : JoinCall P)
  | signing (env : LoopEnv Str P) (s : SignSt Str P)
  | send (k : After P)
  | finish (k : After P)
  | done (a : Answer)

/-- the state of a KeySign call -/
structure St (P : Type) where
  nt : SigNotifier.St
  waiter : Waiter
  gen : Gen P
  buf : List String
  closed : Bool
  sends : List String
  effects : List (Effect P)
  crashed : Bool
  ret : Option Answer

/-- events -/
inductive Event (P : Type)
  | notifier (e : SigNotifier.Event)
  | waitStart
  | waitReturn
  | waitSend
  | genStart (gs : Groups P)
  | join (e : JoinParty.Event P)
  | genJoined (sch : SetupSched P)
  | sign (e : LoopEvent P Sig)
  | genSigned
  | genSend
  | genFinish
  | main

/-- `sigChan <- x`: possible if the channel is not full; a send on a closed channel panics -/
def St.sendChan (s : St P) (x : String) : Option (St P) :=
  if s.closed then some { s with crashed := true }
  else if s.buf.length < 2 then some { s with buf := s.buf ++ [x], sends := s.sends ++ [x] }
  else none

/-- tss/keysign.go:38-90, 107-124: the outcome of `joinParty` when it failed: the answer and whether the failure is broadcast -/
def joinFailed (env : Env P S H L) (signers : List Str) (out : JoinOut P) (e : JErr) : Answer × Bool :=
  if e = .join .signReceived then ((zero, some .signReceived), false)
  else if out.leader = "NONE" then
    match out.online with
    | none => (failed (NewBlame InternalError []), true)
    | some online => (failed (NodeSyncBlame env.codec signers online).1, true)
  else (failed (blameLeader env out.leader), true)

/-- tss/keysign.go:39 `allPeersID`: the peers of the members of the pool -/
def poolPeers (env : Env P S H L) (task : Job L) : List P :=
  match GetPeerIDsFromPubKeys env.codec task.state.participantKeys with
  | .ok l => l
  | _ => []

/-- the generating goroutine ends after a failed join -/
def St.joinFail (env : Env P S H L) (s : St P) (task : Job L) (out : JoinOut P) (e : JErr) : St P :=
  let (a, b) := joinFailed env task.signers out e
  { s with gen := .done a, effects := s.effects ++ (if b then [.joinMetric false, .broadcastFailure (poolPeers env task)] else []) }

/-- tss/keysign.go:38-75 the beginning of `generateSignature` -/
def St.genStart (env : Env P S H L) (req : Request) (task : Job L) (gs : Groups P) (s : St P) : St P :=
  match GetPeerIDsFromPubKeys env.codec task.state.participantKeys with
  | .ok _ =>
    match Version.VersionLTCheck env.parseVer req.version env.gate with
    | .ok old =>
      let begin_ := fun (participants : List Str) =>
        match joinParty env gs task.msgID req.version req.blockHeight participants task.threshold with
        | .ok c => { s with gen := .joining c, effects := s.effects ++ [.joining] }
        | .error out => match out.err with
          | some e => s.joinFail env task out e
          | none => s
      if old then
        match GetPubKeyFromPeerID env.codec env.me with
        | .ok myPk => if myPk ∈ task.signers then begin_ task.signers else { s with gen := .done (zero, some .notActive) }
        | _ => { s with gen := .done (zero, some .notActive) }
      else begin_ task.state.participantKeys
    | _ => { s with gen := .done (⟨[], .fail, NewBlame InternalError []⟩, some .version) }
  | _ => { s with gen := .done (failed (NewBlame InternalError [])) }

/-- tss/keysign.go:126-152 after a successful join, up to the start of the session -/
def St.genJoined (env : Env P S H L) (task : Job L) (sch : SetupSched P) (online : List P) (s : St P) : St P :=
  if env.me ∉ online then { s with gen := .done (zero, some .notActive), effects := s.effects ++ [.joinMetric true] }
  else match GetPubKeysFromPeerIDs env.codec online with
  | .ok signers =>
    match signSetup env sch task signers with
    | .error => { s with gen := .send .setupFailed, effects := s.effects ++ [.joinMetric true] }
    | .nothing => { s with gen := .send (.signed []), effects := s.effects ++ [.joinMetric true] }
    | .panic => { s with crashed := true, effects := s.effects ++ [.joinMetric true] }
    | .run lenv mgr =>
      { s with gen := .signing lenv (signInit (TssCommon.newTssCommon mgr)), effects := s.effects ++ [.joinMetric true, .signing online] }
  | _ => { s with gen := .send .badKeys, effects := s.effects ++ [.joinMetric true] }

/-- tss/keysign.go:139-173 after the send on the channel. (The broadcasts never return an error.) -/
def St.genFinish (env : Env P S H L) (task : Job L) (k : After P) (s : St P) : St P :=
  match k with
  | .badKeys => { s with gen := .done (failed (NewBlame "" [])) }
  -- nothing has been blamed yet
  | .setupFailed => { s with gen := .done (failed (NewBlame "" [])), effects := s.effects ++ [.broadcastFailure (poolPeers env task)] }
  | .failed _ st => { s with gen := .done (failed st.ses.mgr.blame), effects := s.effects ++ [.broadcastFailure (poolPeers env task)] }
  | .signed sigs =>
    match batchSignatures sigs task.msgs with
    | some r => { s with gen := .done (r, none), effects := s.effects ++ [.broadcastSigs sigs (poolPeers env task)] }
    | none => { s with crashed := true }

/-- tss/keysign.go:304-317: the answer of KeySign from what the goroutines left -/
def decision (wait : Option Response) (gen : Answer) : Answer :=
  match wait with
  | some r => (r, none)
  | none => if gen.2 = some .signReceived ∨ gen.2 = some .notActive then (zero, none) else gen

/-- does the event concern the notifier's wait of this call? Its `select` case on the channel needs an element of the channel. -/
def isCancel (w : Nat) : SigNotifier.Event → Bool
  | .cancel w' => decide (w' = w)
  | _ => false

/-- one step; an event which is not possible changes nothing. (After the return of KeySign nothing but the notifier goes on.) -/
def step (env : Env P S H L) (nenv : SigNotifier.Env) (req : Request) (task : Job L) (s : St P) (e : Event P) : St P :=
  if s.crashed then s
  else match e with
  | .notifier e =>
    match s.waiter with
    | .waiting w =>
      if isCancel w e then
        -- keysign/signature_notifier.go:212-213
        match s.buf with
        | _ :: rest =>
          match s.nt.waits[w]? with
          | some (_, .waiting) => { s with nt := SigNotifier.step nenv s.nt e, buf := rest }
          | _ => s
        | [] => s
      else
        let nt := SigNotifier.step nenv s.nt e
        { s with nt, crashed := nt.crashed }
    | _ =>
      let nt := SigNotifier.step nenv s.nt e
      { s with nt, crashed := nt.crashed }
  -- tss/keysign.go:24-36, 282-292
  | .waitStart =>
    match s.waiter with
    | .start => { s with nt := SigNotifier.step nenv s.nt (.wait task.msgID task.msgs (String.ofList req.poolPubKey))
                         waiter := .waiting s.nt.waits.length }
    | _ => s
  | .waitReturn =>
    match s.waiter with
    | .waiting w =>
      match s.nt.waits[w]? with
      | some (_, .ended (.ok d)) =>
        if d.length = 0 then { s with waiter := .done none }
        else match batchSignatures d task.msgs with
          | some r => { s with waiter := .send r }
          | none => { s with crashed := true }
      | some (_, .ended (.error _)) => { s with waiter := .done none }
      | _ => s
    | _ => s
  | .waitSend =>
    match s.waiter with
    | .send r =>
      match s.sendChan "signature received" with
      | some s => { s with waiter := .done (some r) }
      | none => s
    | _ => s
  -- tss/keysign.go:295-298, 38-174
  | .genStart gs =>
    match s.gen with
    | .start => s.genStart env req task gs
    | _ => s
  | .join e =>
    match s.gen with
    | .joining c =>
      match e with
      | .sig x =>
        -- p2p/party_coordinator.go:373-376, 446-447: the select takes from the channel; the leaderless join has no such case
        match s.buf, c.kind with
        | y :: rest, .leader _ | y :: rest, .member _ =>
          if x = y ∧ c.st.phase = .waiting then { s with gen := .joining (c.step env (.sig x)), buf := rest } else s
        | _, _ => s
      | e => { s with gen := .joining (c.step env e) }
    | _ => s
  | .genJoined sch =>
    match s.gen with
    | .joining c =>
      match c.out with
      | some out =>
        match out.err with
        | some e => s.joinFail env task out e
        | none => s.genJoined env task sch (out.online.getD [])
      | none => s
    | _ => s
  | .sign e =>
    match s.gen with
    | .signing lenv st =>
      let st := signStep lenv task.msgs.length st e
      { s with gen := .signing lenv st, crashed := st.crashed }
    | .send (.failed lenv st) =>
      match e with
      | .inbound e =>
        let st := signStep lenv task.msgs.length st (.inbound e)
        { s with gen := .send (.failed lenv st), crashed := st.crashed }
      | _ => s
    | .finish (.failed lenv st) =>
      match e with
      | .inbound e =>
        let st := signStep lenv task.msgs.length st (.inbound e)
        { s with gen := .finish (.failed lenv st), crashed := st.crashed }
      | _ => s
    | _ => s
  | .genSigned =>
    match s.gen with
    | .signing lenv st =>
      match st.result with
      | some (.ok sigs) => { s with gen := .send (.signed (sortResults sigs)) }
      | some (.error _) => { s with gen := .send (.failed lenv st) }
      | none => s
    | _ => s
  | .genSend =>
    match s.gen with
    | .send k =>
      match s.sendChan "signature generated" with
      | some s => { s with gen := .finish k }
      | none => s
    | _ => s
  | .genFinish =>
    match s.gen with
    | .finish k => s.genFinish env task k
    | _ => s
  -- tss/keysign.go:300-317
  | .main =>
    match s.waiter, s.gen with
    | .done w, .done a =>
      if s.ret.isSome then s
      else if s.closed then { s with crashed := true }
      else { s with closed := true, ret := some (decision w a)
                    effects := s.effects ++ [.metric (decide ((decision w a).1.status = .success))] }
    | _, _ => s

/-- the start, when the notifier is in state `nt` -/
def init (nt : SigNotifier.St) : St P := ⟨nt, .start, .start, [], false, [], [], false, none⟩

/-- the whole call: a refused request returns at once -/
def run (env : Env P S H L) (base64 : Str → Option Bytes) (nenv : SigNotifier.Env) (disk : Storage.Disk) (req : Request)
    (nt : SigNotifier.St) (h : List (Event P)) : St P :=
  match prepare env base64 disk req with
  | .ok (.ok task) => h.foldl (step env nenv req task) (init nt)
  | .ok (.error a) => { init nt with ret := some a }
  | _ => { init nt with crashed := true }

end Verif.KeySign
