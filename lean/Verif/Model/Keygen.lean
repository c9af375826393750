import Verif.Model.Server
import Verif.Model.Session
import Verif.Model.Storage

/-!
# tss/keygen.go: `Keygen`, and keygen/tss_keygen.go

The machine below interleaves the steps of the call, of the join call (`Verif.JoinParty`), of the inbound messages of the session
(`Verif.TssCommon`) and of the local party of tss-lib, whose messages and result are data of the events. The disk is part of the state. The
state holds the record of what the node does to the outside (`effects`). The subscriptions (see `Verif.Subscribers`) are not modelled.
-/
namespace Verif.Keygen
open Verif.Go Verif.Conversion Verif.Blame Verif.Messages Verif.TssCommon Verif.JoinParty Verif.Server Verif.Session

/-- What a node has for key generation besides the common part. `Pt` is the type of points (tss-lib's `ECPoint`), `A` and `Q` those of addresses
and peers of the address book. -/
structure KEnv (P S H L Pt A Q : Type) where
  base : Server.Env P S H L
  /-- `localNodePubKey` -/
  ownKey : Str
  /-- are there pre-parameters? -/
  preParams : Bool
  /-- the field `ECDSAPub` of tss-lib's share data (not nil) -/
  pubOf : L → Pt
  /-- `isOnCurve` -/
  onCurve : Pt → Bool
  /-- `SerializeCompressed` and `Bech32ifyPubKey`; `none` is an error -/
  bech32 : Pt → Option Str
  /-- `compressedPubkey.Address()` as text -/
  address : Pt → Str
  addr : Storage.AddrEnv A Q

variable {P S H L Pt A Q : Type} [DecidableEq P] [LinearOrder S] [LinearOrder H]

/-- keygen/request.go -/
structure Request where
  keys : List Str
  blockHeight : Int
  version : Str

/-- keygen/response.go:9-14 -/
structure Response where
  pubKey : Str
  poolAddress : Str
  status : Status
  blame : Blame Str
  deriving DecidableEq

/-- the errors returned by Keygen -/
inductive Err
  | msgID | parties | threshold | preParams
  | loop (e : LoopErr)
  deriving DecidableEq, Repr

/-- what Keygen returns -/
abbrev Answer := Response × Option Err

/-- `keygen.Response{}` -/
def zero : Response := ⟨[], [], .na, NewBlame "" []⟩

/-- a `Fail` without key -/
def failed (b : Blame Str) (e : Option Err) : Answer := (⟨[], [], .fail, b⟩, e)

/-- conversion/conversion.go:150-170 `GetTssPubKey`: key, address and whether there is no error -/
def GetTssPubKey (env : KEnv P S H L Pt A Q) : Option Pt → Str × Str × Bool
  | none => ([], [], false)
  | some pt =>
    if env.onCurve pt then
      match env.bech32 pt with
      | some k => (k, env.address pt, true)
      | none => ([], env.address pt, false)
    else ([], [], false)

/-! ## the session: keygen/tss_keygen.go -/

/-- what the local party delivers at its end, and how the two writes to the disk go -/
structure End (L A Q : Type) where
  share : L
  fault : Option Storage.Fault
  σ : Go.Shuffle (Q × List A)
  book : Map Q (List A)
  bookFault : Option Storage.Fault

/-- State of the loop `processKeyGen`. `result` is set when the loop has returned; `notified` tells that the peers were told that the task is
done; `crashed` that a panic ended the program. -/
structure GenSt (P Pt : Type) where
  ses : TssCommon.St Str P
  out : OutBatch.St P
  notified : Bool
  disk : Storage.Disk
  result : Option (Except LoopErr Pt)
  crashed : Bool

/-- keygen/tss_keygen.go:216-235: the local party has delivered -/
def genDone (env : KEnv P S H L Pt A Q) (keys : List Str) (e : End L A Q) (s : GenSt P Pt) : GenSt P Pt :=
  match GetTssPubKey env (some (env.pubOf e.share)) with
  | (pubKey, _, true) =>
    let state : LocalState L := ⟨pubKey, e.share, keys, env.ownKey⟩
    match Storage.SaveLocalState env.base.storage (fun st => String.ofList st.pubKey) env.base.folder state e.fault s.disk with
    | (disk, .ok _) =>
      { s with notified := true, disk := (Storage.SaveAddressBook env.addr (some env.base.folder) e.σ e.book e.bookFault disk).1
               result := some (.ok (env.pubOf e.share)) }
    | (disk, .err _) => { s with notified := true, disk, result := some (.error .save) }
    | (disk, .panic) => { s with notified := true, disk, crashed := true }
  | _ => { s with notified := true, result := some (.error .pubkey) }

/-- keygen/tss_keygen.go:145-238 one event of `processKeyGen`; after its return only inbound messages go on. -/
def genStep (env : KEnv P S H L Pt A Q) (lenv : LoopEnv Str P) (keys : List Str) (s : GenSt P Pt) (e : LoopEvent P (End L A Q)) : GenSt P Pt :=
  if s.crashed then s
  else match e with
  | .inbound e =>
    let ses := TssCommon.step lenv.ses s.ses e
    { s with ses, crashed := ses.crashed }
  | _ =>
    if s.result.isSome then s
    else match e with
    | .startFailed => { s with result := some (.error .start) }
    | .stop => { s with result := some (.error .exit) }
    | .timeout sch =>
      match s.ses.mgr.lastMsg with
      | none => { s with result := some (.error .noMessage) }
      | some _ =>
        match keygenTimeout lenv.ses.codec sch lenv.out.p2pPeers.length s.ses.mgr with
        | .ok mgr => { s with ses := { s.ses with mgr }, result := some (.error .timeout) }
        | _ => { s with crashed := true }
    | .out sch o =>
      let ses := { s.ses with mgr := setLastMsg lenv o s.ses.mgr }
      let (out, r) := OutBatch.ProcessOutCh lenv.out sch o TSSKeyGenMsg s.out
      match r with
      | .ok _ => { s with ses, out }
      | .err _ => { s with ses, out, result := some (.error .out) }
      | .panic => { s with ses, out, crashed := true }
    | .done r => genDone env keys r s
    | .inbound _ => s

/-- the start of the loop -/
def genInit (ses : TssCommon.St Str P) (disk : Storage.Disk) : GenSt P Pt := ⟨ses, OutBatch.init, false, disk, none, false⟩

/-- a run of the loop -/
def genRun (env : KEnv P S H L Pt A Q) (lenv : LoopEnv Str P) (keys : List Str) (ses : TssCommon.St Str P) (disk : Storage.Disk)
    (h : List (LoopEvent P (End L A Q))) : GenSt P Pt := h.foldl (genStep env lenv keys) (genInit ses disk)

/-- visiting orders of the maps ranged over in the set-up -/
structure SetupSched (P : Type) where
  a : Go.Shuffle (Nat × Party)
  b : Go.Shuffle (Nat × Party)
  c : Go.Shuffle (Nat × P)

/-- the outcome of the set-up: an error, a return of (nil, nil), a panic, or the start of the session -/
inductive Setup (P : Type)
  | error (e : Err)
  | nothing
  | panic
  | run (env : LoopEnv Str P) (mgr : Manager Str P)

/-- keygen/tss_keygen.go:69-114 the set-up of `GenerateNewKey`: one local party with the moniker "". -/
def genSetup (env : KEnv P S H L Pt A Q) (sch : SetupSched P) (msgID : String) (keys : List Str) : Setup P :=
  match GetParties env.base.codec.dec keys env.ownKey with
  | .err _ => .error .parties
  | .panic => .panic
  | .ok (parties, loc) =>
    match Threshold.GetThreshold parties.length with
    | .err _ => .error .threshold
    | .panic => .panic
    | .ok _ =>
      if env.preParams = false then .error .preParams
      else
        let pm := SetupPartyIDMap parties
        let r₁ := SetupIDMaps env.base.codec (sch.a.f pm) []
        let r₂ := SetupIDMaps env.base.codec (sch.b.f pm) []
        if r₁.2 = .ok () ∧ r₂.2 = .ok () then
          match (newManager [] r₂.1 0).setPartyInfo [loc.id] pm with
          | .ok mgr =>
            let p2pPeers := GetPeersID (sch.c.f r₁.1) env.base.me
            .run
              { ses := { env.base.session with codec := env.base.codec, msgID := msgID.toUTF8.data.toList, parties := [""],
                                               localPeer := env.base.me, p2pPeers }
                out := ⟨1, p2pPeers, r₁.1, env.base.pstr⟩
                isBroadcast := env.base.isBroadcast }
              mgr
          | _ => .panic
        else .nothing

/-! ## the call: tss/keygen.go -/

/-- what the node does to the outside -/
inductive Effect
  | joining                     -- sends join requests
  | generating                  -- starts a key generation session
  | joinMetric (success : Bool)
  | metric (success : Bool)
  deriving DecidableEq

/-- where the call is -/
inductive Phase (P Pt : Type)
  | start
  | joining (c : JoinCall P)
  | running (env : LoopEnv Str P) (s : GenSt P Pt)
  | done

/-- the state of a Keygen call -/
structure St (P Pt : Type) where
  phase : Phase P Pt
  disk : Storage.Disk
  effects : List Effect
  crashed : Bool
  ret : Option Answer

/-- events -/
inductive Event (P L A Q : Type)
  | start (gs : Groups P)
  | join (e : JoinParty.Event P)
  | joined (sch : SetupSched P)
  | loop (e : LoopEvent P (End L A Q))
  | finish

/-- tss/keygen.go:54-106: the answer when `joinParty` failed -/
def joinFailed (env : KEnv P S H L Pt A Q) (keys : List Str) (out : JoinOut P) : Answer :=
  if out.leader = "NONE" then
    match out.online with
    | none => failed (NewBlame InternalError []) none
    | some online => failed (NodeSyncBlame env.base.codec keys online).1 none
  else
    let online := out.online.getD []
    if online.length ≠ 0 then
      failed ((NodeSyncBlame env.base.codec keys online).1.addBlameNodes (blameLeader env.base out.leader).nodes) none
    else failed (blameLeader env.base out.leader) none

/-- the call returns -/
def St.return (s : St P Pt) (effects : List Effect) (a : Answer) : St P Pt :=
  { s with phase := .done, effects := s.effects ++ effects, ret := some a }

/-- tss/keygen.go:123-136: after `GenerateNewKey` returned without error -/
def success (env : KEnv P S H L Pt A Q) (k : Option Pt) (blame : Blame Str) : Answer :=
  match GetTssPubKey env k with
  | (pubKey, addr, true) => (⟨pubKey, addr, .success, blame⟩, none)
  | (pubKey, addr, false) => (⟨pubKey, addr, .fail, blame⟩, none)

/-- tss/keygen.go:108-136: after a successful join, up to the start of the session -/
def St.joined (env : KEnv P S H L Pt A Q) (msgID : String) (keys : List Str) (sch : SetupSched P) (s : St P Pt) : St P Pt :=
  match genSetup env sch msgID keys with
  | .error e => s.return [.joinMetric true, .metric false] (failed (NewBlame "" []) (some e))
  | .nothing => s.return [.joinMetric true, .metric true] (success env none (NewBlame "" []))
  | .panic => { s with crashed := true }
  | .run lenv mgr =>
    { s with phase := .running lenv (genInit (TssCommon.newTssCommon mgr) s.disk), effects := s.effects ++ [.joinMetric true, .generating] }

/-- one step of the call; an event which is not possible changes nothing. `keys` are the sorted keys of the request (`requestToMsgId` sorts
them in place, tss/tss.go:162). Nothing is ever sent on the channel `sigChan`. -/
def step (env : KEnv P S H L Pt A Q) (req : Request) (msgID : String) (keys : List Str) (s : St P Pt) (e : Event P L A Q) : St P Pt :=
  if s.crashed then s
  else match e with
  | .start gs =>
    match s.phase with
    | .start =>
      match joinParty env.base gs msgID req.version req.blockHeight keys ((keys.length : Int) - 1) with
      | .ok c => { s with phase := .joining c, effects := s.effects ++ [.joining] }
      | .error out => s.return [.joinMetric false, .metric false] (joinFailed env keys out)
    | _ => s
  | .join e =>
    match s.phase with
    | .joining c =>
      match e with
      | .sig _ => s
      | e => { s with phase := .joining (c.step env.base e) }
    | _ => s
  | .joined sch =>
    match s.phase with
    | .joining c =>
      match c.out with
      | some out =>
        match out.err with
        | some _ => s.return [.joinMetric false, .metric false] (joinFailed env keys out)
        | none => s.joined env msgID keys sch
      | none => s
    | _ => s
  | .loop e =>
    match s.phase with
    | .running lenv st =>
      let st := genStep env lenv keys st e
      { s with phase := .running lenv st, disk := st.disk, crashed := st.crashed }
    | _ => s
  | .finish =>
    match s.phase with
    | .running _ st =>
      match st.result with
      | some (.ok pt) => s.return [.metric true] (success env (some pt) st.ses.mgr.blame)
      | some (.error e) => s.return [.metric false] (failed st.ses.mgr.blame (some (.loop e)))
      | none => s
    | _ => s

/-- the whole call; a request without an id is refused at once -/
def run (env : KEnv P S H L Pt A Q) (disk : Storage.Disk) (req : Request) (h : List (Event P L A Q)) : St P Pt :=
  match MsgId.requestToMsgId env.base.shaID (.keygen req.keys req.blockHeight req.version) with
  | .ok msgID => h.foldl (step env req msgID (MsgId.sortStrings req.keys)) ⟨.start, disk, [], false, none⟩
  | .err _ => ⟨.done, disk, [], false, some (zero, some .msgID)⟩
  | .panic => ⟨.done, disk, [], true, none⟩

end Verif.Keygen
