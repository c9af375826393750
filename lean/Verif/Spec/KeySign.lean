import Verif.Model.KeySign

/-!
# Vocabulary for the properties of KeySign

Histories of the parts of a KeySign call: how its party was formed and how its signing session went.
-/
namespace Verif.Spec.KeySign
open Verif.Go Verif.Conversion Verif.Blame Verif.Server Verif.Session Verif.KeySign
open Verif.JoinParty hiding Event
open scoped List

variable {P S H L : Type} [DecidableEq P] [LinearOrder S] [LinearOrder H]

/-- the node asked for is one of the signers of the request -/
def OwnKeyAmongSigners (env : Env P S H L) (task : Job L) : Prop := ∃ pk, GetPubKeyFromPeerID env.codec env.me = .ok pk ∧ pk ∈ task.signers

/-- The request uses the leaderless join (`old`) among the signers of the request, or the join with a leader among all holders of a share. -/
def participants (old : Bool) (task : Job L) : List Str := if old then task.signers else task.state.participantKeys

/-- the join events of a history -/
def joinEvents (h : List (Event P)) : List (JoinParty.Event P) :=
  h.filterMap fun e => match e with | .join e => some e | _ => none

/-- the events of the signing session of a history -/
def signEvents (h : List (Event P)) : List (LoopEvent P Sig) :=
  h.filterMap fun e => match e with | .sign e => some e | _ => none

/-- In the history `h` the join call of the request began, and after the join events `jh` of the history it is `c`. -/
def JoinRun (env : Env P S H L) (req : Request) (task : Job L) (old : Bool) (h : List (Event P)) (jh : List (JoinParty.Event P))
    (c : JoinCall P) : Prop :=
  jh <+ joinEvents h ∧ (old = true → OwnKeyAmongSigners env task) ∧
  ∃ (gs : Groups P) (c₀ : JoinCall P), Event.genStart gs ∈ h ∧
    joinParty env gs task.msgID req.version req.blockHeight (participants old task) task.threshold = .ok c₀ ∧
    c = jh.foldl (JoinCall.step env) c₀

/-- In the history the party was formed: the join call ended without error and reported the peers `online`. -/
def PartyFormed (env : Env P S H L) (req : Request) (task : Job L) (old : Bool) (h : List (Event P)) (online : List P) : Prop :=
  ∃ (jh : List (JoinParty.Event P)) (c : JoinCall P) (r : JoinParty.Result P), JoinRun env req task old h jh c ∧ c.st.result = some r ∧
    r.online = online ∧ r.err = none

/-- In the history a party which includes this node was formed and the keys of its members are `signers`. -/
def Member (env : Env P S H L) (req : Request) (task : Job L) (old : Bool) (h : List (Event P)) (online : List P) (signers : List Str) : Prop :=
  PartyFormed env req task old h online ∧ env.me ∈ online ∧ GetPubKeysFromPeerIDs env.codec online = .ok signers

/-- In the history a signing session of a formed party, which includes this node, went through the events `lh`; it is now `st`. -/
def SessionRun (env : Env P S H L) (req : Request) (task : Job L) (old : Bool) (h : List (Event P)) (lh : List (LoopEvent P Sig))
    (st : SignSt Str P) : Prop :=
  lh <+ signEvents h ∧ ∃ (online : List P) (signers : List Str) (sch : SetupSched P) (lenv : LoopEnv Str P) (mgr : Manager Str P),
    Member env req task old h online signers ∧ signSetup env sch task signers = .run lenv mgr ∧
    st = signRun lenv task.msgs.length (TssCommon.newTssCommon mgr) lh

/-- In the history a signing session of this node delivered the signatures `results`. -/
def Generated (env : Env P S H L) (req : Request) (task : Job L) (old : Bool) (h : List (Event P)) (results : List Sig) : Prop :=
  ∃ (lh : List (LoopEvent P Sig)) (st : SignSt Str P), SessionRun env req task old h lh st ∧ st.result = some (.ok results)

/-- The set-up of the session gave up without an error: the keys of the members cannot be converted. -/
def GaveUp (env : Env P S H L) (req : Request) (task : Job L) (old : Bool) (h : List (Event P)) : Prop :=
  ∃ (online : List P) (signers : List Str) (sch : SetupSched P), Member env req task old h online signers ∧
    signSetup env sch task signers = .nothing

/-- the entries of a response for these signatures: each with the message at its position -/
def Entries (sigs : List Sig) (msgs : List Bytes) (entries : List Signature) : Prop :=
  sigs.length ≤ msgs.length ∧ entries = List.zipWith (fun (s : Sig) m => ⟨m, s.r, s.s, s.recovery⟩) sigs msgs

/-- The request is in order: its text is not empty, the share of its pool key is stored, its messages can be decoded and its version can be
parsed; for the leaderless join (`old`) it names signers, more than the threshold. The job is then: -/
structure Accepted (env : Env P S H L) (base64 : Str → Option Bytes) (disk : Storage.Disk) (req : Request) (old : Bool) (task : Job L) : Prop where
  id : MsgId.requestToMsgId env.shaID (.keysign req.poolPubKey req.messages req.signerPubKeys req.blockHeight req.version) = .ok task.msgID
  stored : Storage.GetLocalState env.storage env.folder (String.ofList req.poolPubKey) disk = .ok task.state
  decoded : ∃ decoded, List.Forall₂ (fun m b => base64 m = some b) (MsgId.sortStrings req.messages) decoded ∧ task.msgs = sortMessages decoded
  version : Version.VersionLTCheck env.parseVer req.version env.gate = .ok old
  threshold : Threshold.GetThreshold task.state.participantKeys.length = .ok task.threshold
  enough : old = true → req.signerPubKeys ≠ [] ∧ task.threshold < req.signerPubKeys.length
  signers : task.signers = MsgId.sortStrings req.signerPubKeys

end Verif.Spec.KeySign
