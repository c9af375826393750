import Verif.Model.Keygen
import Verif.Spec.Server

/-!
# Vocabulary for the properties of Keygen

Histories of the parts of a Keygen call: how its party was formed and how its session went.
-/
namespace Verif.Spec.Keygen
open Verif.Go Verif.Conversion Verif.Blame Verif.Server Verif.Session Verif.Keygen
open Verif.JoinParty hiding Event
open scoped List

variable {P S H L Pt A Q : Type} [DecidableEq P] [LinearOrder S] [LinearOrder H]

/-- the keys of the request in the order in which they are used -/
def sortedKeys (req : Request) : List Str := MsgId.sortStrings req.keys

/-- The request has an id: its keys are not all empty. -/
def HasId (env : KEnv P S H L Pt A Q) (req : Request) (id : String) : Prop :=
  MsgId.requestToMsgId env.base.shaID (.keygen req.keys req.blockHeight req.version) = .ok id

/-- the join events of a history -/
def joinEvents (h : List (Event P L A Q)) : List (JoinParty.Event P) := h.filterMap fun e => match e with | .join e => some e | _ => none

/-- the session events of a history -/
def loopEvents (h : List (Event P L A Q)) : List (LoopEvent P (End L A Q)) := h.filterMap fun e => match e with | .loop e => some e | _ => none

/-- In the history the join could not begin; `out` is what it returned. -/
def NoJoin (env : KEnv P S H L Pt A Q) (req : Request) (id : String) (h : List (Event P L A Q)) (out : JoinOut P) : Prop :=
  ∃ gs, Event.start gs ∈ h ∧
    joinParty env.base gs id req.version req.blockHeight (sortedKeys req) ((req.keys.length : Int) - 1) = .error out

/-- In the history the join call of the request began, and after the join events `jh` of the history it is `c`. -/
def JoinRun (env : KEnv P S H L Pt A Q) (req : Request) (id : String) (h : List (Event P L A Q)) (jh : List (JoinParty.Event P))
    (c : JoinCall P) : Prop :=
  jh <+ joinEvents h ∧ (∀ x, JoinParty.Event.sig x ∉ jh) ∧ ∃ (gs : Groups P) (c₀ : JoinCall P), Event.start gs ∈ h ∧
    joinParty env.base gs id req.version req.blockHeight (sortedKeys req) ((req.keys.length : Int) - 1) = .ok c₀ ∧
    c = jh.foldl (JoinCall.step env.base) c₀

/-- In the history the join call ended with the result `r`; `leader` is the leader, or "NONE". -/
def JoinEnded (env : KEnv P S H L Pt A Q) (req : Request) (id : String) (h : List (Event P L A Q)) (jh : List (JoinParty.Event P)) (leader : String)
    (r : JoinParty.Result P) : Prop :=
  ∃ c, JoinRun env req id h jh c ∧ c.st.result = some r ∧ c.leader = leader

/-- In the history the party was formed. -/
def PartyFormed (env : KEnv P S H L Pt A Q) (req : Request) (id : String) (h : List (Event P L A Q)) : Prop :=
  ∃ jh leader r, JoinEnded env req id h jh leader r ∧ r.err = none

/-- In the history the session of a formed party went through the events `lh`; it is now `st`. -/
def SessionRun (env : KEnv P S H L Pt A Q) (req : Request) (id : String) (disk : Storage.Disk) (h : List (Event P L A Q))
    (lh : List (LoopEvent P (End L A Q))) (st : GenSt P Pt) : Prop :=
  lh <+ loopEvents h ∧ PartyFormed env req id h ∧ ∃ (sch : SetupSched P) (lenv : LoopEnv Str P) (mgr : Manager Str P),
    genSetup env sch id (sortedKeys req) = .run lenv mgr ∧ st = genRun env lenv (sortedKeys req) (TssCommon.newTssCommon mgr) disk lh

/-- why the call returns its answer -/
inductive Outcome (env : KEnv P S H L Pt A Q) (req : Request) (id : String) (disk : Storage.Disk) (h : List (Event P L A Q)) : Answer → Prop
  /-- the join could not begin -/
  | noJoin (out : JoinOut P) : NoJoin env req id h out → Outcome env req id disk h (joinFailed env (sortedKeys req) out)
  /-- the join failed -/
  | joinFailed (jh : List (JoinParty.Event P)) (leader : String) (r : JoinParty.Result P) (e : JoinErr) : JoinEnded env req id h jh leader r →
      r.err = some e → Outcome env req id disk h (joinFailed env (sortedKeys req) ⟨some r.online, leader, some (.join e)⟩)
  /-- the session could not be set up -/
  | setup (sch : SetupSched P) (e : Err) : PartyFormed env req id h → genSetup env sch id (sortedKeys req) = .error e →
      Outcome env req id disk h (failed (NewBlame "" []) (some e))
  /-- the set-up gave up silently -/
  | gaveUp (sch : SetupSched P) : PartyFormed env req id h → genSetup env sch id (sortedKeys req) = .nothing →
      Outcome env req id disk h (success env none (NewBlame "" []))
  /-- the session failed -/
  | session (lh : List (LoopEvent P (End L A Q))) (st : GenSt P Pt) (e : LoopErr) : SessionRun env req id disk h lh st →
      st.result = some (.error e) → Outcome env req id disk h (failed st.ses.mgr.blame (some (.loop e)))
  /-- the session delivered the key -/
  | generated (lh : List (LoopEvent P (End L A Q))) (st : GenSt P Pt) (pt : Pt) : SessionRun env req id disk h lh st →
      st.result = some (.ok pt) → Outcome env req id disk h (success env (some pt) st.ses.mgr.blame)

end Verif.Spec.Keygen
