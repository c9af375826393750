import Verif.Model.Ceremony
import Verif.Spec.SessNet
import Verif.Props.C108_C109

/-!
# Undisturbed ceremonies

What it means that nothing disturbs the calls of a ceremony, that the local parties (tss-lib) do their part, and that a ceremony has come to rest.
-/
set_option linter.unusedSectionVars false
namespace Verif.Ceremony
open Verif.Go Verif.Messages Verif.TssCommon Verif.SessNet Verif.SessionCall Verif.Session Verif.Spec

variable {K P R σ : Type} [DecidableEq K] [DecidableEq P]

/-- Specification: storing the result of the key generation works -/
def Stores {S H L Pt A Q : Type} [LinearOrder S] [LinearOrder H] (env : Keygen.KEnv P S H L Pt A Q) (keys : List Server.Str) (e : Keygen.End L A Q) : Prop :=
  ∃ k a, Keygen.GetTssPubKey env (some (env.pubOf e.share)) = (k, a, true) ∧
    ∀ disk, (Storage.SaveLocalState env.base.storage (fun st => String.ofList st.pubKey) env.base.folder ⟨k, e.share, keys, env.ownKey⟩ e.fault disk).2 = .ok ()

/-- Specification: nothing disturbs the call in this event: its local parties start, the call is not stopped, no timer fires, encoding and signing
work, and the local parties deliver results that can be used -/
def Calm (good : R → Prop) : SessionCall.Event P R → Prop
  | .started ok => ok = true
  | .takeStop => False
  | .timeout _ => False
  | .graceOver => False
  | .takeOut sch => ∀ k, sch.ok k = true
  | .deliver r => good r
  | _ => True

/-- Specification: nothing disturbs a member in this event -/
def CalmNet (member : P → Bool) (good : P → R → Prop) : NetEvent P R → Prop
  | .at_ q e => member q = true → Calm (good q) e
  | .deliver _ _ => True

/-- Specification: the outputs which the local parties of `q` have delivered so far -/
def made (seat : P → Seat K P R σ) (c : Net P R σ) (q : P) : List OutBatch.Output :=
  Props.SessionCall.delivered (seat q).loop (seat q).caps (SessionCall.init (seat q).start) (c.nodes q).hist

/-- Specification: a schedule under which encoding and signing work -/
def plain : OutBatch.Sched := ⟨Shuffle.id _, Shuffle.id _, fun _ => true⟩

/-- Specification: the outputs of the members are proper (`Verif.Spec.Proper`) -/
def ProperOuts (base : TssCommon.Env K P) (peers : Map Nat P) (site : P → Site K P) (outs : P → List OutBatch.Output) : Prop :=
  ∀ i q, Map.get peers i = some q → Proper base (site q).out i ((outs q).map fun o => (plain, o))

/-- Specification: the local parties of every member accept the shares which the others produce for it -/
def WelcomeOuts (peers : Map Nat P) (site : P → Site K P) (outs : P → List OutBatch.Output) : Prop :=
  ∀ i p q, Map.get peers i = some p → Member peers q → p ≠ q → ∀ o ∈ outs p, ∀ b r, o.wire = some (b, r) →
    q ∈ Props.Outgoing.receivers (site p).out (Props.Outgoing.queueOf o.type r) → ∀ log, (site q).env.upd log ⟨o.moniker, i, r.isBroadcast, b⟩ = none

/-- Specification: a round of the protocol of tss-lib: the type of its messages and whether they are broadcasts. (A round with a broadcast and
messages to single members counts as two.) -/
structure Round where
  type : String
  broadcast : Bool

section
variable (base : TssCommon.Env K P) (peers : Map Nat P) (v : View K P σ) (seat : P → Seat K P R σ) (c : Net P R σ)

/-- Specification: the local party `j` of `p` has produced the bytes `b` with routing `r` as its message of a round for `q` -/
def Produced (ρ : Round) (j : String) (p q : P) (b : Bytes) (r : Routing) : Prop :=
  ∃ o ∈ made seat c p, o.type = ρ.type ∧ o.moniker = j ∧ o.wire = some (b, r) ∧ r.isBroadcast = ρ.broadcast ∧
    q ∈ Props.Outgoing.receivers (seat p).site.out (Props.Outgoing.queueOf o.type r)

/-- Specification: the message of the local party `j` of `p` in a round has been handed to the local party `j` of `q` -/
def HandedOver (ρ : Round) (j : String) (p q : P) : Prop :=
  ∃ i b r, Map.get peers i = some p ∧ Produced seat c ρ j p q b r ∧
    ∃ en ∈ (v.ses (c.nodes q).call.loop).log, en.share = ⟨j, i, r.isBroadcast, b⟩ ∧ en.ok = true

/-- Specification: the local parties have done what they can: a party that has been handed the messages of all others of the earlier rounds has
produced its messages of the round, and a member whose parties have been handed the messages of all rounds has delivered its results -/
structure Prompt (rounds : List Round) : Prop where
  round : ∀ q, Member peers q → ∀ j ∈ base.parties, ∀ (k : Nat) (ρ : Round), rounds[k]? = some ρ →
    (∀ k' < k, ∀ ρ' : Round, rounds[k']? = some ρ' → ∀ p, Member peers p → p ≠ q → HandedOver peers v seat c ρ' j p q) →
    ∀ p, Member peers p → p ≠ q → ∃ b r, Produced seat c ρ j q p b r
  result : ∀ q, Member peers q → (∀ j ∈ base.parties, ∀ ρ ∈ rounds, ∀ p, Member peers p → p ≠ q → HandedOver peers v seat c ρ j p q) →
    base.parties.length ≤ (Props.SessionCall.given (c.nodes q).hist).length

/-- Specification: the ceremony has come to rest: no message is on its way, and a loop that is still running has nothing to take -/
structure Resting : Prop where
  pool : c.pool = []
  idle : ∀ q, Member peers q → (seat q).loop.result (c.nodes q).call.loop = none → (c.nodes q).call.outCh = [] ∧ (c.nodes q).call.endCh = []

/-- Specification: a loop that has returned has left no message of its local parties behind -/
def Drained : Prop := ∀ q, Member peers q → (seat q).loop.result (c.nodes q).call.loop ≠ none → (c.nodes q).call.outCh = []

/-- Specification: the ceremony is over, as far as it gets by itself: no member's local parties have delivered more results than there are, the local
parties have done what they can, nothing is on its way or waiting to be taken, and no loop that has returned has left a message of its local parties
behind -/
structure Settled (rounds : List Round) : Prop where
  given : ∀ q, Member peers q → (Props.SessionCall.given (c.nodes q).hist).length ≤ base.parties.length
  prompt : Prompt base peers v seat c rounds
  rest : Resting peers seat c
  drained : Drained peers seat c

end

/-- Specification: nothing disturbs the ceremony in the history `h`: the events at the members are undisturbed, and their local parties produce proper
shares, which those of the others accept -/
structure Undisturbed (enc : Encoders P) (v : View K P σ) (seat : P → Seat K P R σ) (member : P → Bool) (good : P → R → Prop)
    (base : TssCommon.Env K P) (peers : Map Nat P) (h : List (NetEvent P R)) : Prop where
  calm : ∀ E ∈ h, CalmNet member good E
  proper : ProperOuts base peers (fun q => (seat q).site) (made seat (netRun enc v seat member h))
  welcome : WelcomeOuts peers (fun q => (seat q).site) (made seat (netRun enc v seat member h))

end Verif.Ceremony
