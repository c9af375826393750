import Verif.Model.SessNet
import Verif.Spec.Session
import Verif.Spec.Committee
import Verif.Props.C37
import Verif.Model.Threshold

/-!
# A session of several nodes

What is assumed of the nodes of one session and of what their local parties produce.
-/
namespace Verif.Spec
open Verif.Go Verif.Conversion Verif.Messages Verif.Blame Verif.TssCommon Verif.SessNet

variable {K P : Type} [DecidableEq K] [DecidableEq P]

/-- the decoders read what the encoders write -/
structure Lossless (enc : Encoders P) (env : TssCommon.Env K P) : Prop where
  wrap : ∀ t b, env.decWrapped (enc.wrap t b) = some (t, b)
  wire : ∀ w, env.decWire (enc.wire w) = some w
  confirm : ∀ c, env.decConfirm (enc.confirm c) = some c
  control : ∀ c, env.decControl (enc.control c) = some c
  task : ∀ b, env.decTask (enc.task b) = some b
  bulk : ∀ l, env.decBulk (enc.bulk l) = some l

/-- `q` is the peer of a member of the party -/
def Member (peers : Map Nat P) (q : P) : Prop := ∃ i, Map.get peers i = some q

/-- The nodes of one session, seen by its members: they agree on the message id, the party (`ids`, `peers`), the digest, the signature scheme and
the encodings (`base`), each talks to all the others, and a member's signature verifies under its key. -/
structure Setting (enc : Encoders P) (base : TssCommon.Env K P) (ids : Map Nat Party) (peers : Map Nat P) (site : P → Site K P) : Prop where
  env : ∀ q, Member peers q → (site q).env = { base with localPeer := q, p2pPeers := (site q).env.p2pPeers, upd := (site q).env.upd }
  others : ∀ q, Member peers q → ∀ p, p ∈ (site q).env.p2pPeers ↔ Member peers p ∧ p ≠ q
  distinct : ∀ q, Member peers q → (site q).env.p2pPeers.Nodup
  idMap : ∀ q, Member peers q → (site q).mgr.partyIDMap = ids
  peerMap : ∀ q, Member peers q → ∀ i, Map.get (site q).mgr.partyIDtoP2PID i = Map.get peers i
  committee : ∀ q, Member peers q → Committee base.codec (site q).mgr
  fresh : ∀ q, Member peers q → (site q).mgr.acceptedShares = [] ∧ (site q).mgr.storedMsg = []
  outPeers : ∀ q, Member peers q → (site q).out.p2pPeers = (site q).env.p2pPeers ∧ ∀ i, Map.get (site q).out.partyIDtoP2PID i = Map.get peers i
  batches : ∀ q, Member peers q → 1 ≤ (site q).out.msgNum ∧ Function.Injective (site q).out.pstr
  type : ∀ q, Member peers q → (site q).type = TSSKeyGenMsg ∨ (site q).type = TSSKeySignMsg
  sign : ∀ i q p, Map.get peers i = some q → Map.get ids i = some p → ∀ b, base.verify p.key (b ++ base.msgID) ((site q).sign b) = true
  lossless : Lossless enc base
  size : ids.length ≤ 2 ^ 50

/-- What the bulks of the member `i` with peer `q` look like when its local parties work as they should: they name `i` as their sender, hold
shares of `i` for parties running in this session, of a known round; a broadcast has no explicit receivers, there is one broadcast per round,
and nobody is sent two shares for the same party and round. -/
structure GoodBulks (base : TssCommon.Env K P) (i : Nat) (sent : List (OutBatch.Bulk P)) : Prop where
  routing : ∀ b ∈ sent, ∃ r, b.routing = some r ∧ r.sender = some i ∧ (r.isBroadcast = true → r.to_ = [])
  shares : ∀ b ∈ sent, ∀ x ∈ b.shares, x.ident ∈ base.parties ∧ ∃ r ri, x.routing = some r ∧ r.sender = some i ∧
    GetMsgRound base.parse x.wired = some ri
  once : ∀ b ∈ sent, ∀ b' ∈ sent, (∃ r, b.routing = some r ∧ r.isBroadcast = true) → (∃ r, b'.routing = some r ∧ r.isBroadcast = true) →
    b.roundInfo = b'.roundInfo → b = b'
  slots : ∀ b ∈ sent, ∀ b' ∈ sent, ∀ p, p ∈ b.peers → p ∈ b'.peers → ∀ x ∈ b.shares, ∀ x' ∈ b'.shares, x.ident = x'.ident →
    GetMsgRound base.parse x.wired = GetMsgRound base.parse x'.wired → x = x'

/-- the local parties of `q` accept the shares of the bulks sent to `q` by the other members -/
def Accepting (peers : Map Nat P) (site : P → Site K P) (n : Net K P) : Prop :=
  ∀ q p, Member peers q → Member peers p → p ≠ q → ∀ b ∈ (n.nodes p).out.sent, q ∈ b.peers → ∀ x ∈ b.shares, ∀ r i, x.routing = some r →
    r.sender = some i → ∀ log, (site q).env.upd log ⟨x.ident, i, r.isBroadcast, x.wired⟩ = none

/-- every share of every bulk sent to `q` by another member has been handed to the local parties of `q`, who accepted it -/
def Arrived (peers : Map Nat P) (n : Net K P) (q : P) : Prop :=
  ∀ p, Member peers p → p ≠ q → ∀ b ∈ (n.nodes p).out.sent, q ∈ b.peers → ∀ x ∈ b.shares, ∀ r i, x.routing = some r → r.sender = some i →
    ∃ en ∈ (n.nodes q).ses.log, en.share = ⟨x.ident, i, r.isBroadcast, x.wired⟩ ∧ en.ok = true

/-- an event of a session without outsiders; unicast shares of members name a receiver -/
def Sound (peers : Map Nat P) (e : NetEvent P) : Prop :=
  (∀ p q raw sch, e ≠ .foreign p q raw sch) ∧
  ∀ q sch o data r, Member peers q → e = .at_ q (.output sch o) → o.wire = some (data, r) → r.isBroadcast = false → r.to_ ≠ []

/-- nodes outside the party send nothing -/
def Closed (h : List (NetEvent P)) : Prop := ∀ e ∈ h, ∀ p q raw sch, e ≠ .foreign p q raw sch

/-- the outputs of the local parties of `q` in a history -/
def outputsAt (q : P) (h : List (NetEvent P)) : List (OutBatch.Sched × OutBatch.Output) :=
  h.filterMap fun e => match e with
    | .at_ q' (.output sch o) => if q' = q then some (sch, o) else none
    | _ => none

/-- What the local parties of the member `i` produce when they work as they should, and encoding and signing succeed: shares of `i` for parties
running in this session, of a known round; a share is a broadcast or names one receiver; there is at most one share of each type and destination
for each of the `msgNum` parties; and nobody is sent two different shares for the same party and round. -/
structure Proper (base : TssCommon.Env K P) (out : OutBatch.Env P) (i : Nat) (outs : List (OutBatch.Sched × OutBatch.Output)) : Prop where
  regular : ∀ e ∈ outs, Verif.Props.Outgoing.Regular e.2 ∧ ∀ k, e.1.ok k = true
  owner : ∀ e ∈ outs, ∀ b r, e.2.wire = some (b, r) → r.sender = some i ∧ e.2.moniker ∈ base.parties ∧ ∃ ri, GetMsgRound base.parse b = some ri
  batch : ∀ k, ((outs.map Prod.snd).filterMap (Verif.Props.Outgoing.shareIn k)).length ≤ out.msgNum
  slots : ∀ e ∈ outs, ∀ e' ∈ outs, ∀ b r b' r', e.2.wire = some (b, r) → e'.2.wire = some (b', r') → e.2.moniker = e'.2.moniker →
    GetMsgRound base.parse b = GetMsgRound base.parse b' →
    (∃ p, p ∈ Verif.Props.Outgoing.receivers out (Verif.Props.Outgoing.queueOf e.2.type r) ∧
      p ∈ Verif.Props.Outgoing.receivers out (Verif.Props.Outgoing.queueOf e'.2.type r')) → b = b' ∧ r = r'

/-- the local parties of every member accept the shares which the others produce for it -/
def Welcome (peers : Map Nat P) (site : P → Site K P) (h : List (NetEvent P)) : Prop :=
  ∀ i p q, Map.get peers i = some p → Member peers q → p ≠ q → ∀ e ∈ outputsAt p h, ∀ b r, e.2.wire = some (b, r) →
    q ∈ Verif.Props.Outgoing.receivers (site p).out (Verif.Props.Outgoing.queueOf e.2.type r) →
    ∀ log, (site q).env.upd log ⟨e.2.moniker, i, r.isBroadcast, b⟩ = none

/-- the outputs `outs` hold as many shares of the type and destination of this one as fit into one message, so that they are sent -/
def Full (out : OutBatch.Env P) (outs : List (OutBatch.Sched × OutBatch.Output)) (type : String) (r : Routing) : Prop :=
  ((outs.map Prod.snd).filterMap (Verif.Props.Outgoing.shareIn (Verif.Props.Outgoing.queueOf type r))).length = out.msgNum

/-- every share which the local parties of the other members have produced for `q` has been handed to the local parties of `q`, who accepted it;
shares still held back until the message they go into is full excepted -/
def Served (peers : Map Nat P) (site : P → Site K P) (h : List (NetEvent P)) (log : List Entry) (q : P) : Prop :=
  ∀ i p, Map.get peers i = some p → p ≠ q → ∀ e ∈ outputsAt p h, ∀ b r, e.2.wire = some (b, r) →
    q ∈ Verif.Props.Outgoing.receivers (site p).out (Verif.Props.Outgoing.queueOf e.2.type r) →
    Full (site p).out (outputsAt p h) e.2.type r →
    ∃ en ∈ log, en.share = ⟨e.2.moniker, i, r.isBroadcast, b⟩ ∧ en.ok = true

/-- The members `live` keep going: every message from one of them to another has arrived, and there are more of them than the threshold of the
party, which has `size` members. Nothing is said of the other members: they may have stopped at any point, and what they sent may have
arrived or not. -/
structure Going (peers : Map Nat P) (size : Nat) (n : Net K P) (live : List P) : Prop where
  member : ∀ p ∈ live, Member peers p
  nodup : live.Nodup
  arrived : ∀ x ∈ n.pool, ¬ (x.1 ∈ live ∧ x.2.1 ∈ live)
  enough : ∃ t, Verif.Threshold.GetThreshold size = .ok t ∧ t < (live.length : Int)

/-- from state `n` on, nothing happens but that messages on their way reach their receivers -/
def Deliveries (enc : Encoders P) (site : P → Site K P) (honest : P → Bool) : Net K P → List (NetEvent P) → Prop
  | _, [] => True
  | n, e :: es => (∃ i sch, e = .deliver i sch ∧ i < n.pool.length) ∧ Deliveries enc site honest (netStep enc site honest n e) es

end Verif.Spec
