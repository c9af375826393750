import Verif.Model.TssCommon

/-!
# What the events of a session say

Readings of an event of a session, in terms of the bytes received and the peer they came from.
-/
namespace Verif.Spec
open Verif.Go Verif.Conversion Verif.Messages Verif.Blame Verif.TssCommon Verif.Threshold

variable {K P : Type}

/-- the event delivers wire message `w`, directly or as the answer to a request for a missing share -/
def Carries (env : Env K P) (e : Event P) (w : WireMessage) : Prop :=
  ∃ raw peer sch t pl, e = .msg raw peer sch ∧ env.decWrapped raw = some (t, pl) ∧
    (((t = TSSKeyGenMsg ∨ t = TSSKeySignMsg) ∧ env.decWire pl = some w) ∨
     (t = TSSControlMsg ∧ ∃ c, env.decControl pl = some c ∧ c.msg = some w))

/-- the event delivers wire message `w` directly, in a message of type `t` -/
def Delivers (env : Env K P) (e : Event P) (t : MsgType) (w : WireMessage) : Prop :=
  ∃ raw peer sch pl, e = .msg raw peer sch ∧ env.decWrapped raw = some (t, pl) ∧ (t = TSSKeyGenMsg ∨ t = TSSKeySignMsg) ∧
    env.decWire pl = some w

/-- the event is a request of `peer` for a share -/
def Requests (env : Env K P) (e : Event P) (peer : P) (c : Control) : Prop :=
  ∃ raw sch pl, e = .msg raw peer sch ∧ env.decWrapped raw = some (TSSControlMsg, pl) ∧ env.decControl pl = some c ∧ c.msg = none

/-- the event is an answer to a request for a share: the answer `c` carries a wire message -/
def Answers (env : Env K P) (e : Event P) (c : Control) : Prop :=
  ∃ raw peer sch pl w, e = .msg raw peer sch ∧ env.decWrapped raw = some (TSSControlMsg, pl) ∧ env.decControl pl = some c ∧ c.msg = some w

/-- the event is an answer that names a message type no request ever names -/
def OddAnswer (env : Env K P) (e : Event P) : Prop :=
  ∃ c, Answers env e c ∧ c.requestType ∉ [TSSKeyGenMsg, TSSKeySignMsg, TSSKeyGenVerMsg, TSSKeySignVerMsg]

/-- the event is a confirmation by `peer`, the peer at the other end of the stream, whoever is named in the message: "for `key` I
received something with digest `d`" -/
def Confirms (env : Env K P) (e : Event P) (peer : P) (key d : String) : Prop :=
  ∃ raw sch t pl, e = .msg raw peer sch ∧ env.decWrapped raw = some (t, pl) ∧
    (t = TSSKeyGenVerMsg ∨ t = TSSKeySignVerMsg) ∧ ∃ b, env.decConfirm pl = some b ∧ b.key = key ∧ b.hash = d

/-- the event is a task-done report of `peer` -/
def ReportsDone (env : Env K P) (e : Event P) (peer : P) : Prop :=
  ∃ raw sch pl, e = .msg raw peer sch ∧ env.decWrapped raw = some (TSSTaskDone, pl) ∧ env.decTask pl = some true

/-- payload and session id of `w` verify under the key of the committee member named as its sender -/
def Signed (env : Env K P) (committee : Map Nat Party) (w : WireMessage) : Prop :=
  ∃ i p, w.sender = some i ∧ Map.get committee i = some p ∧ env.verify p.key (w.message ++ env.msgID) w.sig = true

/-- the digest `d` has been reported for `key` by `p`: `p` confirmed it, or `p` is the local node and received it -/
def Voted (env : Env K P) (committee : Map Nat Party) (h : List (Event P)) (p : P) (key d : String) : Prop :=
  (∃ e ∈ h, Confirms env e p key d) ∨
  (p = env.localPeer ∧ ∃ e ∈ h, ∃ w i, Carries env e w ∧ Signed env committee w ∧ w.sender = some i ∧
    w.isBroadcast = true ∧ key = cacheKey i w.roundInfo ∧ d = env.hash w.message)

/-- the shares carried by wire message `w`: share `sh` of round `round` is one of them, for a party running in this session and
naming a committee member -/
def Contains (env : Env K P) (committee : Map Nat Party) (w : WireMessage) (sh : Share) (round : RoundInfo) : Prop :=
  ∃ bulk m r ri, env.decBulk w.message = some bulk ∧ m ∈ bulk ∧ m.ident = sh.ident ∧ m.ident ∈ env.parties ∧ m.wired = sh.bytes ∧
    m.routing = some r ∧ r.sender = some sh.from_ ∧ r.isBroadcast = sh.isBroadcast ∧ sh.from_ ∈ Map.keys committee ∧
    GetMsgRound env.parse m.wired = some ri ∧ round = { ri with msgIdentifier := m.ident }

/-- `w` has won a vote: there are votes of at least `threshold` different peers, the owner of `w` not among them, each backed by
what was received in `h`; the digest of `w` has at least `threshold - 1` of them and no digest has more. -/
def Quorum (env : Env K P) (m : Manager K P) (h : List (Event P)) (w : WireMessage) : Prop :=
  ∃ (votes : List (P × String)) (owner : Nat) (ownerPeer : P) (t : Int), (votes.map Prod.fst).Nodup ∧
    w.sender = some owner ∧ Map.get m.partyIDtoP2PID owner = some ownerPeer ∧ ownerPeer ∉ votes.map Prod.fst ∧
    GetThreshold m.partyIDMap.length = .ok t ∧ t ≤ (votes.length : Int) ∧
    (∀ p d, (p, d) ∈ votes → Voted env m.partyIDMap h p (cacheKey owner w.roundInfo) d) ∧
    t - 1 ≤ ((votes.map Prod.snd).count (env.hash w.message) : Nat) ∧
    ∀ d, (votes.map Prod.snd).count d ≤ (votes.map Prod.snd).count (env.hash w.message)

end Verif.Spec
