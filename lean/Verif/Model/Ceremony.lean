import Verif.Model.SessNet
import Verif.Model.SessionCall

/-!
# A ceremony: the calls of several nodes in one session

`Verif.SessionCall` models one call of `GenerateNewKey` or `SignMessage` with its goroutines and channels; `Verif.SessNet` connects the
message processing of several nodes. Here whole calls are connected: what the loop or the processing of messages of one node sends reaches
the processing of messages of another, as long as its goroutine runs.

The network and the messages are those of `Verif.SessNet`; all nodes follow the code. Messages to a node whose goroutine for inbound messages
has ended are lost (common/tss.go:843-850; the subscriptions are cancelled at the end of the call, tss/keygen.go:40-45, tss/keysign.go:214-219).
-/
namespace Verif.Ceremony
open Verif.Go Verif.Messages Verif.TssCommon Verif.SessNet Verif.SessionCall

/-- the parts of the state of a loop that the network sees: the session (common/tss.go:33-53), the batches of outputs, and whether the other
members have been told that the task is done (common/tss_helper.go:221-240 `NotifyTaskDone`) -/
structure View (K P σ : Type) where
  ses : σ → TssCommon.St K P
  out : σ → OutBatch.St P
  notified : σ → Bool

/-- one node: what it knows, the loop it runs, the capacities of its channels, and the state in which the loop starts -/
structure Seat (K P R σ : Type) where
  site : Site K P
  loop : Loop P R σ
  caps : Caps
  start : σ

/-- keygen/tss_keygen.go:145-238 -/
def genView {P Pt : Type} : View Server.Str P (Keygen.GenSt P Pt) := ⟨Keygen.GenSt.ses, Keygen.GenSt.out, Keygen.GenSt.notified⟩

/-- keysign/tss_keysign.go:180-277 -/
def signView {K P : Type} : View K P (Session.SignSt K P) := ⟨Session.SignSt.ses, Session.SignSt.out, Session.SignSt.notified⟩

/-- keygen/tss_keygen.go:87-143: a node that generates a key; `mgr` and `lenv` come from the set-up, `sign` is its signing function -/
def genSeat {P S H L Pt A Q : Type} [DecidableEq P] [LinearOrder S] [LinearOrder H] (env : Keygen.KEnv P S H L Pt A Q)
    (lenv : Session.LoopEnv Server.Str P) (mgr : Blame.Manager Server.Str P) (sign : Bytes → Bytes) (keys : List Server.Str) (disk : Storage.Disk) :
    Seat Server.Str P (Keygen.End L A Q) (Keygen.GenSt P Pt) where
  site := ⟨lenv.ses, lenv.out, mgr, TSSKeyGenMsg, sign⟩
  loop := genLoop env lenv keys
  caps := genCaps keys.length
  start := Keygen.genInit (newTssCommon mgr) disk

/-- keysign/tss_keysign.go:99-178: a node that signs `k` messages among `n` members -/
def signSeat {K P : Type} [DecidableEq K] [DecidableEq P] (lenv : Session.LoopEnv K P) (mgr : Blame.Manager K P) (sign : Bytes → Bytes) (n k : Nat) :
    Seat K P Session.Sig (Session.SignSt K P) where
  site := ⟨lenv.ses, lenv.out, mgr, TSSKeySignMsg, sign⟩
  loop := signLoop lenv k
  caps := signCaps n k
  start := Session.signInit (newTssCommon mgr)

/-- a call, and as a ghost record what happened to it -/
structure Node (P R σ : Type) where
  call : SessionCall.St R σ
  hist : List (SessionCall.Event P R)

variable {K P R σ : Type} [DecidableEq K] [DecidableEq P]

/-- what the step of a loop from `l` to `l'` puts on the network: common/tss.go:679-699 and common/tss_helper.go:257-270 (confirmations, requests
and answers), common/tss.go:446-499 (bulks), common/tss_helper.go:221-240 (the task is done) -/
def emitted (enc : Encoders P) (v : View K P σ) (site : Site K P) (l l' : σ) : List (P × P × Bytes) :=
  ((v.ses l').sent.drop (v.ses l).sent.length).flatMap (renderSent enc site) ++
  ((v.out l').sent.drop (v.out l).sent.length).flatMap (renderBulk enc site) ++
  if v.notified l' && !v.notified l then toPeers site.env.localPeer (enc.wrap TSSTaskDone (enc.task true)) site.env.p2pPeers else []

/-- an event of a call, and what it puts on the network -/
def happen (enc : Encoders P) (v : View K P σ) (seat : Seat K P R σ) (n : Node P R σ) (e : SessionCall.Event P R) :
    Node P R σ × List (P × P × Bytes) :=
  let call := SessionCall.step seat.loop seat.caps n.call e
  (⟨call, n.hist ++ [e]⟩, emitted enc v seat.site n.call.loop call.loop)

/-- the calls and the messages on their way: sender, receiver, bytes -/
structure Net (P R σ : Type) where
  nodes : P → Node P R σ
  pool : List (P × P × Bytes)

/-- events: something happens at a node that is not the arrival of a message; the message at position `i` of the network arrives -/
inductive NetEvent (P R : Type)
  | at_ (q : P) (e : SessionCall.Event P R)
  | deliver (i : Nat) (sch : TssCommon.Sched P)

/-- is this something else than the arrival of a message? -/
def own : SessionCall.Event P R → Bool
  | .message (.msg ..) => false
  | _ => true

/-- change of the state of one node -/
def Net.update (n : Net P R σ) (q : P) (s : Node P R σ) : P → Node P R σ := fun x => if x = q then s else n.nodes x

/-- one event; `member` tells who takes part. Messages to others leave the network. -/
def netStep (enc : Encoders P) (v : View K P σ) (seat : P → Seat K P R σ) (member : P → Bool) (n : Net P R σ) : NetEvent P R → Net P R σ
  | .at_ q e =>
    if member q && own e then
      let (s, out) := happen enc v (seat q) (n.nodes q) e
      ⟨n.update q s, n.pool ++ out⟩
    else n
  | .deliver i sch =>
    match n.pool[i]? with
    | none => n
    | some (p, q, raw) =>
      if member q then
        let (s, out) := happen enc v (seat q) (n.nodes q) (.message (.msg raw p sch))
        ⟨n.update q s, n.pool.eraseIdx i ++ out⟩
      else { n with pool := n.pool.eraseIdx i }

/-- a history of the ceremony -/
def netRun (enc : Encoders P) (v : View K P σ) (seat : P → Seat K P R σ) (member : P → Bool) (h : List (NetEvent P R)) : Net P R σ :=
  h.foldl (netStep enc v seat member) ⟨fun q => ⟨SessionCall.init (seat q).start, []⟩, []⟩

end Verif.Ceremony
