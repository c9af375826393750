import Verif.Model.TssCommon
import Verif.Model.OutBatch
import Verif.Model.GoSort

/-!
# The loops of key generation and signing (keygen/tss_keygen.go, keysign/tss_keysign.go)

A run of a loop is a machine: its events are the cases of the `select` and, between them, the processing of inbound messages by the
goroutine `ProcessInboundMessages` (`Verif.TssCommon`). Which case of the `select` happens is the choice of the environment. The
blame computation after a timeout is one step (in the code, inbound messages may still be processed between its parts).
tss-lib is a parameter: the messages and results of the local parties are data of the events.
-/
namespace Verif.Session
open Verif.Go Verif.Conversion Verif.Messages Verif.Blame Verif.TssCommon Verif.Threshold

variable {K P : Type} [DecidableEq K] [DecidableEq P]

/-! ## Blame after a timeout -/

/-- the visiting orders of the maps ranged over in the blame computation -/
structure BlameSched (P : Type) where
  u₀ : Shuffle P
  u₁ : Shuffle (Nat × P)
  u₂ : Shuffle (Nat × P)
  b₁ : Shuffle (String × WireMessage)
  b₂ : Shuffle Nat
  s₁ : Shuffle (RoundInfo × List Nat)
  s₂ : Shuffle (String × List (List Nat))
  s : Nat → Shuffle (Nat × P)

/-- conversion/conversion.go:138-143 `GetPreviousKeySignUicast`. -/
def GetPreviousKeySignUicast (current : String) : String :=
  if KEYSIGN1b.toList.isSuffixOf current.toList then KEYSIGN1aUnicast else KEYSIGN2Unicast

/-- keygen/tss_keygen.go:158-162, keysign/tss_keysign.go:199-203: the reason reported. -/
def timeoutReason (m : Manager K P) : String := if m.blame.failReason = "" then TssTimeout else m.blame.failReason

/-- keygen/tss_keygen.go:167-180, keysign/tss_keysign.go:211-228: the blame of peers that sent no unicast share of type `type`. -/
def unicastPart (c : Codec K P) (sch : BlameSched P) (reason type : String) (threshold : Int) (m : Manager K P) : Res (Manager K P) :=
  match m.getUnicastBlame c sch.u₀ sch.u₁ sch.u₂ type with
  | .ok nodes =>
    if nodes.length > 0 ∧ (nodes.length : Int) ≤ threshold then .ok { m with blame := m.blame.setBlame reason nodes true } else .ok m
  | .err _ => .ok m
  | .panic => .panic

/-- keygen/tss_keygen.go:181-185, keysign/tss_keysign.go:230-234: the blame of peers that sent no broadcast of type `type`. -/
def broadcastPart (c : Codec K P) (sch : BlameSched P) (type : String) (m : Manager K P) : Res (Manager K P) :=
  match m.getBroadcastBlame c sch.b₁ sch.b₂ type with
  | .ok nodes => .ok { m with blame := m.blame.addBlameNodes nodes }
  | .err _ => .ok m
  | .panic => .panic

/-- keygen/tss_keygen.go:187-197, keysign/tss_keysign.go:236-247: if nobody is blamed yet, the blame of peers with a missing share. -/
def missingPart (c : Codec K P) (sch : BlameSched P) (rounds : Nat) (threshold : Int) (m : Manager K P) : Res (Manager K P) :=
  if m.blame.nodes.length = 0 then
    match m.tssMissingShareBlame c rounds sch.s₁ sch.s₂ sch.s with
    | .ok (nodes, isUnicast) =>
      if nodes.length > 0 ∧ (nodes.length : Int) ≤ threshold then
        .ok { m with blame := { m.blame.addBlameNodes nodes with isUnicast } }
      else .ok m
    | .err _ => .ok m
    | .panic => .panic
  else .ok m

/-- The threshold used for blaming: `GetThreshold(len(P2PPeers) + 1)`; an error leaves 0. -/
def blameThreshold (npeers : Nat) : Int :=
  match GetThreshold ((npeers : Int) + 1) with
  | .ok t => t
  | _ => 0

/-- The three parts after one another. `unicastType` is the round asked for unicast shares, `lastType` the type of the last message the
local party produced. -/
def timeoutBlame (c : Codec K P) (sch : BlameSched P) (unicastType lastType : String) (rounds npeers : Nat) (m : Manager K P) :
    Res (Manager K P) :=
  (unicastPart c sch (timeoutReason m) unicastType (blameThreshold npeers) m).bind fun m =>
  (broadcastPart c sch lastType m).bind fun m =>
  missingPart c sch rounds (blameThreshold npeers) m

/-- keysign/tss_keysign.go:194-249 the timeout of signing. Without a last message a nil interface is dereferenced. -/
def keysignTimeout (c : Codec K P) (sch : BlameSched P) (npeers : Nat) (m : Manager K P) : Res (Manager K P) :=
  match m.lastMsg with
  | none => .panic
  | some (type, isBroadcast) =>
    timeoutBlame c sch (if isBroadcast then GetPreviousKeySignUicast type else type) type TSSKEYSIGNROUNDS npeers m

/-- keygen/tss_keygen.go:155-198 the timeout of key generation. Without a last message nobody is blamed. -/
def keygenTimeout (c : Codec K P) (sch : BlameSched P) (npeers : Nat) (m : Manager K P) : Res (Manager K P) :=
  match m.lastMsg with
  | none => .ok m
  | some (type, _) => timeoutBlame c sch KEYGEN2aUnicast type TSSKEYGENROUNDS npeers m

/-! ## The loops -/

/-- The fields of tss-lib's `ECSignature` that are read: `Signature` (`none` for nil), `SignatureRecovery`, `R`, `S`, `M`. -/
structure Sig where
  signature : Option Bytes
  recovery : Bytes
  r : Bytes
  s : Bytes
  m : Bytes
  deriving DecidableEq, Repr

/-- the errors of the two loops -/
inductive LoopErr
  | start      -- "error channel closed fail to start local party"
  | exit       -- "received exit signal"
  | noMessage  -- "timeout before shared message is generated"
  | timeout    -- blame.ErrTssTimeOut
  | out        -- ProcessOutCh failed
  | pubkey     -- "fail to get thorchain pubkey"
  | save       -- "fail to save keygen result to storage"
  deriving DecidableEq, Repr

/-- the events of a loop; `R` is what a local party delivers at its end -/
inductive LoopEvent (P R : Type)
  | startFailed
  | stop
  | timeout (sch : BlameSched P)
  | out (sch : OutBatch.Sched) (o : OutBatch.Output)
  | done (r : R)
  | inbound (e : TssCommon.Event P)

/-- what does not change during a loop: the environments of the inbound and the outbound side -/
structure LoopEnv (K P : Type) where
  ses : TssCommon.Env K P
  out : OutBatch.Env P
  /-- broadcast flag and type of an output: `msg.Type()` is `Output.type`; `IsBroadcast` -/
  isBroadcast : OutBatch.Output → Bool

/-- blame/manager.go:82-86 `SetLastMsg` -/
def setLastMsg (env : LoopEnv K P) (o : OutBatch.Output) (m : Manager K P) : Manager K P :=
  { m with lastMsg := some (o.type, env.isBroadcast o) }

/-- State of the signing loop. `result` is set when the loop has returned; `notified` tells that the peers were told that the task is
done; `crashed` that a panic ended the program. -/
structure SignSt (K P : Type) where
  ses : TssCommon.St K P
  out : OutBatch.St P
  sigs : List Sig
  notified : Bool
  result : Option (Except LoopErr (List Sig))
  crashed : Bool

/-- keysign/tss_keysign.go:180-277 one event of `processKeySign`; after its return only inbound messages go on. `reqNum` is the number
of messages to sign. (The failure to save the address book is only logged.) -/
def signStep (env : LoopEnv K P) (reqNum : Nat) (s : SignSt K P) (e : LoopEvent P Sig) : SignSt K P :=
  if s.crashed then s
  else match e with
  | .inbound e =>
    let ses := TssCommon.step env.ses s.ses e
    { s with ses, crashed := ses.crashed }
  | _ =>
    if s.result.isSome then s
    else match e with
    | .startFailed => { s with result := some (.error .start) }
    | .stop => { s with result := some (.error .exit) }
    | .timeout sch =>
      match keysignTimeout env.ses.codec sch env.out.p2pPeers.length s.ses.mgr with
      | .ok mgr => { s with ses := { s.ses with mgr }, result := some (.error .timeout) }
      | _ => { s with crashed := true }
    | .out sch o =>
      let ses := { s.ses with mgr := setLastMsg env o s.ses.mgr }
      let (out, r) := OutBatch.ProcessOutCh env.out sch o TSSKeySignMsg s.out
      match r with
      | .ok _ => { s with ses, out }
      | .err _ => { s with ses, out, result := some (.error .out) }
      | .panic => { s with ses, out, crashed := true }
    | .done sig =>
      let sigs := s.sigs ++ [sig]
      if sigs.length = reqNum then { s with sigs, notified := true, result := some (.ok sigs) } else { s with sigs }
    | .inbound _ => s

/-- the start of the signing loop -/
def signInit (ses : TssCommon.St K P) : SignSt K P := ⟨ses, OutBatch.init, [], false, none, false⟩

/-- a run of the signing loop -/
def signRun (env : LoopEnv K P) (reqNum : Nat) (ses : TssCommon.St K P) (h : List (LoopEvent P Sig)) : SignSt K P :=
  h.foldl (signStep env reqNum) (signInit ses)

/-- keysign/tss_keysign.go:166-174: the final sort, by the number `M` -/
def sortResults (l : List Sig) : List Sig :=
  GoSort.sliceStable (fun a b => !decide (Bytes.toNat a.m < Bytes.toNat b.m)) l

/-- tss/keysign.go:238-251: the order of the messages, by their hash number -/
def sortMessages (l : List Bytes) : List Bytes :=
  GoSort.sliceStable (fun a b => !decide (hashToInt a secp256k1N < hashToInt b secp256k1N)) l

/-- keysign/response.go:9-14 `Signature` before base64 encoding (which is injective). -/
structure Signature where
  msg : Bytes
  r : Bytes
  s : Bytes
  recoveryID : Bytes
  deriving DecidableEq, Repr

/-- tss/keysign.go:335-346, the loop of `batchSignatures`; `none` is the panic of an index outside of the messages. -/
def batchLoop : List Sig → List Bytes → Option (List Signature)
  | [], _ => some []
  | _ :: _, [] => none
  | sig :: sigs, m :: ms => (batchLoop sigs ms).map fun l => ⟨m, sig.r, sig.s, sig.recovery⟩ :: l

end Verif.Session
