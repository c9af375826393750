import Verif.Model.Session

/-!
# keysign/notifier.go and keysign/signature_notifier.go

Decoding (protobuf) and ECDSA verification are parameters. All handlers and registrations take the same lock, so each of them is one
event. A wait (`WaitForSignature`) is registered by one event, decides in its `select` by another and is removed by a third (the deferred
`removeNotifier`); notifications may come in between.
-/
namespace Verif.SigNotifier
open Verif.Go Verif.Session

/-- keysign/notifier.go:15-20 `Notifier`; `resp` is the content of the channel of capacity 1. -/
structure Notifier where
  messageID : String
  messages : List Bytes
  poolPubKey : String
  resp : List (List Sig)
  deriving DecidableEq, Repr

/-- keysign/notifier.go:23-39 `NewNotifier`. -/
def NewNotifier (messageID : String) (messages : List Bytes) (poolPubKey : String) : Res Notifier :=
  if messageID.length = 0 then .err "messageID is empty"
  else if messages.length = 0 then .err "messages are nil"
  else if poolPubKey.length = 0 then .err "pool pubkey is empty"
  else .ok ⟨messageID, messages, poolPubKey, []⟩

/-- messages/signature_notifier.proto: the message `KeysignSignature`; `success` is `KeysignStatus == Success`. -/
structure KeysignSignature where
  id : String
  signatures : List Bytes
  success : Bool
  deriving DecidableEq, Repr

/-- the parts outside of the package -/
structure Env where
  /-- keysign/notifier.go:45-56 `verifySignature` of the pool key, the message and the numbers r and s; `none` is an error (the pool key
  cannot be parsed) -/
  verify : String → Bytes → Nat → Nat → Option Bool
  /-- `proto.Unmarshal` of a payload read from a stream -/
  decMsg : Bytes → Option KeysignSignature
  /-- `proto.Unmarshal` of one signature -/
  decSig : Bytes → Option Sig

/-- what `ProcessSignature` does with the channel: blocks if it is full -/
inductive Outcome
  | finished | unfinished | failed | panic | blocked
  deriving DecidableEq, Repr

/-- keysign/notifier.go:66-78 the loop of `ProcessSignature`: `none` is the panic of an index outside of the messages, `some false` an
error. -/
def verifyLoop (env : Env) (key : String) : List Sig → List Bytes → Option Bool
  | [], _ => some true
  | _ :: _, [] => none
  | sig :: sigs, m :: ms =>
    if sig.signature.isSome then
      match env.verify key m (Bytes.toNat sig.r) (Bytes.toNat sig.s) with
      | some true => verifyLoop env key sigs ms
      | _ => some false
    else some false

/-- keysign/notifier.go:61-83 `ProcessSignature`. -/
def ProcessSignature (env : Env) (n : Notifier) (data : List Sig) : Notifier × Outcome :=
  if data.length = 0 then (n, .unfinished)
  else match verifyLoop env n.poolPubKey data n.messages with
    | none => (n, .panic)
    | some false => (n, .failed)
    | some true => if n.resp.length < 1 then ({ n with resp := n.resp ++ [data] }, .finished) else (n, .blocked)

/-- keysign/signature_notifier.go:77-86: the signatures of a notification; `none` if one of them cannot be decoded. -/
def decodeSigs (env : Env) (m : KeysignSignature) : Option (List Sig) :=
  if m.signatures.length > 0 ∧ m.success = true then m.signatures.mapM env.decSig else some []

/-- `proto.Marshal` of a notification and of a signature -/
structure Enc where
  encMsg : KeysignSignature → Option Bytes
  encSig : Sig → Option Bytes

/-- keysign/signature_notifier.go:117-137: what `sendOneMsgToPeer` writes to the stream; `none` is an error of the encoding. `[]` stands for
the nil slice: a notification of failure. -/
def noticeBytes (enc : Enc) (id : String) (data : List Sig) : Option Bytes :=
  if data = [] then enc.encMsg ⟨id, [], false⟩
  else (data.mapM enc.encSig).bind fun l => enc.encMsg ⟨id, l, true⟩

/-- keysign/signature_notifier.go:151-184 `broadcastCommon`, used by `BroadcastSignature` and (with nil) by `BroadcastFailed`: the bytes
written, if the streams can be opened, and to whom. -/
def broadcastCommon {P : Type} [DecidableEq P] (enc : Enc) (me : P) (id : String) (data : List Sig) (peers : List P) : List (P × Bytes) :=
  peers.filterMap fun p => if p = me then none else (noticeBytes enc id data).map fun b => (p, b)

/-- how a wait ended: keysign/signature_notifier.go:207-214 -/
inductive WaitErr
  | create    -- "fail to create notifier"
  | timeout
  | generated -- p2p.ErrSigGenerated
  deriving DecidableEq, Repr

/-- the phases of a wait -/
inductive Phase
  | waiting
  | decided (r : Except WaitErr (List Sig))  -- the select has ended, the deferred removal not yet
  | ended (r : Except WaitErr (List Sig))

/-- The state: `table` is the field `notifiers`, which maps message ids to (numbers of) notifiers; `waits` are all waits ever started, in
order, with their notifier objects. -/
structure St where
  table : Map String Nat
  waits : List (Notifier × Phase)
  crashed : Bool
  blocked : Bool

def init : St := ⟨[], [], false, false⟩

/-- events -/
inductive Event
  | wait (id : String) (messages : List Bytes) (poolPubKey : String)
  | notify (payload : Bytes)
  | receive (w : Nat)   -- the select of wait `w` takes the response
  | timeout (w : Nat)
  | cancel (w : Nat)    -- the select of wait `w` takes from sigChan
  | remove (w : Nat)    -- the deferred removal of wait `w`
  deriving DecidableEq

/-- keysign/signature_notifier.go:87-103, with the lock held. -/
def deliver (env : Env) (s : St) (id : String) (data : List Sig) : St :=
  match Map.get s.table id with
  | none => s
  | some w =>
    match s.waits[w]? with
    | none => s
    | some (n, ph) =>
      match ProcessSignature env n data with
      | (n', .finished) => { s with waits := s.waits.set w (n', ph), table := Map.del s.table id }
      | (_, .panic) => { s with crashed := true }
      | (_, .blocked) => { s with blocked := true }
      | _ => s

/-- one event; an event that is not possible changes nothing -/
def step (env : Env) (s : St) (e : Event) : St :=
  if s.crashed ∨ s.blocked then s
  else match e with
  -- keysign/signature_notifier.go:199-205
  | .wait id messages key =>
    match NewNotifier id messages key with
    | .ok n => { s with table := Map.set s.table id s.waits.length, waits := s.waits ++ [(n, .waiting)] }
    | _ => { s with waits := s.waits ++ [(⟨id, messages, key, []⟩, .ended (.error .create))] }
  -- keysign/signature_notifier.go:56-104
  | .notify payload =>
    match env.decMsg payload with
    | none => s
    | some m =>
      match decodeSigs env m with
      | none => s
      | some data => deliver env s m.id data
  -- keysign/signature_notifier.go:207-214
  | .receive w =>
    match s.waits[w]? with
    | some (n, .waiting) =>
      match n.resp with
      | d :: rest => { s with waits := s.waits.set w ({ n with resp := rest }, .decided (.ok d)) }
      | [] => s
    | _ => s
  | .timeout w =>
    match s.waits[w]? with
    | some (n, .waiting) => { s with waits := s.waits.set w (n, .decided (.error .timeout)) }
    | _ => s
  | .cancel w =>
    match s.waits[w]? with
    | some (n, .waiting) => { s with waits := s.waits.set w (n, .decided (.error .generated)) }
    | _ => s
  -- keysign/signature_notifier.go:192-196, 205
  | .remove w =>
    match s.waits[w]? with
    | some (n, .decided r) => { s with table := Map.del s.table n.messageID, waits := s.waits.set w (n, .ended r) }
    | _ => s

/-- a history -/
def run (env : Env) (h : List Event) : St := h.foldl (step env) init

/-- the result of wait `w` -/
def St.result (s : St) (w : Nat) : Option (Except WaitErr (List Sig)) :=
  match s.waits[w]? with
  | some (_, .decided r) => some r
  | some (_, .ended r) => some r
  | _ => none

end Verif.SigNotifier
