import Verif.Model.Subscribers

/-!
# The calls of a node and their subscriptions (tss/keygen.go:13-50, tss/keysign.go:185-223)

Any number of Keygen and KeySign calls run at the same time; every goroutine moves one action at a time, and which one moves is the choice of the
environment. Only what a call does to the subscriptions of the node, and when it announces itself to its peers, is modelled.
-/
namespace Verif.Calls
open Verif.Go Verif.Subscribers

/-- what a call does, in this respect: `SetSubscribe`, the start of `joinParty`, `CancelSubscribe` -/
inductive Act
  | sub (t : Topic)
  | announce
  | cancel (t : Topic)
  deriving DecidableEq, Repr

/-- the actions after the deferred function is registered and the party is joined: tss/keygen.go:40-44, tss/keysign.go:214-218 -/
def cleanUp (k : Session) : List Act := (deferredCancels k).map .cancel

/-- tss/keygen.go:35-53, tss/keysign.go:209-223, 298-301 (`generateSignature` starts with `joinParty`, tss/keysign.go:78) -/
def program (k : Session) : List Act := (sessionTopics k).map .sub ++ .announce :: cleanUp k

/-- a running call: its kind, message id, channel, and the actions it has still to do -/
structure Call (C : Type) where
  kind : Session
  id : String
  chan : C
  todo : List Act

/-- the calls of the node, finished ones included, and its subscriptions -/
structure Node (C : Type) where
  subs : State C := []
  calls : List (Call C) := []

/-- events: a call begins; call `i` does its next action; call `i` returns before it announces itself (e.g. the share cannot be read) -/
inductive Event (C : Type)
  | start (k : Session) (id : String) (ch : C)
  | act (i : Nat)
  | leave (i : Nat)

variable {C : Type}

/-- does a Keygen call hold the lock `tssKeyGenLocker`? (tss/keygen.go:14-15; it is released after the deferred function) -/
def locked (n : Node C) : Bool := n.calls.any fun c => decide (c.kind = .keygen) && !c.todo.isEmpty

/-- one action on the subscriptions -/
def doAct (subs : State C) (c : Call C) : Act → State C
  | .sub t => setSubscribe subs t c.id c.chan
  | .announce => subs
  | .cancel t => cancelSubscribe subs t c.id

/-- one event; an event that is not possible changes nothing. A Keygen call waits for the lock before it does anything. -/
def step (n : Node C) : Event C → Node C
  | .start k id ch => if k = .keygen ∧ locked n then n else { n with calls := n.calls ++ [⟨k, id, ch, program k⟩] }
  | .act i =>
    match n.calls[i]? with
    | some c =>
      match c.todo with
      | a :: rest => { subs := doAct n.subs c a, calls := n.calls.set i { c with todo := rest } }
      | [] => n
    | none => n
  | .leave i =>
    match n.calls[i]? with
    | some c =>
      match c.todo with
      | .announce :: rest => { n with calls := n.calls.set i { c with todo := rest } }
      | _ => n
    | none => n

/-- a run of the node -/
def run (h : List (Event C)) : Node C := h.foldl step {}

end Verif.Calls
