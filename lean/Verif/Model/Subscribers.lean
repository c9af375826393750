import Verif.Model.Go

/-! # p2p/communication.go and p2p/message_id_subscriber.go: routing of wrapped messages to sessions -/
namespace Verif.Subscribers
open Verif.Go

/-- messages/p2p_message.go:11-27 the message types. -/
inductive Topic where
  | keyGenMsg | keySignMsg | keyGenVerMsg | keySignVerMsg | controlMsg | taskDone | unknown
  deriving DecidableEq, Repr

/-- `Communication.subscribers`: per topic a MessageIDSubscriber (message id to channel).  Channels are named by `C`. -/
abbrev State (C : Type) := Map Topic (Map String C)

variable {C : Type}

/-- p2p/communication.go:379-389 `SetSubscribe` with p2p/message_id_subscriber.go:20-24 `Subscribe`. -/
def setSubscribe (st : State C) (topic : Topic) (msgID : String) (ch : C) : State C :=
  let ms := (Map.get st topic).getD []
  Map.set st topic (Map.set ms msgID ch)

/-- p2p/communication.go:391-400 `getSubscriber` with p2p/message_id_subscriber.go:34-42; `none` is the nil channel. -/
def getSubscriber (st : State C) (topic : Topic) (msgID : String) : Option C :=
  match Map.get st topic with
  | none => none
  | some ms => Map.get ms msgID

/-- p2p/communication.go:402-418 `CancelSubscribe` with p2p/message_id_subscriber.go:27-31 and 45-49. (The stored
MessageIDSubscriber is never nil.) -/
def cancelSubscribe (st : State C) (topic : Topic) (msgID : String) : State C :=
  match Map.get st topic with
  | none => st
  | some ms =>
    let ms' := Map.del ms msgID
    if ms'.length = 0 then Map.del st topic else Map.set st topic ms'

/-- One call of the API. -/
inductive Op (C : Type) where
  | sub (topic : Topic) (msgID : String) (ch : C)
  | cancel (topic : Topic) (msgID : String)

def step (st : State C) : Op C → State C
  | .sub t m c => setSubscribe st t m c
  | .cancel t m => cancelSubscribe st t m

def run (h : List (Op C)) : State C := h.foldl step []

/-- Kinds of sessions. -/
inductive Session where
  | keygen
  | keysign
  deriving DecidableEq, Repr

/-- The topics a session subscribes to: tss/keygen.go:35-38 and tss/keysign.go:209-212. -/
def sessionTopics : Session → List Topic
  | .keygen => [.keyGenMsg, .keyGenVerMsg, .controlMsg, .taskDone]
  | .keysign => [.keySignMsg, .keySignVerMsg, .controlMsg, .taskDone]

/-- The topics cancelled by the session's deferred function: tss/keygen.go:40-44 and tss/keysign.go:214-218. -/
def deferredCancels : Session → List Topic
  | .keygen => [.keyGenMsg, .keyGenVerMsg, .controlMsg, .taskDone]
  | .keysign => [.keySignMsg, .keySignVerMsg, .controlMsg, .taskDone]

/-- The subscription effects of a session's start: tss/keygen.go:35-38, tss/keysign.go:209-212. -/
def startOps (k : Session) (msgID : String) (ch : C) : List (Op C) :=
  (sessionTopics k).map (fun t => Op.sub t msgID ch)

/-- The subscription effects of the deferred function, which runs on every exit after the start, including a panic:
tss/keygen.go:40-48, tss/keysign.go:214-223. -/
def exitOps (k : Session) (msgID : String) : List (Op C) :=
  (deferredCancels k).map (fun t => Op.cancel t msgID)

/-- Everything one Keygen or KeySign call does to the subscriptions, with the operations of other sessions (`others`)
running in between. A request whose message id cannot be computed (`msgID = none`) returns before subscribing:
tss/keygen.go:17-20, tss/keysign.go:191-194. -/
def sessionOps (k : Session) (msgID : Option String) (ch : C) (others : List (Op C)) : List (Op C) :=
  match msgID with
  | none => others
  | some id => startOps k id ch ++ others ++ exitOps k id

end Verif.Subscribers
