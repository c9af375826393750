import Verif.Model.Keygen

/-!
# The goroutines of a session (keygen/tss_keygen.go:87-143, keysign/tss_keysign.go:99-178)

`GenerateNewKey` and `SignMessage` start the local parties in one goroutine, `ProcessInboundMessages` in another, and run the loop
`processKeyGen`/`processKeySign` themselves. The local parties deliver their messages and results by two buffered channels. When the loop has
ended with success, the call waits up to five seconds for the other members, stops the second goroutine and waits for both.

Which goroutine runs, and which case a `select` takes when several are ready, is the choice of the environment. A local party (tss-lib) is part of
the environment: it may put any message or result in the channels at any time. Processing an inbound message is one step, even though a local party
may have to wait in it for room in a channel.
-/
namespace Verif.SessionCall
open Verif.Go Verif.Session

/-- a loop, given by its machine: what an event does, whether it has returned (`some true`: with success), whether all other members have reported
the end of their task (`GetTaskDone` is closed), and whether the program has panicked -/
structure Loop (P R σ : Type) where
  step : σ → LoopEvent P R → σ
  result : σ → Option Bool
  taskDone : σ → Bool
  crashed : σ → Bool

/-- the loop of key generation, keygen/tss_keygen.go:145-238 -/
def genLoop {P S H L Pt A Q : Type} [DecidableEq P] [LinearOrder S] [LinearOrder H] (env : Keygen.KEnv P S H L Pt A Q) (lenv : LoopEnv Server.Str P)
    (keys : List Server.Str) : Loop P (Keygen.End L A Q) (Keygen.GenSt P Pt) where
  step := Keygen.genStep env lenv keys
  result s := s.result.map fun r => match r with | .ok _ => true | .error _ => false
  taskDone s := s.ses.taskDone
  crashed s := s.crashed

/-- the loop of signing, keysign/tss_keysign.go:180-277 -/
def signLoop {K P : Type} [DecidableEq K] [DecidableEq P] (env : LoopEnv K P) (reqNum : Nat) : Loop P Sig (SignSt K P) where
  step := signStep env reqNum
  result s := s.result.map fun r => match r with | .ok _ => true | .error _ => false
  taskDone s := s.ses.taskDone
  crashed s := s.crashed

/-- the capacities of the channels `outCh` and `endCh` -/
structure Caps where
  out : Nat
  fin : Nat

/-- keygen/tss_keygen.go:87-88, for `n` members -/
def genCaps (n : Nat) : Caps := ⟨n, n⟩

/-- keysign/tss_keysign.go:99-100, for `n` members and `k` messages -/
def signCaps (n k : Nat) : Caps := ⟨2 * n * k, n * k⟩

/-- The state of the call: the loop; the contents of `outCh` and `endCh`; whether the goroutine that starts the local parties has ended, and then
whether they all started; whether the goroutine of `ProcessInboundMessages` runs; whether `commStopChan` is closed; whether the call has returned, and
then whether with success. -/
structure St (R σ : Type) where
  loop : σ
  outCh : List OutBatch.Output
  endCh : List R
  started : Option Bool
  inbound : Bool
  commStop : Bool
  returned : Option Bool

/-- the events: a local party delivers a message or its result; the goroutine that starts the parties ends; the loop takes the case of the error
channel, of `stopChan`, of the timer, of `outCh`, of `endCh`; a message of a peer is processed; the five seconds after the loop are over; the
closed channel `GetTaskDone` is noticed; the goroutine of `ProcessInboundMessages` notices that it has to stop; the call returns -/
inductive Event (P R : Type)
  | put (o : OutBatch.Output)
  | deliver (r : R)
  | started (ok : Bool)
  | takeErr
  | takeStop
  | timeout (sch : BlameSched P)
  | takeOut (sch : OutBatch.Sched)
  | takeEnd
  | message (e : TssCommon.Event P)
  | graceOver
  | graceDone
  | inboundEnds
  | ret

variable {P R σ : Type}

/-- the loop is still running -/
def running (L : Loop P R σ) (s : St R σ) : Bool := (L.result s.loop).isNone

/-- the event of the loop that an event of the call is, if any -/
def loopEvent (L : Loop P R σ) (s : St R σ) : Event P R → Option (LoopEvent P R)
  -- the channel is closed by the starting goroutine when a party did not start (keygen/tss_keygen.go:118-125, keysign/tss_keysign.go:144-150)
  | .takeErr => if running L s ∧ s.started = some false then some .startFailed else none
  | .takeStop => if running L s then some .stop else none
  | .timeout sch => if running L s then some (.timeout sch) else none
  | .takeOut sch => if running L s then s.outCh.head?.map (LoopEvent.out sch) else none
  | .takeEnd => if running L s then s.endCh.head?.map LoopEvent.done else none
  | .message e => if s.inbound then some (.inbound e) else none
  | _ => none

/-- the rest of an event: the channels and the goroutines. Without effect are: a send to a full channel (the party waits), and whatever is not
possible. -/
def rest (L : Loop P R σ) (caps : Caps) (s : St R σ) : Event P R → St R σ
  | .put o => if s.outCh.length < caps.out then { s with outCh := s.outCh ++ [o] } else s
  | .deliver r => if s.endCh.length < caps.fin then { s with endCh := s.endCh ++ [r] } else s
  | .started ok => if s.started.isNone then { s with started := some ok } else s
  | .takeOut _ => if running L s then { s with outCh := s.outCh.tail } else s
  | .takeEnd => if running L s then { s with endCh := s.endCh.tail } else s
  -- keygen/tss_keygen.go:133-139, keysign/tss_keysign.go:158-163
  | .graceOver => if L.result s.loop = some true then { s with commStop := true } else s
  | .graceDone => if L.result s.loop = some true ∧ L.taskDone s.loop then { s with commStop := true } else s
  -- common/tss.go:847-850
  | .inboundEnds => if s.commStop then { s with inbound := false } else s
  | .ret =>
    match L.result s.loop with
    -- keygen/tss_keygen.go:128-132, keysign/tss_keysign.go:152-156
    | some false => { s with commStop := true, returned := some false }
    -- keygen/tss_keygen.go:141-142, keysign/tss_keysign.go:164 and 177
    | some true => if s.commStop ∧ s.inbound = false ∧ s.started.isSome then { s with returned := some true } else s
    | none => s
  | _ => s

/-- one event of the call; nothing happens after a panic -/
def step (L : Loop P R σ) (caps : Caps) (s : St R σ) (e : Event P R) : St R σ :=
  if L.crashed s.loop then s
  else
    match loopEvent L s e with
    | some le => { rest L caps s e with loop := L.step s.loop le }
    | none => rest L caps s e

/-- both goroutines have been started -/
def init (l : σ) : St R σ := ⟨l, [], [], none, true, false, none⟩

/-- a run of the call -/
def run (L : Loop P R σ) (caps : Caps) (l : σ) (h : List (Event P R)) : St R σ := h.foldl (step L caps) (init l)

end Verif.SessionCall
