import Verif.Model.Session

/-!
# The timers of the key generation and signing loops

keygen/tss_keygen.go:153-162, keysign/tss_keysign.go:188-195: every round of the loop calls `time.After(timeout)`, so the timer is armed anew
whenever a message of the local party was handled. Messages of other nodes are handled by another goroutine and do not arm it. Simplified:
handling takes no time, and a timer that is due is served at once.
-/
namespace Verif.Timer
open Verif.Session

variable {P R : Type}

/-- is it an event of the goroutine that handles the messages of other nodes? -/
def isInbound : LoopEvent P R → Bool
  | .inbound _ => true
  | _ => false

/-- is it the timer? -/
def isTimeout : LoopEvent P R → Bool
  | .timeout _ => true
  | _ => false

/-- The events of a loop with their times are possible for the timer `T`, which was armed at time `armed`: nothing happens after it is due before
it was served; it is served when it is due; any other event of the loop arms it anew. -/
def Timely (T : Nat) : Nat → List (Nat × LoopEvent P R) → Prop
  | _, [] => True
  | armed, (t, e) :: l =>
    armed ≤ t ∧ t ≤ armed + T ∧ (isTimeout e = true → t = armed + T) ∧ Timely T (if isInbound e then armed else t) l

/-- the events without their times -/
def untimed (h : List (Nat × LoopEvent P R)) : List (LoopEvent P R) := h.map Prod.snd

end Verif.Timer
