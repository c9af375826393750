import Verif.Model.JoinParty

/-!
# The timers of the join calls

p2p/party_coordinator.go:368-385 (member), 435-449 (leader), 527-543 (leaderless): the wait of a join call is a `select` with the case
`time.After(pc.timeout)`. The member runs it once. The leader and the leaderless call run it in a loop, so each turn arms a new timer: a leader
goes round when something arrived on its signature channel, a leaderless call when it was notified and not everybody is online. Simplified:
handling takes no time, and a timer that is due is served at once. Not counted: opening the streams and sending, before and after the wait.
-/
namespace Verif.JoinTimer
open Verif.Go Verif.JoinParty

variable {P : Type} [DecidableEq P]

/-- Is the case of event `e` ready in the select of a join call in state `st`? `hasSig`: the select has a case for the signature channel
(leader 445, member 381, not the leaderless call). -/
def taken (hasSig : Bool) (id : String) (st : State P) : Event P → Bool
  | .wake _ => decide (st.phase = .waiting) && (recvNotify st.groups id).isSome
  | .sig _ => decide (st.phase = .waiting) && hasSig
  | .timeout => decide (st.phase = .waiting)
  | _ => false

/-- The events of a join call with their times are possible for the timer `T`, armed at time `armed` in state `st`: while the call waits
nothing happens after the timer is due; the timer fires when it is due; a case taken by the select arms it anew (if the call goes round). -/
def Timely (step : State P → Event P → State P) (hasSig : Bool) (id : String) (T : Nat) : Nat → State P → List (Nat × Event P) → Prop
  | _, _, [] => True
  | armed, st, (t, e) :: l =>
    armed ≤ t ∧ (st.phase = .waiting → t ≤ armed + T ∧ (e = .timeout → t = armed + T)) ∧
      Timely step hasSig id T (if taken hasSig id st e then t else armed) (step st e) l

/-- the events without their times -/
def untimed (h : List (Nat × Event P)) : List (Event P) := h.map Prod.snd

end Verif.JoinTimer
