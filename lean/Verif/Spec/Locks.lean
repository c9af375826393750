import Verif.Model.Locks

/-! What C117 - C119 speak about. -/
namespace Verif.Spec.Locks
open Verif.Locks

/-- all goroutines have done all they had to do -/
def Finished {n : Nat} (s : St n) : Prop := ∀ i, (s i).prog = []

/-- goroutine `i` is about to access `v`, as a writer or reader -/
def Accesses {n : Nat} (s : St n) (i : Fin n) (v : Var) (write : Bool) : Prop := ∃ p, (s i).prog = .acc v write :: p

/-- A race: two goroutines are at the same time about to access `v`, and one of them writes. (For a map the Go runtime then ends the program:
"fatal error: concurrent map read and map write".) -/
def Race {n : Nat} (s : St n) (v : Var) : Prop := ∃ i j w, i ≠ j ∧ Accesses s i v true ∧ Accesses s j v w

/-- A goroutine is about to release a lock that it does not hold. (The Go runtime then ends the program: "fatal error: sync: unlock of unlocked
mutex".) -/
def WrongUnlock {n : Nat} (s : St n) : Prop := ∃ i l m p, (s i).prog = .rel l m :: p ∧ (l, m) ∉ (s i).held

/-- the maps among the shared state -/
def isMap : Var → Bool
  | .subscribers | .topicSubs _ | .unused _ | .peersGroup | .response _ | .notifiers | .unconfirmed _ | .finished _ | .confirmed _ _
  | .lastUnicast _ | .accepted _ | .stored _ | .requested _ => true
  | _ => false

/-- the four pieces of state that are used without their lock somewhere: the leader of a group, the blame of a session, and the spare cells of two
kinds of slices -/
def unguarded : Var → Bool
  | .leader _ | .blame _ | .streamSpare _ | .acceptedSpare _ => true
  | _ => false

end Verif.Spec.Locks
