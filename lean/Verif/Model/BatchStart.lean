import Verif.Model.KeySign

/-!
# Starting the local parties of a signing: keysign/tss_keysign.go:62-81 and 103-120

A signing of several messages has a local party for each of them. They are kept in a map under their monikers and started by a goroutine each. The map is a
`sync.Map` in the program; `Range` visits its entries in any order. What `Start` of tss-lib does is the choice of the environment. That a party reports its
failure (`ret.Store(false)`) and that it is done (`keySignWg.Done`) is one step of the model; the program does the former before the latter.
-/
namespace Verif.BatchStart
open Verif.Go Verif.Conversion

/-- a local party: the place of its message, and the number it signs -/
structure Party where
  place : Nat
  number : Nat
  deriving DecidableEq

/-- keysign/tss_keysign.go:104-120: the parties by their monikers -/
def partyMap (msgs : List Bytes) : Map String Party :=
  msgs.zipIdx.foldl (fun m x =>
    Map.set m (toString (hashToInt x.1 secp256k1N) ++ ":" ++ toString x.2) ⟨x.2, hashToInt x.1 secp256k1N⟩) []

/-- The state of `startBatchSigning`: parties that `Range` has still to visit, goroutines that run, the wait group, `ret`; what the call returned, whether the
program panicked. `ended` is a record for the specification: the parties whose `Start` has ended, and whether without an error. -/
structure St where
  todo : List Party
  running : List Party
  counter : Int
  ret : Bool
  returned : Option Bool
  crashed : Bool
  ended : List (Party × Bool)

/-- the loop visits the next party; a `Start` ends; the waiting call gets on -/
inductive Event
  | spawn
  | ends (p : Party) (ok : Bool)
  | wait

/-- keysign/tss_keysign.go:64-66 -/
def init (msgNum : Nat) (order : List (String × Party)) : St := ⟨order.map Prod.snd, [], msgNum, true, none, false, []⟩

/-- keysign/tss_keysign.go:67-80. A wait group panics when its counter gets negative. -/
def step (s : St) (e : Event) : St :=
  if s.crashed then s
  else match e with
  | .spawn => match s.todo with
    | p :: t => { s with todo := t, running := s.running ++ [p] }
    | [] => s
  | .ends p ok =>
    if p ∈ s.running then
      if s.counter - 1 < 0 then { s with crashed := true }
      else { s with running := s.running.erase p, ret := s.ret && ok, counter := s.counter - 1, ended := s.ended ++ [(p, ok)] }
    else s
  | .wait => if s.todo = [] ∧ s.counter = 0 ∧ s.returned = none then { s with returned := some s.ret } else s

/-- a run of `startBatchSigning` for these messages -/
def run (msgNum : Nat) (order : List (String × Party)) (h : List Event) : St := h.foldl step (init msgNum order)

end Verif.BatchStart
