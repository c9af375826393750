import Verif.Model.SessNet

/-!
# Several attempts at the same ceremony

A ceremony that failed is tried again with the same request. The message id is a digest of the request alone (tss/tss.go:146-171), so every attempt
has the same one: the new session of a node takes the subscriptions of that id (tss/keygen.go:34-38, tss/keysign.go:196-200) and receives whatever
arrives for it, and the signature of a message covers the payload and this id (common/tss_helper.go:85-97).

The network is that of `Verif.SessNet`; each node begins its attempts when it likes. Messages that arrive at a node between two attempts are lost:
in the model they are simply never delivered.
-/
namespace Verif.Attempts
open Verif.Go Verif.Messages Verif.TssCommon Verif.SessNet

/-- The network, the number of the attempt each node is in, and as a ghost record the nodes as they were at the end of their earlier attempts. -/
structure St (K P : Type) where
  net : Net K P
  attempt : P → Nat
  old : P → List (Node K P)

/-- a node gives up its attempt and begins the next one, or something happens in the network -/
inductive Event (P : Type)
  | again (q : P)
  | ev (e : NetEvent P)

variable {K P : Type} [DecidableEq K] [DecidableEq P]

/-- one event; `site q k` is what node `q` knows in its attempt `k`. A new attempt is a new session (tss/keygen.go:20-33, tss/keysign.go:181-195). -/
def step (enc : Encoders P) (site : P → Nat → Site K P) (honest : P → Bool) (s : St K P) : Event P → St K P
  | .again q =>
    if honest q then
      { net := { s.net with nodes := s.net.update q (start (site q (s.attempt q + 1))) }
        attempt := fun x => if x = q then s.attempt q + 1 else s.attempt x
        old := fun x => if x = q then s.old q ++ [s.net.nodes q] else s.old x }
    else s
  | .ev e => { s with net := netStep enc (fun q => site q (s.attempt q)) honest s.net e }

/-- all nodes are in their first attempt -/
def init (site : P → Nat → Site K P) : St K P := ⟨⟨fun q => start (site q 0), []⟩, fun _ => 0, fun _ => []⟩

/-- a history of attempts -/
def run (enc : Encoders P) (site : P → Nat → Site K P) (honest : P → Bool) (h : List (Event P)) : St K P :=
  h.foldl (step enc site honest) (init site)

/-- what happened in the network -/
def events (h : List (Event P)) : List (NetEvent P) := h.filterMap fun e => match e with
  | .again _ => none
  | .ev e => some e

end Verif.Attempts
