import Verif.Model.Go
import Mathlib.Data.List.Sort

/-! # p2p/leader_provider.go -/
namespace Verif.Leader
open Verif.Go

/-- the text that is hashed for a peer: p2p/leader_provider.go:19 -/
def hashInput (msgID : String) (blockHeight : Int) (el : String) : String :=
  msgID ++ toString blockHeight ++ el

/-- p2p/leader_provider.go:16-23, the loop filling `keyStore` (a later peer with an equal hash overwrites). -/
def keyStore {H : Type} [DecidableEq H] (sha : String → H) (msgID : String) (blockHeight : Int)
    (pIDs : List String) : Map H String :=
  pIDs.foldl (fun m el => Map.set m (sha (hashInput msgID blockHeight el)) el) []

/-- p2p/leader_provider.go:12-26 `LeaderNode`; `sha` is sha256 + hex, its result strings are an arbitrary linear order.
A missing map entry would read as "" in Go. -/
def LeaderNode {H : Type} [LinearOrder H] (sha : String → H) (msgID : String) (blockHeight : Int)
    (pIDs : List String) : Res String :=
  if pIDs.length = 0 ∨ msgID.length = 0 ∨ blockHeight = 0 then .err "invalid input for finding the leader"
  else
    let hashes := pIDs.map (fun el => sha (hashInput msgID blockHeight el))
    match hashes.insertionSort (· ≤ ·) with
    | [] => .panic
    | h :: _ => .ok ((Map.get (keyStore sha msgID blockHeight pIDs) h).getD "")

end Verif.Leader
