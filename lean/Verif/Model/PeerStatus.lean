import Verif.Model.Go

/-! # p2p/peer_status.go -/
namespace Verif.Peers
open Verif.Go

variable {P : Type} [DecidableEq P]

/-- p2p/peer_status.go:12-22 `PeerStatus`, the part protected by `peerStatusLock`. The channels and the leader response are
in `Verif.JoinParty.Group`. -/
structure PeerStatus (P : Type) where
  peersResponse : Map P Bool
  leader : String
  threshold : Int
  reqCount : Nat

/-- p2p/peer_status.go:37-43, the loop filling `dat`. -/
def fillPeers (peerNodes : List P) (myPeerID : P) : Map P Bool :=
  peerNodes.foldl (fun dat el => if el = myPeerID then dat else Map.set dat el false) []

/-- p2p/peer_status.go:36-55 `NewPeerStatus`. -/
def NewPeerStatus (peerNodes : List P) (myPeerID : P) (leader : String) (threshold : Int) : PeerStatus P :=
  { peersResponse := fillPeers peerNodes myPeerID, leader, threshold, reqCount := 0 }

/-- p2p/peer_status.go:62-76 `getPeersStatus`: (online, offline); `order` is the visiting order of the map. -/
def getPeersStatus (order : List (P × Bool)) : List P × List P :=
  order.foldl (fun (online, offline) (peerNode, val) =>
    if val then (online ++ [peerNode], offline) else (online, offline ++ [peerNode])) ([], [])

/-- p2p/peer_status.go:57-60 `getCoordinationStatus`. -/
def getCoordinationStatus (order : List (P × Bool)) : Bool := (getPeersStatus order).2.length == 0

/-- p2p/peer_status.go:78-106 `updatePeer`; new state and `(bool, error)`. -/
def updatePeer (ps : PeerStatus P) (peerNode : P) : PeerStatus P × Res Bool :=
  match Map.get ps.peersResponse peerNode with
  | none => (ps, .err "key not found")
  | some val =>
    if ps.leader = "NONE" then
      if val = false then ({ ps with peersResponse := Map.set ps.peersResponse peerNode true }, .ok true)
      else (ps, .ok false)
    else if ps.threshold ≤ (ps.reqCount : Int) then (ps, .ok false)
    else if val = false then
      let ps' := { ps with peersResponse := Map.set ps.peersResponse peerNode true, reqCount := ps.reqCount + 1 }
      if ps.threshold ≤ (ps'.reqCount : Int) then (ps', .ok true) else (ps', .ok false)
    else (ps, .ok false)

end Verif.Peers
