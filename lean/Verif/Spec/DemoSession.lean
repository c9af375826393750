import Verif.Spec.Session
import Verif.Spec.DemoCommittee

/-! A concrete environment for the examples about sessions: raw bytes `[type, index]` stand for the message of that type with
that index in the tables of a `DemoNet`. A message is signed by a member when its signature is the member's key. -/
namespace Verif.Spec
open Verif.Go Verif.Conversion Verif.Messages Verif.Blame Verif.TssCommon

/-- what the demo decoders decode -/
structure DemoNet where
  wires : List WireMessage := []
  confirms : List (ConfirmMsg Nat) := []
  controls : List Control := []
  bulks : List (Bytes × List BulkWireMsg) := []
  answer : List Entry → Share → Option (List Culprit) := fun _ _ => none
  parse : Bytes → Option Content := fun _ => some .KGRound1Message

/-- an injective toy digest -/
def demoHash (b : Bytes) : String := String.ofList (b.map (fun x => Char.ofNat (97 + x.toNat)))

/-- the environment of the node with peer id `me` -/
def demoEnv (net : DemoNet) (me : Nat) (peers : List Nat := [10, 11, 12, 13]) : Env Nat Nat where
  codec := demoCodec
  decWrapped raw := match raw with
    | t :: pl => some (t, pl)
    | [] => none
  decWire pl := match pl with
    | [i] => net.wires[i.toNat]?
    | _ => none
  decConfirm pl := match pl with
    | [i] => net.confirms[i.toNat]?
    | _ => none
  decTask pl := some (decide (pl = []))
  decControl pl := match pl with
    | [i] => net.controls[i.toNat]?
    | _ => none
  decBulk b := (net.bulks.find? (fun e => e.1 = b)).map Prod.snd
  parse := net.parse
  hash := demoHash
  verify pk _ sig := decide (pk = sig)
  msgID := [7]
  parties := ["m"]
  upd := net.answer
  localPeer := me
  p2pPeers := peers

/-- the schedule without surprises -/
def plain : Sched Nat := ⟨Shuffle.id _, Shuffle.id _, Shuffle.id _, []⟩

/-- the event of receiving message `i` of type `t` from peer `p` -/
def recv (t i : UInt8) (p : Nat) : Event Nat := .msg [t, i] p plain

/-- the broadcast wire message of member `i` with payload `b`, in round "R" -/
def bcast (i : Nat) (b : Bytes) : WireMessage := ⟨some ⟨some (some i), [], true⟩, "R", b, [UInt8.ofNat (i + 1)]⟩

/-- a broadcast share of member `i` inside a bulk -/
def inner (i : Nat) (b : Bytes) : BulkWireMsg := ⟨b, "m", some ⟨some (some i), [], true⟩⟩

/-- a bigger committee: member `i` has key bytes `[i + 1]`, public key `20 + i` and peer id `10 + i` -/
def demoManagerN (n loc : Nat) : Manager Nat Nat :=
  newManager (SetupPartyIDMap ((List.range n).map (fun i => ⟨i, [UInt8.ofNat (i + 1)], i⟩)))
    ((List.range n).map (fun i => (i, i + 10))) loc

end Verif.Spec
