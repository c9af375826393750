import Verif.Spec.DemoServer
import Verif.Model.JoinNet

/-! A concrete network for the examples about joining nodes: the committee is 10, 11, 12; 10 leads; 10 and 11 are honest. -/
namespace Verif.Spec.DemoJoinNet
open Verif.Go Verif.JoinParty Verif.JoinNet Verif.Spec.DemoServer

/-- the messages that can be encoded -/
def table : List Comm :=
  [⟨"m", "request", .unknown, []⟩, ⟨"m", "response", .success, [peers.str 11, peers.str 10]⟩, ⟨"m", "response", .success, [peers.str 12, peers.str 10]⟩,
   ⟨"m", "response", .timeout, [peers.str 10]⟩, ⟨"m", "response", .timeout, [peers.str 11, peers.str 10]⟩]

/-- a message is encoded as 1 and its position in the table, a request of the protocol without leader as 0 -/
def wire : Wire where
  encReq id := if id = "m" then some [0] else none
  decReq b := match b with
    | [0] => some "m"
    | [1, _] => some "x"
    | _ => none
  encComm m := (table.idxOf? m).map fun i => [1, UInt8.ofNat i]
  decComm b := match b with
    | [1, i] => table[i.toNat]?
    | _ => none

/-- 10 and 11 -/
def honest (p : Nat) : Bool := p = 10 || p = 11

/-- the environment of a node -/
def envs (p : Nat) : Server.Env Nat Nat Nat Unit := env (p - 10)

/-- a request of a version with leaders -/
def job (p : Nat) : Job := ⟨"m", ['n'], 5, if p = 10 then [key 0, key 1, key 2] else [key 2, key 1, key 0], 1⟩

/-- a request of a version without leaders -/
def oldJob (p : Nat) : Job := ⟨"m", ['o'], 5, if p = 10 then [key 0, key 1] else [key 1, key 0], 1⟩

/-- a stream with a whole frame, in two chunks -/
def framed (b : Bytes) : List Bytes := [(Stream.frame b).take 3, (Stream.frame b).drop 3]

/-- the events up to the verdict of the leader: 11 sends its request to 10, which reads it and decides -/
def decided : List (NetEvent Nat Nat) :=
  [.at_ 10 (.start []), .at_ 11 (.start []), .at_ 11 (.request 10 (.stream 1 none)), .deliver 0 2 (framed [1, 0]),
   .at_ 10 (.local_ (.wake keep)), .at_ 10 (.local_ (.step keep))]

/-- 11 reads the verdict -/
def formed : List (NetEvent Nat Nat) :=
  decided ++ [.at_ 10 (.answer 1 (.stream 3 none)), .deliver 0 4 (framed [1, 1]), .at_ 11 (.local_ (.wake keep)), .at_ 11 (.local_ (.step keep)),
    .at_ 11 (.local_ (.step keep)), .at_ 11 (.local_ (.step keep))]

/-- 11 does not get the verdict -/
def lost : List (NetEvent Nat Nat) := decided ++ [.at_ 10 (.answer 1 .noStream), .at_ 11 (.local_ .timeout), .at_ 11 (.local_ (.step keep))]

/-- without a leader: 10 and 11 read each other's requests -/
def met : List (NetEvent Nat Nat) :=
  [.at_ 10 (.start []), .at_ 11 (.start []), .at_ 11 (.request 10 (.stream 1 none)), .at_ 10 (.request 11 (.stream 2 none)),
   .deliver 0 3 (framed [0]), .deliver 0 4 (framed [0]), .at_ 10 (.local_ .timeout), .at_ 10 (.local_ (.step keep)),
   .at_ 11 (.local_ .timeout), .at_ 11 (.local_ (.step keep))]

/-- without a leader: 10 reads the request of 11, but 11 does not read that of 10 -/
def half : List (NetEvent Nat Nat) :=
  [.at_ 10 (.start []), .at_ 11 (.start []), .at_ 11 (.request 10 (.stream 1 none)), .deliver 0 3 (framed [0]), .at_ 10 (.local_ .timeout),
   .at_ 10 (.local_ (.step keep)), .at_ 11 (.local_ .timeout), .at_ 11 (.local_ (.step keep))]

end Verif.Spec.DemoJoinNet
