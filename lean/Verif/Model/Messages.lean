import Verif.Model.Bytes

/-!
# messages package

Party ids travel as decimal strings; they are modelled by the number (a wire id which is not the decimal text of a number
belongs to no committee, like a number outside of it). JSON encoding is left out.
-/
namespace Verif.Messages
open Verif.Go

/-- The parts of tss-lib's `MessageRouting` the code reads; `from_` is the pointer `From` (its `Id`), `to_` the ids of `To`.
tss-lib's `PartyID` holds its `Id` in an embedded pointer (it is comparable, common/tss_helper.go:34, although it has a
`[]byte` key): `none` is a nil `From`, `some none` a `From` whose embedded pointer is nil (JSON `"From":{}`), for which
`From.Id` panics. -/
structure Routing where
  from_ : Option (Option Nat)
  to_ : List Nat
  isBroadcast : Bool
  deriving DecidableEq, Repr

/-- messages/p2p_message.go:67-72 `WireMessage`. -/
structure WireMessage where
  routing : Option Routing
  roundInfo : String
  message : Bytes
  sig : Bytes
  deriving DecidableEq, Repr

/-- `r.From.Id`, `none` when the expression panics -/
def Routing.sender (r : Routing) : Option Nat := r.from_.join

/-- `m.Routing.From.Id`, `none` when the expression panics. -/
def WireMessage.sender (m : WireMessage) : Option Nat := m.routing.bind Routing.sender

/-- the check `m.Routing == nil || m.Routing.From == nil` -/
def WireMessage.noSender (m : WireMessage) : Bool :=
  match m.routing with
  | none => true
  | some r => r.from_.isNone

/-- `m.Routing.IsBroadcast` (for a message whose routing is not nil). -/
def WireMessage.isBroadcast (m : WireMessage) : Bool :=
  match m.routing with
  | none => false
  | some r => r.isBroadcast

/-- the text `"%s-%s"` of a party id and a round: messages/p2p_message.go:75-77, common/tss.go:194 -/
def cacheKey (id : Nat) (roundInfo : String) : String := toString id ++ "-" ++ roundInfo

/-- messages/p2p_message.go:10-28 `THORChainTSSMessageType`, a `uint8` -/
abbrev MsgType := UInt8
def TSSKeyGenMsg : MsgType := 0
def TSSKeySignMsg : MsgType := 1
def TSSKeyGenVerMsg : MsgType := 2
def TSSKeySignVerMsg : MsgType := 3
def TSSControlMsg : MsgType := 4
def TSSTaskDone : MsgType := 5
def Unknown : MsgType := 6

/-- messages/p2p_message.go:60-64 `BroadcastConfirmMessage`; `none` stands for a text in `P2PID` that is no peer id. -/
structure ConfirmMsg (P : Type) where
  p2pid : Option P
  key : String
  hash : String
  deriving DecidableEq, Repr

/-- messages/p2p_message.go:79-84 `TssControl`. -/
structure Control where
  reqHash : String
  reqKey : String
  requestType : MsgType
  msg : Option WireMessage
  deriving DecidableEq, Repr

/-! messages/TssPhaseMessages.go:3-18 -/
def KEYGEN1 := "KGRound1Message"
def KEYGEN2aUnicast := "KGRound2Message1"
def KEYGEN2b := "KGRound2Message2"
def KEYGEN3 := "KGRound3Message"
def KEYSIGN1aUnicast := "SignRound1Message1"
def KEYSIGN1b := "SignRound1Message2"
def KEYSIGN2Unicast := "SignRound2Message"
def KEYSIGN3 := "SignRound3Message"
def KEYSIGN4 := "SignRound4Message"
def KEYSIGN5 := "SignRound5Message"
def KEYSIGN6 := "SignRound6Message"
def KEYSIGN7 := "SignRound7Message"
def TSSKEYGENROUNDS : Nat := 4
def TSSKEYSIGNROUNDS : Nat := 8

end Verif.Messages
