import Verif.Model.Json
import Verif.Model.SessNet
import Verif.Model.Comm

/-!
# The messages of a session as JSON

The Go types of the messages with their JSON names, how they are read and written, and the abstractions of the rest of the model: party ids that are numbers,
peer ids, types of messages.
-/
namespace Verif.JsonMsg
open Verif.Go Verif.Json Verif.Messages Verif.TssCommon
open Verif.MsgId (Str)

/-! ## Go types -/

/-- tss-lib `MessageWrapper_PartyID` -/
structure PartyBase where
  id : String := ""
  moniker : String := ""
  key : Bytes := []
  deriving DecidableEq, Repr

/-- tss-lib `PartyID`: an embedded pointer and an index -/
structure PartyID where
  base : Option PartyBase := none
  index : Int := 0
  deriving DecidableEq, Repr

/-- tss-lib `MessageRouting` -/
structure GoRouting where
  from_ : Option PartyID := none
  to_ : List (Option PartyID) := []
  isBroadcast : Bool := false
  isToOldCommittee : Bool := false
  isToOldAndNewCommittees : Bool := false
  deriving DecidableEq, Repr

/-- messages/p2p_message.go:67-72 `WireMessage` -/
structure GoWire where
  routing : Option GoRouting := none
  roundInfo : String := ""
  message : Bytes := []
  sig : Bytes := []
  deriving DecidableEq, Repr

/-- messages/p2p_message.go:47-51 `WrappedMessage` -/
structure GoWrapped where
  type : Nat := 0
  msgID : String := ""
  payload : Bytes := []
  deriving DecidableEq, Repr

/-- messages/p2p_message.go:60-64 `BroadcastConfirmMessage` -/
structure GoConfirm where
  p2pid : String := ""
  key : String := ""
  hash : String := ""
  deriving DecidableEq, Repr

/-- messages/p2p_message.go:79-84 `TssControl` -/
structure GoControl where
  reqHash : String := ""
  reqKey : String := ""
  requestType : Nat := 0
  msg : Option GoWire := none
  deriving DecidableEq, Repr

/-- common/tss.go:80-84 `BulkWireMsg` -/
structure GoBulk where
  wired : Bytes := []
  ident : String := ""
  routing : Option GoRouting := none
  deriving DecidableEq, Repr

/-! ## reading -/

/-- a field of a struct -/
def field {α β : Type} (name : String) (get : α → β) (put : α → β → α) (d : Dec β) : Slot α := ⟨name.toList, fun j a => (d j (get a)).map (put a)⟩

/-- the fields of `PartyID`; those of the embedded pointer make it non-nil -/
def partyFields : List (Slot PartyID) :=
  [field "id" (fun p => (p.base.getD {}).id) (fun p x => { p with base := some { p.base.getD {} with id := x } }) dString,
   field "moniker" (fun p => (p.base.getD {}).moniker) (fun p x => { p with base := some { p.base.getD {} with moniker := x } }) dString,
   field "key" (fun p => (p.base.getD {}).key) (fun p x => { p with base := some { p.base.getD {} with key := x } }) dBytes,
   field "index" PartyID.index (fun p x => { p with index := x }) dInt]

/-- the fields of `MessageRouting`, which have no tags -/
def routingFields : List (Slot GoRouting) :=
  [field "From" GoRouting.from_ (fun r x => { r with from_ := x }) (dPtr {} (dStruct partyFields)),
   field "To" GoRouting.to_ (fun r x => { r with to_ := x }) (dList none (dPtr {} (dStruct partyFields))),
   field "IsBroadcast" GoRouting.isBroadcast (fun r x => { r with isBroadcast := x }) dBool,
   field "IsToOldCommittee" GoRouting.isToOldCommittee (fun r x => { r with isToOldCommittee := x }) dBool,
   field "IsToOldAndNewCommittees" GoRouting.isToOldAndNewCommittees (fun r x => { r with isToOldAndNewCommittees := x }) dBool]

/-- messages/p2p_message.go:67-72 -/
def wireFields : List (Slot GoWire) :=
  [field "routing" GoWire.routing (fun w x => { w with routing := x }) (dPtr {} (dStruct routingFields)),
   field "round_info" GoWire.roundInfo (fun w x => { w with roundInfo := x }) dString,
   field "message" GoWire.message (fun w x => { w with message := x }) dBytes,
   field "signature" GoWire.sig (fun w x => { w with sig := x }) dBytes]

/-- messages/p2p_message.go:47-51 -/
def wrappedFields : List (Slot GoWrapped) :=
  [field "message_type" GoWrapped.type (fun w x => { w with type := x }) dU8,
   field "message_id" GoWrapped.msgID (fun w x => { w with msgID := x }) dString,
   field "payload" GoWrapped.payload (fun w x => { w with payload := x }) dBytes]

/-- messages/p2p_message.go:60-64 -/
def confirmFields : List (Slot GoConfirm) :=
  [field "P2PID" GoConfirm.p2pid (fun w x => { w with p2pid := x }) dString,
   field "key" GoConfirm.key (fun w x => { w with key := x }) dString,
   field "hash" GoConfirm.hash (fun w x => { w with hash := x }) dString]

/-- messages/p2p_message.go:79-84 -/
def controlFields : List (Slot GoControl) :=
  [field "reqest_hash" GoControl.reqHash (fun w x => { w with reqHash := x }) dString,
   field "request_key" GoControl.reqKey (fun w x => { w with reqKey := x }) dString,
   field "request_type" GoControl.requestType (fun w x => { w with requestType := x }) dU8,
   field "message_body" GoControl.msg (fun w x => { w with msg := x }) (dPtr {} (dStruct wireFields))]

/-- messages/p2p_message.go:86-88 `TssTaskNotifier`: one flag -/
def taskFields : List (Slot Bool) := [field "task_done" id (fun _ x => x) dBool]

/-- common/tss.go:80-84, without tags -/
def bulkFields : List (Slot GoBulk) :=
  [field "WiredBulkMsgs" GoBulk.wired (fun w x => { w with wired := x }) dBytes,
   field "MsgIdentifier" GoBulk.ident (fun w x => { w with ident := x }) dString,
   field "Routing" GoBulk.routing (fun w x => { w with routing := x }) (dPtr {} (dStruct routingFields))]

/-- p2p/communication.go:167, common/tss.go:856 -/
def readWrapped : Bytes → Option GoWrapped := unmarshal {} (dStruct wrappedFields)

/-- common/tss.go:341 -/
def readWire : Bytes → Option GoWire := unmarshal {} (dStruct wireFields)

/-- common/tss.go:347 -/
def readConfirm : Bytes → Option GoConfirm := unmarshal {} (dStruct confirmFields)

/-- common/tss.go:357 -/
def readTask : Bytes → Option Bool := unmarshal false (dStruct taskFields)

/-- common/tss.go:376 -/
def readControl : Bytes → Option GoControl := unmarshal {} (dStruct controlFields)

/-- common/tss.go:250 -/
def readBulk : Bytes → Option (List GoBulk) := unmarshal [] (dList {} (dStruct bulkFields))

/-! ## writing (`json.Marshal`; byte slices that are nil are written like empty ones, an empty `To` like a nil one) -/

/-- a pointer -/
def ptrText {α : Type} (text : α → Str) : Option α → Str
  | none => "null".toList
  | some a => text a

/-- a text of a field with `omitempty` -/
def ifNot (empty : Bool) (name : String) (t : Str) : List (String × Str) := if empty then [] else [(name, t)]

/-- tss-lib `PartyID` -/
def partyText (p : PartyID) : Str :=
  objText ((match p.base with
    | none => []
    | some b => ifNot (b.id = "") "id" (quote b.id.toList) ++ ifNot (b.moniker = "") "moniker" (quote b.moniker.toList) ++
        ifNot (b.key = []) "key" (bytesText b.key)) ++ [("index", intText p.index)])

/-- tss-lib `MessageRouting` -/
def routingText (r : GoRouting) : Str :=
  objText [("From", ptrText partyText r.from_), ("To", if r.to_ = [] then "null".toList else arrText (r.to_.map (ptrText partyText))),
    ("IsBroadcast", boolText r.isBroadcast), ("IsToOldCommittee", boolText r.isToOldCommittee),
    ("IsToOldAndNewCommittees", boolText r.isToOldAndNewCommittees)]

/-- messages/p2p_message.go:67-72, common/tss.go:468 -/
def wireText (w : GoWire) : Str :=
  objText [("routing", ptrText routingText w.routing), ("round_info", quote w.roundInfo.toList), ("message", bytesText w.message),
    ("signature", bytesText w.sig)]

/-- messages/p2p_message.go:47-51, p2p/communication.go:427 -/
def wrappedText (w : GoWrapped) : Str :=
  objText [("message_type", natText w.type), ("message_id", quote w.msgID.toList), ("payload", bytesText w.payload)]

/-- messages/p2p_message.go:60-64, common/tss.go:685 -/
def confirmText (c : GoConfirm) : Str :=
  objText [("P2PID", quote c.p2pid.toList), ("key", quote c.key.toList), ("hash", quote c.hash.toList)]

/-- messages/p2p_message.go:79-84, common/tss_helper.go:257 -/
def controlText (c : GoControl) : Str :=
  objText [("reqest_hash", quote c.reqHash.toList), ("request_key", quote c.reqKey.toList), ("request_type", natText c.requestType),
    ("message_body", ptrText wireText c.msg)]

/-- messages/p2p_message.go:86-88, common/tss_helper.go:223 -/
def taskText (b : Bool) : Str := objText [("task_done", boolText b)]

/-- common/tss.go:80-84 -/
def bulkText (b : GoBulk) : Str :=
  objText [("WiredBulkMsgs", bytesText b.wired), ("MsgIdentifier", quote b.ident.toList), ("Routing", ptrText routingText b.routing)]

/-- common/tss.go:451 -/
def bulksText (l : List GoBulk) : Str := arrText (l.map bulkText)

/-! ## the abstractions of the model -/

/-- How the rest of the model names things. `number` gives a party id its number (`Verif.Model.Messages`): for the decimal text of a number it is that number.
`peer` reads a peer id, `peerText` writes it. `moniker`, `key` and `index` are what tss-lib knows of a party besides its id. -/
structure Naming (P : Type) where
  number : String → Nat
  moniker : Nat → String
  key : Nat → Bytes
  index : Nat → Int
  peer : String → Option P
  peerText : Option P → String

variable {P : Type}

/-- a party as tss-lib has it -/
def party (N : Naming P) (n : Nat) : PartyID := ⟨some ⟨toString n, N.moniker n, N.key n⟩, N.index n⟩

/-- the number of a party; `none` when `p.Id` panics -/
def partyNumber (N : Naming P) (p : PartyID) : Option Nat := p.base.map fun b => N.number b.id

/-- what the model keeps of a routing; receivers without an id are left out: a node does not look at the receivers of what it gets -/
def fromRouting (N : Naming P) (r : GoRouting) : Routing :=
  ⟨r.from_.map (partyNumber N), r.to_.filterMap fun p => p.bind (partyNumber N), r.isBroadcast⟩

/-- the routing of the model as tss-lib has it -/
def toRouting (N : Naming P) (r : Routing) : GoRouting :=
  ⟨r.from_.map fun o => match o with | none => ⟨none, 0⟩ | some n => party N n, r.to_.map fun n => some (party N n), r.isBroadcast, false, false⟩

def fromWire (N : Naming P) (w : GoWire) : WireMessage := ⟨w.routing.map (fromRouting N), w.roundInfo, w.message, w.sig⟩
def toWire (N : Naming P) (w : WireMessage) : GoWire := ⟨w.routing.map (toRouting N), w.roundInfo, w.message, w.sig⟩

def fromConfirm (N : Naming P) (c : GoConfirm) : ConfirmMsg P := ⟨N.peer c.p2pid, c.key, c.hash⟩
def toConfirm (N : Naming P) (c : ConfirmMsg P) : GoConfirm := ⟨N.peerText c.p2pid, c.key, c.hash⟩

def fromControl (N : Naming P) (c : GoControl) : Control := ⟨c.reqHash, c.reqKey, UInt8.ofNat c.requestType, c.msg.map (fromWire N)⟩
def toControl (N : Naming P) (c : Control) : GoControl := ⟨c.reqHash, c.reqKey, c.requestType.toNat, c.msg.map (toWire N)⟩

def fromBulk (N : Naming P) (b : GoBulk) : BulkWireMsg := ⟨b.wired, b.ident, b.routing.map (fromRouting N)⟩
def toBulk (N : Naming P) (b : BulkWireMsg) : GoBulk := ⟨b.wired, b.ident, b.routing.map (toRouting N)⟩

/-- the encoders of a session with the message id `id` -/
def encoders (N : Naming P) (id : String) : SessNet.Encoders P where
  wrap t b := utf8 (wrappedText ⟨t.toNat, id, b⟩)
  wire w := utf8 (wireText (toWire N w))
  confirm c := utf8 (confirmText (toConfirm N c))
  control c := utf8 (controlText (toControl N c))
  task b := utf8 (taskText b)
  bulk l := utf8 (bulksText (l.map (toBulk N)))

/-- the decoders of a session in the place of those of `env` -/
def withJson {K : Type} (N : Naming P) (env : TssCommon.Env K P) : TssCommon.Env K P :=
  { env with
    decWrapped := fun b => (readWrapped b).map fun w => (UInt8.ofNat w.type, w.payload)
    decWire := fun b => (readWire b).map (fromWire N)
    decConfirm := fun b => (readConfirm b).map (fromConfirm N)
    decTask := readTask
    decControl := fun b => (readControl b).map (fromControl N)
    decBulk := fun b => (readBulk b).map (·.map (fromBulk N)) }

/-- messages/p2p_message.go:13-28: the number of a type -/
def topicNumber : Subscribers.Topic → Nat
  | .keyGenMsg => 0
  | .keySignMsg => 1
  | .keyGenVerMsg => 2
  | .keySignVerMsg => 3
  | .controlMsg => 4
  | .taskDone => 5
  | .unknown => 6

/-- messages/p2p_message.go:13-28: the type of a number -/
def topicOf : Nat → Subscribers.Topic
  | 0 => .keyGenMsg
  | 1 => .keySignMsg
  | 2 => .keyGenVerMsg
  | 3 => .keySignVerMsg
  | 4 => .controlMsg
  | 5 => .taskDone
  | _ => .unknown

/-- p2p/communication.go:427: the bytes of a message -/
def commEnc (w : Comm.Wrapped) : Option Bytes := some (utf8 (wrappedText ⟨topicNumber w.topic, w.msgID, w.payload⟩))

/-- p2p/communication.go:166-171: what the node looks for in bytes from a stream -/
def commDec (b : Bytes) : Option (Subscribers.Topic × String) := (readWrapped b).map fun w => (topicOf w.type, w.msgID)

end Verif.JsonMsg
