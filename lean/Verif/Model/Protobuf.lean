import Verif.Model.JoinNet
import Verif.Model.Notifier

/-!
# Protobuf: the bytes of the messages in messages/join_party.proto, messages/signature_notifier.proto and of tss-lib's `ECSignature`

`proto.Marshal` and `proto.Unmarshal` of google.golang.org/protobuf v1.25.0 (go.mod:39), library code which is not in /repo, for messages with fields of
the kinds string, bytes, enum, repeated string and repeated bytes in syntax proto3. The reader keeps unknown fields, which nothing looks at; here they
are dropped. Messages of 4 GiB and more are taken as not encodable.
-/
namespace Verif.Protobuf
open Verif.Go Verif.JoinParty Verif.JoinNet

/-! ## numbers -/

/-- protowire `AppendVarint` -/
def varintAux : Nat → Nat → Bytes
  | 0, _ => []
  | fuel + 1, n => if n < 128 then [UInt8.ofNat n] else UInt8.ofNat (n % 128 + 128) :: varintAux fuel (n / 128)

/-- protowire `AppendVarint` of a number below 2^64 -/
def varint (n : Nat) : Bytes := varintAux 10 n

/-- protowire `ConsumeVarint`, with the number of bytes that may still come: the tenth byte must be 0 or 1 -/
def readVarintAux : Nat → Bytes → Option (Nat × Bytes)
  | 0, _ => none
  | _ + 1, [] => none
  | k + 1, x :: xs =>
    if x.toNat < 128 then (if k = 0 ∧ 1 < x.toNat then none else some (x.toNat, xs))
    else (readVarintAux k xs).map fun (v, r) => (x.toNat - 128 + 128 * v, r)

/-- protowire `ConsumeVarint` -/
def readVarint (b : Bytes) : Option (Nat × Bytes) := readVarintAux 10 b

/-! ## fields -/

/-- what a field carries: a number, bytes, or something of another kind -/
inductive Value
  | number (n : Nat)
  | bytes (b : Bytes)
  | other
  deriving DecidableEq, Repr

/-- protowire `ConsumeBytes` -/
def readBytes (b : Bytes) : Option (Bytes × Bytes) :=
  match readVarint b with
  | none => none
  | some (n, r) => if n ≤ r.length then some (r.take n, r.drop n) else none

/-- protowire `ConsumeFixed32`, `ConsumeFixed64` -/
def readFixed (n : Nat) (b : Bytes) : Option Bytes := if n ≤ b.length then some (b.drop n) else none

/-- protowire `ConsumeTag`: field number and wire type; only the field number 0 and those above 2^31-1 are refused -/
def readTag (b : Bytes) : Option (Nat × Nat × Bytes) :=
  match readVarint b with
  | none => none
  | some (t, r) => if t / 8 < 1 ∨ 2 ^ 31 - 1 < t / 8 then none else some (t / 8, t % 8, r)

/-- protowire `ConsumeFieldValue` for a group: the fields up to the end of the group, with the groups that are open -/
def skipGroup : Nat → List Nat → Bytes → Option Bytes
  | 0, _, _ => none
  | _ + 1, [], b => some b
  | fuel + 1, g :: gs, b =>
    match readTag b with
    | none => none
    | some (num, typ, r) =>
      if typ = 0 then
        match readVarint r with
        | none => none
        | some (_, r) => skipGroup fuel (g :: gs) r
      else if typ = 1 then
        match readFixed 8 r with
        | none => none
        | some r => skipGroup fuel (g :: gs) r
      else if typ = 2 then
        match readBytes r with
        | none => none
        | some (_, r) => skipGroup fuel (g :: gs) r
      else if typ = 3 then skipGroup fuel (num :: g :: gs) r
      else if typ = 4 then (if num = g then skipGroup fuel gs r else none)
      else if typ = 5 then
        match readFixed 4 r with
        | none => none
        | some r => skipGroup fuel (g :: gs) r
      else none

/-- protobuf impl/decode.go `unmarshalPointer`, one turn of the loop: a field number up to 2^29-1, no end of a group -/
def readField (b : Bytes) : Option ((Nat × Value) × Bytes) :=
  match readTag b with
  | none => none
  | some (num, typ, r) =>
    if 2 ^ 29 - 1 < num then none
    else if typ = 0 then (readVarint r).map fun (n, r) => ((num, .number n), r)
    else if typ = 1 then (readFixed 8 r).map fun r => ((num, .other), r)
    else if typ = 2 then (readBytes r).map fun (b, r) => ((num, .bytes b), r)
    else if typ = 3 then (skipGroup (r.length + 1) [num] r).map fun r => ((num, .other), r)
    else if typ = 5 then (readFixed 4 r).map fun r => ((num, .other), r)
    else none

/-- protobuf impl/decode.go `unmarshalPointer`, the loop -/
def readFieldsAux : Nat → Bytes → Option (List (Nat × Value))
  | _, [] => some []
  | 0, _ :: _ => none
  | fuel + 1, x :: xs =>
    match readField (x :: xs) with
    | none => none
    | some (f, r) => (readFieldsAux fuel r).map fun fs => f :: fs

/-- protobuf impl/decode.go `unmarshalPointer` -/
def readFields (b : Bytes) : Option (List (Nat × Value)) := readFieldsAux b.length b

/-! ## strings -/

/-- a Go string with the bytes of the text -/
def utf8 (s : String) : Bytes := s.toByteArray.data.toList

/-- `utf8.ValidString`: the text of bytes -/
def ofUtf8 (b : Bytes) : Option String := String.fromUTF8? ⟨b.toArray⟩

/-! ## reading fields of messages -/

/-- the contents of the fields `num` that carry bytes; a field of another wire type is unknown -/
def bytesOf (num : Nat) (fs : List (Nat × Value)) : List Bytes :=
  fs.filterMap fun f => match f with
    | (n, .bytes b) => if n = num then some b else none
    | _ => none

/-- the numbers of the fields `num` -/
def numbersOf (num : Nat) (fs : List (Nat × Value)) : List Nat :=
  fs.filterMap fun f => match f with
    | (n, .number v) => if n = num then some v else none
    | _ => none

/-- a repeated field of texts: each must be valid -/
def stringsOf (num : Nat) (fs : List (Nat × Value)) : Option (List String) := (bytesOf num fs).mapM ofUtf8

/-- a text: the last one counts, all must be valid -/
def stringOf (num : Nat) (fs : List (Nat × Value)) : Option String := (stringsOf num fs).map fun l => l.getLast?.getD ""

/-- bytes: the last ones count -/
def blobOf (num : Nat) (fs : List (Nat × Value)) : Bytes := (bytesOf num fs).getLast?.getD []

/-- an enum: the last number, of which 32 bits are kept -/
def enumOf (num : Nat) (fs : List (Nat × Value)) : Nat := ((numbersOf num fs).getLast?.getD 0) % 2 ^ 32

/-! ## writing -/

/-- protowire `AppendTag` -/
def tag (num typ : Nat) : Bytes := varint (num * 8 + typ)

/-- protowire `AppendBytes` behind a tag -/
def bytesField (num : Nat) (b : Bytes) : Bytes := tag num 2 ++ (varint b.length ++ b)

/-- a field of proto3 is left out when it is empty -/
def blobField (num : Nat) (b : Bytes) : Bytes := if b = [] then [] else bytesField num b

/-- an enum, left out when it is 0 -/
def enumField (num : Nat) (n : Nat) : Bytes := if n = 0 then [] else tag num 0 ++ varint n

/-- simplification: messages of 4 GiB and more are not encoded -/
def limit (b : Bytes) : Option Bytes := if b.length < 2 ^ 32 then some b else none

/-! ## the messages -/

/-- messages/join_party.proto:7-9 `JoinPartyRequest`, `proto.Marshal` (p2p/party_coordinator.go:499) -/
def encReq (id : String) : Bytes := blobField 1 (utf8 id)

/-- messages/join_party.proto:7-9, `proto.Unmarshal` (p2p/party_coordinator.go:123, 159) -/
def decReq (b : Bytes) : Option String := (readFields b).bind (stringOf 1)

/-- messages/join_party.proto:12-18 `ResponseType` -/
def typeNumber : RespType → Nat
  | .unknown => 0
  | .success => 1
  | .timeout => 2
  | .leaderNotReady => 3
  | .unknownPeer => 4

/-- messages/join_party.proto:12-18; a number without a name is treated like `Unknown`: it is only compared with `Success` (p2p/party_coordinator.go:409) -/
def typeOf : Nat → RespType
  | 1 => .success
  | 2 => .timeout
  | 3 => .leaderNotReady
  | 4 => .unknownPeer
  | _ => .unknown

/-- messages/join_party.proto:11-24 `JoinPartyLeaderComm`, `proto.Marshal` (p2p/party_coordinator.go:223, 246) -/
def encComm (m : Comm) : Bytes :=
  blobField 1 (utf8 m.id) ++ (blobField 2 (utf8 m.msgType) ++ (enumField 3 (typeNumber m.typ) ++ m.peerIDs.flatMap fun p => bytesField 4 (utf8 p)))

/-- messages/join_party.proto:11-24, `proto.Unmarshal` (p2p/party_coordinator.go:166) -/
def decComm (b : Bytes) : Option Comm :=
  (readFields b).bind fun fs =>
    match stringOf 1 fs, stringOf 2 fs, stringsOf 4 fs with
    | some id, some mt, some ps => some ⟨id, mt, typeOf (enumOf 3 fs), ps⟩
    | _, _, _ => none

/-- the two messages of the coordinator -/
def wire : Wire where
  encReq id := limit (encReq id)
  decReq := decReq
  encComm m := limit (encComm m)
  decComm := decComm

/-- messages/signature_notifier.proto:7-16 `KeysignSignature` (status 1 is `Success`, 2 is `Failed`), `proto.Marshal`
(keysign/signature_notifier.go:134) -/
def encNotice (m : SigNotifier.KeysignSignature) : Bytes :=
  blobField 1 (utf8 m.id) ++ (m.signatures.flatMap (bytesField 2) ++ enumField 3 (if m.success then 1 else 2))

/-- messages/signature_notifier.proto:7-16, `proto.Unmarshal` (keysign/signature_notifier.go:72) -/
def decNotice (b : Bytes) : Option SigNotifier.KeysignSignature :=
  (readFields b).bind fun fs => (stringOf 1 fs).map fun id => ⟨id, bytesOf 2 fs, decide (enumOf 3 fs = 1)⟩

/-- tss-lib `ECSignature`: signature, signature_recovery, r, s, m; `proto.Marshal` (keysign/signature_notifier.go:125) -/
def encSig (x : Session.Sig) : Bytes :=
  blobField 1 (x.signature.getD []) ++ (blobField 2 x.recovery ++ (blobField 3 x.r ++ (blobField 4 x.s ++ blobField 5 x.m)))

/-- tss-lib `ECSignature`, `proto.Unmarshal` (keysign/signature_notifier.go:82); an empty field becomes nil -/
def decSig (b : Bytes) : Option Session.Sig :=
  (readFields b).map fun fs => ⟨if blobOf 1 fs = [] then none else some (blobOf 1 fs), blobOf 2 fs, blobOf 3 fs, blobOf 4 fs, blobOf 5 fs⟩

end Verif.Protobuf
