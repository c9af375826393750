import Verif.Model.Protobuf
import Mathlib.Data.Nat.Digits.Defs

/-!
# Specification: the encoding of protocol buffers

Written from the documentation of the encoding (protobuf.dev, "Encoding"): varints, tags, the wire types, groups.
-/
namespace Verif.Spec.Protobuf
open Verif.Protobuf (Value)

/-- `b` is a varint of `n`: groups of seven bits, the lowest first; all bytes but the last have the highest bit set; at most ten bytes, 64 bits -/
def IsVarint (b : Bytes) (n : Nat) : Prop :=
  ∃ (front : Bytes) (last : UInt8), b = front ++ [last] ∧ (∀ x ∈ front, 128 ≤ x.toNat) ∧ last.toNat < 128 ∧ b.length ≤ 10 ∧
    Nat.ofDigits 128 (b.map fun x => x.toNat % 128) = n ∧ n < 2 ^ 64

/-- `b` is the tag of a field: its number and its wire type -/
def IsTag (b : Bytes) (num typ : Nat) : Prop := IsVarint b (num * 8 + typ) ∧ typ < 8 ∧ 1 ≤ num ∧ num < 2 ^ 31

/-- `b` is the payload of a wire type other than groups: 0 is a varint, 1 are 8 bytes, 2 are bytes behind their length, 5 are 4 bytes -/
inductive Plain : Nat → Bytes → Value → Prop
  | number {b : Bytes} {n : Nat} (h : IsVarint b n) : Plain 0 b (.number n)
  | fixed64 {b : Bytes} (h : b.length = 8) : Plain 1 b .other
  | bytes {l b : Bytes} (h : IsVarint l b.length) : Plain 2 (l ++ b) (.bytes b)
  | fixed32 {b : Bytes} (h : b.length = 4) : Plain 5 b .other

/-- `b` is the rest of the groups `open_`, the innermost first: fields, further groups (wire type 3), ends of groups (wire type 4) -/
inductive Groups : List Nat → Bytes → Prop
  | done : Groups [] []
  | field {t b r : Bytes} {num typ g : Nat} {gs : List Nat} {v : Value} (ht : IsTag t num typ) (hb : Plain typ b v) (hr : Groups (g :: gs) r) :
      Groups (g :: gs) (t ++ (b ++ r))
  | opens {t r : Bytes} {num g : Nat} {gs : List Nat} (ht : IsTag t num 3) (hr : Groups (num :: g :: gs) r) : Groups (g :: gs) (t ++ r)
  | closes {t r : Bytes} {g : Nat} {gs : List Nat} (ht : IsTag t g 4) (hr : Groups gs r) : Groups (g :: gs) (t ++ r)

/-- `b` is a message with these fields -/
inductive Fields : Bytes → List (Nat × Value) → Prop
  | nil : Fields [] []
  | plain {t b r : Bytes} {num typ : Nat} {v : Value} {fs : List (Nat × Value)} (ht : IsTag t num typ) (hn : num < 2 ^ 29) (hb : Plain typ b v)
      (hr : Fields r fs) : Fields (t ++ (b ++ r)) ((num, v) :: fs)
  | group {t g r : Bytes} {num : Nat} {fs : List (Nat × Value)} (ht : IsTag t num 3) (hn : num < 2 ^ 29) (hg : Groups [num] g)
      (hr : Fields r fs) : Fields (t ++ (g ++ r)) ((num, .other) :: fs)

/-- the bytes of the fields with this number, in their order -/
def payloads (num : Nat) (fs : List (Nat × Value)) : List Bytes :=
  (fs.filter fun f => f.1 = num).flatMap fun f => match f.2 with | .bytes b => [b] | _ => []

/-- the numbers of the fields with this number, in their order -/
def numbers (num : Nat) (fs : List (Nat × Value)) : List Nat :=
  (fs.filter fun f => f.1 = num).flatMap fun f => match f.2 with | .number n => [n] | _ => []

/-- `repeated string`: all are valid UTF-8 -/
def Texts (num : Nat) (fs : List (Nat × Value)) (l : List String) : Prop := payloads num fs = l.map fun s => s.toUTF8.data.toList

/-- `string`: all are valid UTF-8, and the last one counts; the empty text if there is none -/
def Text (num : Nat) (fs : List (Nat × Value)) (s : String) : Prop := ∃ l, Texts num fs l ∧ l.getLast?.getD "" = s

/-- `bytes`: the last one counts -/
def Blob (num : Nat) (fs : List (Nat × Value)) (b : Bytes) : Prop := (payloads num fs).getLast?.getD [] = b

/-- `enum`: the last one counts, and of it the low 32 bits; 0 if there is none -/
def Enum (num : Nat) (fs : List (Nat × Value)) (n : Nat) : Prop := (numbers num fs).getLast?.getD 0 % 2 ^ 32 = n

/-- the names of the numbers in messages/join_party.proto:12-18 -/
def typeNames : List JoinParty.RespType := [.unknown, .success, .timeout, .leaderNotReady, .unknownPeer]

/-- messages/join_party.proto:7-9: `b` is a `JoinPartyRequest` -/
def IsReq (b : Bytes) (id : String) : Prop := ∃ fs, Fields b fs ∧ Text 1 fs id

/-- messages/join_party.proto:11-24: `b` is a `JoinPartyLeaderComm`; a type without a name is `Unknown` -/
def IsComm (b : Bytes) (m : JoinNet.Comm) : Prop :=
  ∃ fs n, Fields b fs ∧ Text 1 fs m.id ∧ Text 2 fs m.msgType ∧ Enum 3 fs n ∧ typeNames[n]?.getD .unknown = m.typ ∧ Texts 4 fs m.peerIDs

/-- messages/signature_notifier.proto:7-16: `b` is a `KeysignSignature` -/
def IsNotice (b : Bytes) (m : SigNotifier.KeysignSignature) : Prop :=
  ∃ fs n, Fields b fs ∧ Text 1 fs m.id ∧ payloads 2 fs = m.signatures ∧ Enum 3 fs n ∧ (m.success = true ↔ n = 1)

/-- tss-lib's `ECSignature`; an empty signature is nil -/
def IsSig (b : Bytes) (x : Session.Sig) : Prop :=
  ∃ fs sig, Fields b fs ∧ Blob 1 fs sig ∧ (x.signature = if sig = [] then none else some sig) ∧ Blob 2 fs x.recovery ∧ Blob 3 fs x.r ∧
    Blob 4 fs x.s ∧ Blob 5 fs x.m

/-- two lists of fields differ only in the fields with other numbers and in the order of fields with different numbers -/
def Alike (nums : List Nat) (fs gs : List (Nat × Value)) : Prop := ∀ num ∈ nums, (fs.filter fun f => f.1 = num) = gs.filter fun f => f.1 = num

end Verif.Spec.Protobuf
