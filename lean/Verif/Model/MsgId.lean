import Verif.Model.Go
import Mathlib.Data.List.Sort
import Mathlib.Data.List.Lex
import Mathlib.Data.Char
import Mathlib.Data.List.Flatten

/-! # tss/tss.go requestToMsgId -/
namespace Verif.MsgId
open Verif.Go

/-- Go strings that are sorted, joined and hashed: lists of characters with the dictionary order. -/
abbrev Str := List Char

/-- keygen.Request (keygen/request.go) and keysign.Request (keysign/request.go), with all their fields. -/
inductive Request where
  | keygen (keys : List Str) (blockHeight : Int) (version : Str)
  | keysign (poolPubKey : Str) (messages : List Str) (signerPubKeys : List Str) (blockHeight : Int) (version : Str)
  deriving DecidableEq

/-- `sort.Strings`. -/
def sortStrings (l : List Str) : List Str := l.insertionSort (· ≤ ·)

/-- `strings.Join(l, ",")`. -/
def joinComma : List Str → Str
  | [] => []
  | [s] => s
  | s :: l => s ++ (',' :: joinComma l)

/-- tss/tss.go:146-166: the bytes that are hashed. The sorts happen in place on the caller's slices; that side effect is
not part of this function. -/
def msgData : Request → Str
  | .keygen keys _ _ => (sortStrings keys).flatten
  | .keysign _ messages signers _ _ => joinComma (sortStrings messages) ++ (sortStrings signers).flatten

/-- common/tss_helper.go:45-55 `MsgToHashString`; `sha` is sha256 followed by hex encoding. -/
def MsgToHashString {D : Type} (sha : Str → D) (msg : Str) : Res D :=
  if msg.length = 0 then .err "empty message" else .ok (sha msg)

/-- tss/tss.go:146-167 `requestToMsgId`. -/
def requestToMsgId {D : Type} (sha : Str → D) (r : Request) : Res D := MsgToHashString sha (msgData r)

end Verif.MsgId
