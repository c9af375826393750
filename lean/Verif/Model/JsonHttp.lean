import Verif.Model.JsonMsg
import Verif.Model.Http

/-!
# Requests and answers of the HTTP end points as JSON
-/
namespace Verif.JsonHttp
open Verif.Go Verif.Json Verif.JsonMsg
open Verif.MsgId (Str)
open Verif.Server (Status)
open Verif.Session (Signature)

/-! ## requests -/

/-- encoding/json `literalStore` into a `string`, kept as its characters -/
def dStr : Dec Str
  | .null, old => some old
  | .str s, _ => some s
  | _, _ => none

/-- keygen/request.go:4-8 -/
def genFields : List (Slot Keygen.Request) :=
  [field "keys" Keygen.Request.keys (fun r x => { r with keys := x }) (dList [] dStr),
   field "block_height" Keygen.Request.blockHeight (fun r x => { r with blockHeight := x }) dInt,
   field "tss_version" Keygen.Request.version (fun r x => { r with version := x }) dStr]

/-- keysign/request.go:4-10 -/
def signFields : List (Slot KeySign.Request) :=
  [field "pool_pub_key" KeySign.Request.poolPubKey (fun r x => { r with poolPubKey := x }) dStr,
   field "messages" KeySign.Request.messages (fun r x => { r with messages := x }) (dList [] dStr),
   field "signer_pub_keys" KeySign.Request.signerPubKeys (fun r x => { r with signerPubKeys := x }) (dList [] dStr),
   field "block_height" KeySign.Request.blockHeight (fun r x => { r with blockHeight := x }) dInt,
   field "tss_version" KeySign.Request.version (fun r x => { r with version := x }) dStr]

/-- `keygen.Request{}`, `keysign.Request{}` -/
def noGen : Keygen.Request := ⟨[], 0, []⟩
def noSign : KeySign.Request := ⟨[], [], [], 0, []⟩

/-- cmd/tss/tss_http.go:65-67 -/
def readGen : Bytes → Option Keygen.Request := decodeFirst noGen (dStruct genFields)

/-- cmd/tss/tss_http.go:102-104 -/
def readSign : Bytes → Option KeySign.Request := decodeFirst noSign (dStruct signFields)

/-- a list of strings (`json.Marshal`; a nil slice is written like an empty one) -/
def textsText (l : List Str) : Str := arrText (l.map quote)

/-- keygen/request.go:4-8: what a client sends who marshals the request -/
def genText (r : Keygen.Request) : Str :=
  objText [("keys", textsText r.keys), ("block_height", intText r.blockHeight), ("tss_version", quote r.version)]

/-- keysign/request.go:4-10 -/
def signText (r : KeySign.Request) : Str :=
  objText [("pool_pub_key", quote r.poolPubKey), ("messages", textsText r.messages), ("signer_pub_keys", textsText r.signerPubKeys),
    ("block_height", intText r.blockHeight), ("tss_version", quote r.version)]

/-! ## answers -/

/-- common/status.go:3-9 -/
def statusNumber : Status → Nat
  | .na => 0
  | .success => 1
  | .fail => 2

/-- a byte slice which is nil if it is empty -/
def nilText (b : Bytes) : Str := if b = [] then "null".toList else bytesText b

/-- blame/types.go:33-37 -/
def nodeText (n : Blame.Node Str) : Str :=
  objText ([("pubkey", quote n.pubkey), ("data", nilText n.data)] ++ ifNot (n.sig = []) "signature" (bytesText n.sig))

/-- blame/types.go:41-46; the lock is not exported, hence not written -/
def blameText (b : Blame.Blame Str) : Str :=
  objText ([("fail_reason", quote b.failReason.toList), ("is_broadcast", boolText b.isUnicast)] ++
    ifNot (b.nodes.isEmpty) "blame_peers" (arrText (b.nodes.map nodeText)))

/-- keygen/response.go:9-14, cmd/tss/tss_http.go:78 -/
def genAnswer (r : Keygen.Response) : Str :=
  objText [("pub_key", quote r.pubKey), ("pool_address", quote r.poolAddress), ("status", natText (statusNumber r.status)), ("blame", blameText r.blame)]

/-- keysign/response.go:9-14; its parts are base64 (tss/keysign.go:335-346) -/
def signatureText (s : Signature) : Str :=
  objText [("signed_msg", bytesText s.msg), ("r", bytesText s.r), ("s", bytesText s.s), ("recovery_id", bytesText s.recoveryID)]

/-- keysign/response.go:17-21, compact -/
def signAnswer (r : KeySign.Response) : Str :=
  objText [("signatures", if r.signatures = [] then "null".toList else arrText (r.signatures.map signatureText)),
    ("status", natText (statusNumber r.status)), ("blame", blameText r.blame)]

/-! ## `json.MarshalIndent` -/

/-- a new line with tabs -/
def newline (d : Nat) : Str := '\n' :: List.replicate d '\t'

/-- where `Indent` is in the text -/
inductive Place
  | out
  | str
  | esc
  deriving DecidableEq

/-- encoding/json `Indent` with tabs: the depth, whether a bracket has just been opened (`needIndent`), where we are -/
def indentFrom : Nat → Bool → Place → Str → Str
  | _, _, _, [] => []
  | d, need, .str, c :: r => c :: indentFrom d need (if c = '"' then .out else if c = '\\' then .esc else .str) r
  | d, need, .esc, c :: r => c :: indentFrom d need .str r
  | d, need, .out, c :: r =>
    if isSpace c then indentFrom d need .out r
    else if c = '}' ∨ c = ']' then
      if need then c :: indentFrom d false .out r else newline (d - 1) ++ c :: indentFrom (d - 1) false .out r
    else
      let d' := if need then d + 1 else d
      (if need then newline (d + 1) else []) ++
        (if c = '{' ∨ c = '[' then c :: indentFrom d' true .out r
        else if c = ',' then c :: (newline d' ++ indentFrom d' false .out r)
        else if c = ':' then c :: ' ' :: indentFrom d' false .out r
        else if c = '"' then c :: indentFrom d' false .str r
        else c :: indentFrom d' false .out r)

/-- encoding/json `Indent` -/
def indent (s : Str) : Str := indentFrom 0 false .out s

/-- cmd/tss/tss_http.go:117 -/
def signAnswerIndented (r : KeySign.Response) : Str := indent (signAnswer r)

/-! ## the end points -/

/-- the end points with the program's JSON: `keygen`, `keysign` are the server's calls -/
def httpEnv {E F : Type} (keygen : Keygen.Request → Option (Keygen.Response × Option E)) (keysign : KeySign.Request → Option (KeySign.Response × Option F))
    (localPeerID : Bytes) (metrics : Http.Req → Http.Reply) : Http.Env Keygen.Request KeySign.Request Keygen.Response KeySign.Response E F where
  decodeG := readGen
  decodeS := readSign
  marshalG r := some (utf8 (genAnswer r))
  marshalS r := some (utf8 (signAnswerIndented r))
  keygen := keygen
  keysign := keysign
  localPeerID := localPeerID
  metrics := metrics

/-! ## a client which reads the answers -/

/-- keygen/response.go:9-14, blame/types.go:33-46, keysign/response.go:9-21 read into the same Go types -/
structure GotGen where
  pubKey : Str := []
  poolAddress : Str := []
  status : Nat := 0
  blame : Blame.Blame Str := ⟨"", false, []⟩
  deriving DecidableEq

structure GotSign where
  signatures : List Signature := []
  status : Nat := 0
  blame : Blame.Blame Str := ⟨"", false, []⟩
  deriving DecidableEq

/-- blame/types.go:33-37 -/
def nodeFields : List (Slot (Blame.Node Str)) :=
  [field "pubkey" Blame.Node.pubkey (fun n x => { n with pubkey := x }) dStr,
   field "data" Blame.Node.data (fun n x => { n with data := x }) dBytes,
   field "signature" Blame.Node.sig (fun n x => { n with sig := x }) dBytes]

/-- blame/types.go:41-46 -/
def blameFields : List (Slot (Blame.Blame Str)) :=
  [field "fail_reason" Blame.Blame.failReason (fun n x => { n with failReason := x }) dString,
   field "is_broadcast" Blame.Blame.isUnicast (fun n x => { n with isUnicast := x }) dBool,
   field "blame_peers" Blame.Blame.nodes (fun n x => { n with nodes := x }) (dList ⟨[], [], []⟩ (dStruct nodeFields))]

/-- keygen/response.go:9-14 -/
def gotGenFields : List (Slot GotGen) :=
  [field "pub_key" GotGen.pubKey (fun n x => { n with pubKey := x }) dStr,
   field "pool_address" GotGen.poolAddress (fun n x => { n with poolAddress := x }) dStr,
   field "status" GotGen.status (fun n x => { n with status := x }) dU8,
   field "blame" GotGen.blame (fun n x => { n with blame := x }) (dStruct blameFields)]

/-- keysign/response.go:9-14; the texts of base64 are decoded -/
def signatureFields : List (Slot Signature) :=
  [field "signed_msg" Signature.msg (fun n x => { n with msg := x }) dBytes,
   field "r" Signature.r (fun n x => { n with r := x }) dBytes,
   field "s" Signature.s (fun n x => { n with s := x }) dBytes,
   field "recovery_id" Signature.recoveryID (fun n x => { n with recoveryID := x }) dBytes]

/-- keysign/response.go:17-21 -/
def gotSignFields : List (Slot GotSign) :=
  [field "signatures" GotSign.signatures (fun n x => { n with signatures := x }) (dList ⟨[], [], [], []⟩ (dStruct signatureFields)),
   field "status" GotSign.status (fun n x => { n with status := x }) dU8,
   field "blame" GotSign.blame (fun n x => { n with blame := x }) (dStruct blameFields)]

/-- `json.Unmarshal` of an answer -/
def clientGen : Bytes → Option GotGen := unmarshal {} (dStruct gotGenFields)
def clientSign : Bytes → Option GotSign := unmarshal {} (dStruct gotSignFields)

end Verif.JsonHttp
