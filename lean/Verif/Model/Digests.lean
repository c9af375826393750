import Verif.Model.Sha256
import Verif.Model.Json
import Verif.Model.MsgId
import Verif.Model.Leader
import Mathlib.Data.String.Basic

/-! # The digests of the program -/
namespace Verif.Digests
open Verif.Sha256

/-- common/tss_helper.go:49-54, the digest of `MsgToHashString` for a text -/
def idHash (s : MsgId.Str) : MsgId.Str := hashText (Json.utf8 s)

/-- tss/tss.go:146-167 `requestToMsgId` with its digest -/
def requestToMsgId (r : MsgId.Request) : Go.Res MsgId.Str := MsgId.requestToMsgId idHash r

/-- p2p/leader_provider.go:19-20 -/
def leaderHash (s : String) : String := String.ofList (hashText (Json.utf8 s.toList))

/-- p2p/leader_provider.go:12-26 `LeaderNode` with its digest -/
def LeaderNode (msgID : String) (blockHeight : Int) (pIDs : List String) : Go.Res String := Leader.LeaderNode leaderHash msgID blockHeight pIDs

/-- conversion/conversion.go:170-177 `BytesToHashString` -/
def BytesToHashString (b : Bytes) : String := String.ofList (hashText b)

end Verif.Digests
