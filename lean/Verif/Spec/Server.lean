import Verif.Model.Server
import Verif.Props.C19_C24
import Verif.Props.C02_C05

/-!
# Vocabulary for the joining of parties

How a join call of Keygen or KeySign may end, in terms of the messages that came in.
-/
namespace Verif.Spec.Server
open Verif.Go Verif.Conversion Verif.Blame Verif.Server Verif.Props Verif.Props.Join Verif.Spec
open Verif.JoinParty

variable {P S H L : Type} [DecidableEq P] [LinearOrder S] [LinearOrder H]

/-- peer ids as texts: decoding inverts printing, and "NONE" is not a peer id -/
structure LawfulPeers (cd : PeerCodec P) : Prop where
  decode_str : ∀ p, cd.decode (cd.str p) = some p
  none : cd.decode "NONE" = none

/-- the key taken out of a peer id is canonical and leads back to that peer id -/
def LawfulKeys (c : Codec Str P) : Prop := ∀ p k, GetPubKeyFromPeerID c p = .ok k → ∃ b, Conv.Canonical c k b ∧ c.peerOf b = some p

/-- How the leaderless join of the peers `committee` may end: it reports the local peer and the members heard from in the first part `h1` of
the history; no error iff these are all. -/
def LeaderlessVerdict (me : P) (committee : List P) (id : String) (h1 : List (Event P)) (r : Result P) : Prop :=
  r.online.Nodup ∧ (∀ p, p ∈ r.online ↔ p = me ∨ (p ∈ committee ∧ p ∈ heard id h1)) ∧
  (r.err = none ∨ r.err = some .timeout) ∧ (r.err = none ↔ ∀ p ∈ committee, p ≠ me → p ∈ heard id h1)

/-- How the join call of a request may end: `keys` are the keys of the nodes asked for. Without a leader as above; with a leader, who has the
smallest hash, by the verdict of this node, if it leads, or by what the leader answered. -/
def JoinEnd (env : Env P S H L) (old : Bool) (keys : List Str) (t : Int) (id : String) (blockHeight : Int) (jh : List (Event P)) (leader : String)
    (r : Result P) : Prop :=
  ∃ committee, GetPeerIDsFromPubKeys env.codec keys = .ok committee ∧
    (old = true ∧ leader = "NONE" ∧ (committee.Nodup → env.me ∈ committee → ∃ h1, h1 <+: jh ∧ LeaderlessVerdict env.me committee id h1 r) ∨
     old = false ∧ Leader.LeaderNode env.shaLeader id blockHeight (committee.map env.peers.str) = .ok leader ∧
      (env.peers.str env.me = leader ∧ (∃ h1 sent, h1 <+: jh ∧ LeaderVerdict env.peers env.me committee t id h1 r sent) ∨
       env.peers.str env.me ≠ leader ∧ MemberOutcome env.peers t id leader jh r))

end Verif.Spec.Server
