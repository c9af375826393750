import Verif.Spec.KeySign
import Verif.Spec.Server

/-! A concrete node for the examples about Keygen and KeySign: members 0 to 3 have the keys "ka" to "kd" and the peer ids 10 to 13. -/
namespace Verif.Spec.DemoServer
open Verif.Go Verif.Conversion Verif.Blame Verif.JoinParty Verif.Server Verif.Session Verif.Spec.Server

/-- the key of member `i` -/
def key (i : Nat) : Str := ['k', Char.ofNat (97 + i)]

/-- toy encodings -/
def codec : Codec Str Nat where
  dec k := match k with
    | ['k', c] => some [UInt8.ofNat (c.toNat - 96)]
    | _ => none
  enc b := match b with
    | [x] => some ['k', Char.ofNat (96 + x.toNat)]
    | _ => none
  peerOf b := match b with
    | [x] => some (x.toNat + 9)
    | _ => none
  rawOf p := if 10 ≤ p ∧ p < 100 then some [UInt8.ofNat (p - 9)] else none

/-- peer `n` prints as "p" followed by `n` copies of "x" -/
def peers : PeerCodec Nat where
  str n := String.ofList ('p' :: List.replicate n 'x')
  decode s := match s.toList with
    | 'p' :: l => some l.length
    | _ => none

/-- "o" is the version 0.13.0, "n" is 0.14.0 -/
def parseVer : Str → Option (Version.Ver Nat)
  | ['o'] => some ⟨0, 13, 0, []⟩
  | ['n'] => some ⟨0, 14, 0, []⟩
  | _ => none

/-- the share of member `i` -/
def state (i : Nat) : LocalState Unit := ⟨['y'], (), [key 0, key 1, key 2, key 3], key i⟩

/-- the environment of sessions in which no message can be decoded -/
def session : TssCommon.Env Str Nat where
  codec := codec
  decWrapped _ := none
  decWire _ := none
  decConfirm _ := none
  decTask _ := none
  decControl _ := none
  decBulk _ := none
  parse _ := none
  hash _ := ""
  verify _ _ _ := false
  msgID := []
  parties := []
  upd _ _ := none
  localPeer := 0
  p2pPeers := []

/-- the node with the peer id 10 + `i`; a shorter text has a smaller hash, so that member 0 leads -/
def env (i : Nat) : Env Nat Nat Nat Unit where
  codec
  peers
  me := 10 + i
  parseVer
  gate := ['n']
  shaID s := String.ofList s
  shaLeader s := s.length
  storage := ⟨fun _ => .ok true, fun _ => some [UInt8.ofNat i], fun b => match b with | [x] => some (state x.toNat) | _ => none⟩
  folder := []
  session
  pstr n := String.ofList (List.replicate n 'x')
  isBroadcast _ := true

/-- a disk with the share of member `i` for the pool key "y" -/
def disk (i : Nat) : Storage.Disk := [(Storage.join [] (Storage.localFileName "y"), [UInt8.ofNat i])]

/-- "m" followed by one character is the base64 form of a message of one byte -/
def base64 : Str → Option Bytes
  | ['m', c] => some [UInt8.ofNat c.toNat]
  | _ => none

/-- visiting orders -/
def keep : JoinParty.Shuffle Nat := ⟨id, fun l => List.Perm.refl l⟩

/-- visiting orders -/
def sched : KeySign.SetupSched Nat := ⟨Go.Shuffle.id _, Go.Shuffle.id _, Go.Shuffle.id _⟩

/-- notifications: `[a]` announces the good signature of message `[a]` under the id "ma" -/
def notifier : SigNotifier.Env where
  verify _ m r s := some (decide (Bytes.toNat m = r ∧ r = s))
  decMsg p := match p with
    | [a] => some ⟨String.ofList ['m', Char.ofNat a.toNat], [[a]], true⟩
    | _ => none
  decSig b := some ⟨some b, [], b, b, b⟩

/-- a request of the message "ma" -/
def request (version : Str) (signers : List Nat) : KeySign.Request := ⟨['y'], [['m', 'a']], signers.map key, 5, version⟩

theorem lawfulPeers : LawfulPeers peers where
  decode_str p := by simp [peers]
  none := by decide

theorem lawfulKeys : LawfulKeys codec := by
  have h : ∀ p, p < 100 → 10 ≤ p → codec.dec ['k', Char.ofNat (96 + (UInt8.ofNat (p - 9)).toNat)] = some [UInt8.ofNat (p - 9)] ∧
      UInt8.ofNat (p - 9) ≠ 0 ∧ (UInt8.ofNat (p - 9)).toNat + 9 = p := by decide +kernel
  intro p k hk
  simp only [GetPubKeyFromPeerID, codec] at hk
  by_cases hp : 10 ≤ p ∧ p < 100
  · rw [if_pos hp] at hk
    cases hk
    obtain ⟨h1, h2, h3⟩ := h p hp.2 hp.1
    refine ⟨[UInt8.ofNat (p - 9)], ⟨h1, rfl, ⟨_, [], rfl, h2⟩, ?_⟩, by simp only [codec, h3]⟩
    intro q hq
    simp only [codec, Option.some.injEq, h3] at hq
    subst hq
    simp [codec, hp]
  · rw [if_neg hp] at hk
    cases hk

end Verif.Spec.DemoServer
