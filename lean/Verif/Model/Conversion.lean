import Verif.Model.Bytes
import Mathlib.Data.List.Sort

/-!
# conversion package and hashing helpers of common

Strings that are sorted by the code are abstracted to an arbitrary linearly ordered type `K` (Go compares strings
byte-wise, a linear order).  bech32, libp2p peer-id encoding and key parsing are parameters (`Codec`).
-/
namespace Verif.Conversion
open Verif.Go

/-- The order of secp256k1 (btcec.S256().N), the curve used by `MsgToHashInt`. -/
def secp256k1N : Nat := 0xfffffffffffffffffffffffffffffffebaaedce6af48a03bbfd25e8cd0364141

/-- `big.Int.BitLen`. -/
def bitLen (n : Nat) : Nat := if n = 0 then 0 else Nat.log2 n + 1

/-- common/tss_helper.go:57-70 `hashToInt`, for a curve of order `N`. -/
def hashToInt (hash : Bytes) (N : Nat) : Nat :=
  let orderBits := bitLen N
  let orderBytes := (orderBits + 7) / 8
  let hash := if hash.length > orderBytes then hash.take orderBytes else hash
  let ret := Bytes.toNat hash
  let excess : Int := (hash.length * 8 : Int) - orderBits
  if excess > 0 then ret >>> excess.toNat else ret

/-- common/tss_helper.go:41-43 `MsgToHashInt` (never returns an error). -/
def MsgToHashInt (msg : Bytes) : Res Nat := .ok (hashToInt msg secp256k1N)

/-- The library encodings used by the conversion package:
`dec`/`enc` are `sdk.GetPubKeyFromBech32(..).Bytes()` and `sdk.Bech32ifyPubKey`;
`peerOf` is `UnmarshalSecp256k1PublicKey` followed by `peer.IDFromPublicKey`;
`rawOf` is `peer.Decode`, `ExtractPublicKey`, `Raw`. `none` is the error case. -/
structure Codec (K P : Type) where
  dec : K → Option Bytes
  enc : Bytes → Option K
  peerOf : Bytes → Option P
  rawOf : P → Option Bytes

/-- tss-lib `PartyID`. `id` is `strconv.Itoa(idx)`, kept as the number; `key` is the big.Int's bytes; `index` starts
at -1 and is assigned by `SortPartyIDs`. The moniker (always "") is dropped. -/
structure Party where
  id : Nat
  key : Bytes
  index : Int
  deriving DecidableEq, Repr

/-- tss-lib `PartyID.KeyInt`. -/
def Party.keyInt (p : Party) : Nat := Bytes.toNat p.key

/-- tss-lib `PartyID.ValidateBasic` for a non-nil party: key non-nil and index assigned.
(Simplification: a zero-length key counts as non-nil.) -/
def Party.valid (p : Party) : Bool := decide (0 ≤ p.index)

section
variable {K P : Type}

/-- tss-lib `NewPartyID(strconv.Itoa(idx), "", new(big.Int).SetBytes(pk))`. -/
def newParty (idx : Nat) (pk : Bytes) : Party := { id := idx, key := Bytes.ofNat (Bytes.toNat pk), index := -1 }

/-- conversion/conversion.go:114-130, the loop of `GetParties` over the sorted keys: the unsorted parties and the id of
the local party (the last occurrence of the local key wins). -/
def buildParties [DecidableEq K] (dec : K → Option Bytes) (localKey : K) :
    Nat → List K → Res (List Party × Option Nat)
  | _, [] => .ok ([], none)
  | idx, k :: ks =>
    match dec k with
    | none => .err "fail to get account pub key address"
    | some b =>
      match buildParties dec localKey (idx + 1) ks with
      | .ok (ps, l) => .ok (newParty idx b :: ps, match l with
          | some i => some i
          | none => if k = localKey then some idx else none)
      | .err e => .err e
      | .panic => .panic

/-- tss-lib `SortPartyIDs`: sort by key value, then number the parties. (The library's sort is not stable; it is
modelled by a stable one, which only matters for parties with equal keys.) -/
def sortPartyIDs (ps : List Party) : List Party :=
  ((ps.insertionSort (fun a b => a.keyInt ≤ b.keyInt)).zipIdx).map (fun q => { q.1 with index := (q.2 : Int) })

/-- conversion/conversion.go:110-136 `GetParties`. The returned local party is the pointer that was stored in the
list, hence the list entry with that id after sorting. -/
def GetParties [LinearOrder K] (dec : K → Option Bytes) (keys : List K) (localKey : K) :
    Res (List Party × Party) :=
  match buildParties dec localKey 0 (keys.insertionSort (· ≤ ·)) with
  | .err e => .err e
  | .panic => .panic
  | .ok (unsorted, none) => let _ := unsorted; .err "local party is not in the list"
  | .ok (unsorted, some i) =>
    match (sortPartyIDs unsorted).find? (fun p => p.id = i) with
    | some p => .ok (sortPartyIDs unsorted, p)
    | none => .panic

/-- conversion/conversion.go:26-36 `GetPeerIDFromSecp256PubKey`. -/
def GetPeerIDFromSecp256PubKey (c : Codec K P) (b : Bytes) : Res P :=
  if b.length = 0 then .err "empty public key raw bytes"
  else match c.peerOf b with
  | some p => .ok p
  | none => .err "fail to convert pubkey to the crypto pubkey used in libp2p"

/-- conversion/conversion.go:38-44 `GetPeerIDFromPartyID` (non-nil party). -/
def GetPeerIDFromPartyID (c : Codec K P) (p : Party) : Res P :=
  if p.valid then GetPeerIDFromSecp256PubKey c (Bytes.ofNat p.keyInt) else .err "invalid partyID"

/-- conversion/conversion.go:46-59 `PartyIDtoPubKey` (non-nil party). -/
def PartyIDtoPubKey (c : Codec K P) (p : Party) : Res K :=
  if p.valid then
    match c.enc p.key with
    | some k => .ok k
    | none => .err "bech32"
  else .err "invalid party"

/-- conversion/key_provider.go:19-29 `GetPeerIDFromPubKey`. -/
def GetPeerIDFromPubKey (c : Codec K P) (k : K) : Res P :=
  match c.dec k with
  | none => .err "fail to parse account pub key"
  | some b => match c.peerOf b with
    | some p => .ok p
    | none => .err "fail to convert pubkey to the crypto pubkey used in libp2p"

/-- conversion/key_provider.go:32-42 and 45-55 `GetPeerIDsFromPubKeys`, `GetPeerIDs`. -/
def GetPeerIDsFromPubKeys (c : Codec K P) : List K → Res (List P)
  | [] => .ok []
  | k :: ks => (GetPeerIDFromPubKey c k).bind fun p => (GetPeerIDsFromPubKeys c ks).bind fun ps => .ok (p :: ps)

/-- conversion/key_provider.go:71-88 `GetPubKeyFromPeerID`. -/
def GetPubKeyFromPeerID (c : Codec K P) (p : P) : Res K :=
  match c.rawOf p with
  | none => .err "fail to extract pub key from peer id"
  | some b => match c.enc b with
    | some k => .ok k
    | none => .err "bech32"

/-- conversion/key_provider.go:58-68 `GetPubKeysFromPeerIDs`. -/
def GetPubKeysFromPeerIDs (c : Codec K P) : List P → Res (List K)
  | [] => .ok []
  | p :: ps => (GetPubKeyFromPeerID c p).bind fun k => (GetPubKeysFromPeerIDs c ps).bind fun ks => .ok (k :: ks)

/-- conversion/conversion.go:77-83 `SetupPartyIDMap`. -/
def SetupPartyIDMap (ps : List Party) : Map Nat Party :=
  ps.foldl (fun m p => Map.set m p.id p) []

/-- conversion/conversion.go:61-75 `AccPubKeysFromPartyIDs`. -/
def AccPubKeysFromPartyIDs (c : Codec K P) (m : Map Nat Party) : List Nat → Res (List K)
  | [] => .ok []
  | i :: is =>
    match Map.get m i with
    | none => .err "cannot find the blame party"
    | some p => (PartyIDtoPubKey c p).bind fun k => (AccPubKeysFromPartyIDs c m is).bind fun ks => .ok (k :: ks)

/-- conversion/conversion.go:99-108 `SetupIDMaps`: `order` is the visiting order of `parties`; the target map is written
entry by entry and keeps what was written before an error. -/
def SetupIDMaps (c : Codec K P) (order : List (Nat × Party)) (target : Map Nat P) : Map Nat P × Res Unit :=
  match order with
  | [] => (target, .ok ())
  | (id, party) :: rest =>
    match GetPeerIDFromPartyID c party with
    | .ok peer => SetupIDMaps c rest (Map.set target id peer)
    | .err e => (target, .err e)
    | .panic => (target, .panic)

/-- conversion/conversion.go:85-97 `GetPeersID` (non-nil map); `order` is the visiting order of the map. -/
def GetPeersID [DecidableEq P] (order : List (Nat × P)) (localPeer : P) : List P :=
  (order.map Prod.snd).filter (fun p => p ≠ localPeer)

end

/-- A Go byte slice seen together with the bytes of its backing array after its end (length is `data.length`, capacity is
`data.length + tail.length`). -/
structure Slice where
  data : Bytes
  tail : Bytes
  deriving DecidableEq, Repr

/-- `s[:n]`: re-slicing is allowed up to the capacity, beyond it panics. -/
def Slice.upTo (s : Slice) (n : Nat) : Res Bytes :=
  if n ≤ s.data.length + s.tail.length then .ok ((s.data ++ s.tail).take n) else .panic

/-- value of a hexadecimal digit, `none` when the byte is not one (encoding/hex `fromHexChar`). -/
def hexVal (c : UInt8) : Option Nat :=
  let n := c.toNat
  if 48 ≤ n ∧ n ≤ 57 then some (n - 48)
  else if 97 ≤ n ∧ n ≤ 102 then some (n - 97 + 10)
  else if 65 ≤ n ∧ n ≤ 70 then some (n - 65 + 10)
  else none

/-- encoding/hex `Decode`: pairs of digits; odd length or a bad digit is an error. -/
def hexDecode : Bytes → Option Bytes
  | [] => some []
  | [_] => none
  | a :: b :: rest => do
    let x ← hexVal a
    let y ← hexVal b
    let r ← hexDecode rest
    some (UInt8.ofNat (x * 16 + y) :: r)

/-- encoding/hex `DecodeString` decodes in place: `src := []byte(s); n, err := Decode(src, src); return src[:n], err`.
The result's backing array therefore still holds the second half of the hex text after the decoded bytes.
The Go runtime rounds the capacity of `src` up to a size class and zeroes the rest; `pad` is the number of such bytes. -/
def hexDecodeString (pad : Nat) (s : Bytes) : Option Slice :=
  (hexDecode s).map fun d => { data := d, tail := s.drop d.length ++ List.replicate pad 0 }

/-- conversion/key_provider.go:90-102 `GetPriKey`, from the base64-decoded text on; `none` is a base64 error. -/
def GetPriKey (pad : Nat) (priHexBytes : Option Bytes) : Res Bytes :=
  match priHexBytes with
  | none => .err "fail to decode private key"
  | some s =>
    match hexDecodeString pad s with
    | none => .err "fail to hex decode private key"
    | some raw => raw.upTo 32

/-- conversion/key_provider.go:104-112 `GetPriKeyRawBytes` for a secp256k1 key: copies into a 32 byte array. -/
def GetPriKeyRawBytes (pk : Bytes) : Bytes :=
  (pk.take 32) ++ List.replicate (32 - (pk.take 32).length) 0

end Verif.Conversion
