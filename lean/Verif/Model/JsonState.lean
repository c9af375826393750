import Verif.Model.JsonHttp
import Verif.Model.Curve
import Verif.Model.Bech32
import Verif.Model.Storage

/-!
# Key shares as JSON

`KeygenLocalState` with tss-lib's `LocalPartySaveData`, as `json.Marshal` writes it into the file of a key and `json.Unmarshal` reads it. The layout of
tss-lib's data, which is not in /repo, follows the files in test_data/keysign_data. Slices that are nil are written and read like empty ones.
-/
namespace Verif.JsonState
open Verif.Go Verif.Json Verif.JsonMsg Verif.JsonHttp
open Verif.MsgId (Str)
open Verif.Server (LocalState)

/-- math/big `Int.UnmarshalJSON` of the text of a number: an integer of any size; fractions and exponents are refused -/
def parseBig (t : Str) : Option Int :=
  match t with
  | [] => none
  | c :: r =>
    if c = '-' then (if r.all Char.isDigit then some (-(decimal r : Int)) else none)
    else if (c :: r).all Char.isDigit then some (decimal (c :: r) : Int)
    else none

/-- math/big `Int.UnmarshalJSON` -/
def dBig : Dec Int
  | .null, old => some old
  | .num t, _ => parseBig t
  | _, _ => none

/-- `*big.Int` -/
abbrev Big := Option Int

/-- reading and writing a `*big.Int` -/
def dNum : Dec Big := dPtr 0 dBig
def numText (o : Big) : Str := ptrText intText o

/-- tss-lib `crypto.ECPoint`: its coordinates; both `NewECPoint` and `UnmarshalJSON` refuse points that are not on the curve (btcec's `IsOnCurve`, which
does not look at signs) -/
def Pt : Type := { c : Int × Int // Curve.isOnCurve c.1.natAbs c.2.natAbs = true }

/-- encoding/json `array` into an array of two: further elements are skipped, missing ones zero -/
def dTwo : Dec (Big × Big)
  | .null, old => some old
  | .arr [], _ => some (none, none)
  | .arr [a], old => (dNum a old.1).map fun x => (x, none)
  | .arr (a :: b :: _), old =>
    match dNum a old.1, dNum b old.2 with
    | some x, some y => some (x, y)
    | _, _ => none
  | _, _ => none

/-- tss-lib `ECPoint.UnmarshalJSON`: the fields of the auxiliary struct, then the check -/
def coordFields : List (Slot (Big × Big)) := [field "Coords" id (fun _ x => x) dTwo]

def dPoint : Dec (Option Pt)
  | .null, _ => some none
  | j, _ =>
    match dStruct coordFields j (none, none) with
    | some (some x, some y) => if h : Curve.isOnCurve x.natAbs y.natAbs = true then some (some ⟨(x, y), h⟩) else none
    | _ => none

/-- tss-lib `ECPoint.MarshalJSON` -/
def pointText (p : Pt) : Str := objText [("Coords", arrText [intText p.1.1, intText p.1.2])]

/-- tss-lib `paillier.PrivateKey` with the embedded `PublicKey` -/
structure PrivateKey where
  n : Big := none
  lambdaN : Big := none
  phiN : Big := none
  deriving DecidableEq, Repr

/-- tss-lib `LocalPartySaveData` with the embedded `LocalPreParams` and `LocalSecrets`; a `paillier.PublicKey` is its `N` -/
structure SaveData where
  paillierSK : Option PrivateKey := none
  ntildei : Big := none
  h1i : Big := none
  h2i : Big := none
  alpha : Big := none
  beta : Big := none
  p : Big := none
  q : Big := none
  xi : Big := none
  shareID : Big := none
  ks : List Big := []
  ntildej : List Big := []
  h1j : List Big := []
  h2j : List Big := []
  bigXj : List (Option Pt) := []
  paillierPKs : List (Option Big) := []
  ecdsaPub : Option Pt := none

/-- tss-lib `paillier.PrivateKey` -/
def privFields : List (Slot PrivateKey) :=
  [field "N" PrivateKey.n (fun k x => { k with n := x }) dNum,
   field "LambdaN" PrivateKey.lambdaN (fun k x => { k with lambdaN := x }) dNum,
   field "PhiN" PrivateKey.phiN (fun k x => { k with phiN := x }) dNum]

def privText (k : PrivateKey) : Str := objText [("N", numText k.n), ("LambdaN", numText k.lambdaN), ("PhiN", numText k.phiN)]

/-- tss-lib `paillier.PublicKey` -/
def pubFields : List (Slot Big) := [field "N" id (fun _ x => x) dNum]
def pubText (n : Big) : Str := objText [("N", numText n)]

/-- a slice -/
def sliceText {α : Type} (text : α → Str) (l : List α) : Str := if l.isEmpty then "null".toList else arrText (l.map text)

/-- tss-lib `LocalPartySaveData` -/
def dataFields : List (Slot SaveData) :=
  [field "PaillierSK" SaveData.paillierSK (fun s x => { s with paillierSK := x }) (dPtr {} (dStruct privFields)),
   field "NTildei" SaveData.ntildei (fun s x => { s with ntildei := x }) dNum,
   field "H1i" SaveData.h1i (fun s x => { s with h1i := x }) dNum,
   field "H2i" SaveData.h2i (fun s x => { s with h2i := x }) dNum,
   field "Alpha" SaveData.alpha (fun s x => { s with alpha := x }) dNum,
   field "Beta" SaveData.beta (fun s x => { s with beta := x }) dNum,
   field "P" SaveData.p (fun s x => { s with p := x }) dNum,
   field "Q" SaveData.q (fun s x => { s with q := x }) dNum,
   field "Xi" SaveData.xi (fun s x => { s with xi := x }) dNum,
   field "ShareID" SaveData.shareID (fun s x => { s with shareID := x }) dNum,
   field "Ks" SaveData.ks (fun s x => { s with ks := x }) (dList none dNum),
   field "NTildej" SaveData.ntildej (fun s x => { s with ntildej := x }) (dList none dNum),
   field "H1j" SaveData.h1j (fun s x => { s with h1j := x }) (dList none dNum),
   field "H2j" SaveData.h2j (fun s x => { s with h2j := x }) (dList none dNum),
   field "BigXj" SaveData.bigXj (fun s x => { s with bigXj := x }) (dList none dPoint),
   field "PaillierPKs" SaveData.paillierPKs (fun s x => { s with paillierPKs := x }) (dList none (dPtr none (dStruct pubFields))),
   field "ECDSAPub" SaveData.ecdsaPub (fun s x => { s with ecdsaPub := x }) dPoint]

def dataText (s : SaveData) : Str :=
  objText [("PaillierSK", ptrText privText s.paillierSK), ("NTildei", numText s.ntildei), ("H1i", numText s.h1i), ("H2i", numText s.h2i),
    ("Alpha", numText s.alpha), ("Beta", numText s.beta), ("P", numText s.p), ("Q", numText s.q), ("Xi", numText s.xi), ("ShareID", numText s.shareID),
    ("Ks", sliceText numText s.ks), ("NTildej", sliceText numText s.ntildej), ("H1j", sliceText numText s.h1j), ("H2j", sliceText numText s.h2j),
    ("BigXj", sliceText (ptrText pointText) s.bigXj), ("PaillierPKs", sliceText (ptrText pubText) s.paillierPKs),
    ("ECDSAPub", ptrText pointText s.ecdsaPub)]

/-- storage/localstate_mgr.go:23-28 -/
def stateFields : List (Slot (LocalState SaveData)) :=
  [field "pub_key" LocalState.pubKey (fun s x => { s with pubKey := x }) dStr,
   field "local_data" LocalState.localData (fun s x => { s with localData := x }) (dStruct dataFields),
   field "participant_keys" LocalState.participantKeys (fun s x => { s with participantKeys := x }) (dList [] dStr),
   field "local_party_key" LocalState.localPartyKey (fun s x => { s with localPartyKey := x }) dStr]

/-- storage/localstate_mgr.go:79 -/
def stateText (s : LocalState SaveData) : Str :=
  objText [("pub_key", quote s.pubKey), ("local_data", dataText s.localData), ("participant_keys", sliceText quote s.participantKeys),
    ("local_party_key", quote s.localPartyKey)]

/-- `KeygenLocalState{}` -/
def noState : LocalState SaveData := ⟨[], {}, [], []⟩

/-- storage/localstate_mgr.go:107-108 -/
def readState : Bytes → Option (LocalState SaveData) := unmarshal noState (dStruct stateFields)

/-- the storage with the program's keys and files -/
def storageEnv : Storage.Env (LocalState SaveData) where
  checkKey k := Curve.CheckKeyOnCurve Bech32.decodeKey k.toList
  enc s := some (utf8 (stateText s))
  dec := readState

/-- storage/localstate_mgr.go:83: the field `PubKey` -/
def keyOf (s : LocalState SaveData) : String := String.ofList s.pubKey

end Verif.JsonState
