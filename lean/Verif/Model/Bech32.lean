import Verif.Model.Curve

/-!
# bech32 texts of public keys

`sdk.Bech32ifyPubKey` and `sdk.GetPubKeyFromBech32` for account keys, as the conversion package and the storage package use them, with the
prefix that conversion/bech32.go:7-14 sets up. The library functions (btcutil's bech32, amino's prefix of a secp256k1 key) are not part of the
repository; they are written out so that the laws other modules assume of key texts can be proved. Texts are lists of characters.

Simplifications: bit groups are formed from the list of all bits instead of a shift register; key types other than secp256k1 (ed25519,
multisig) are refused by the decoder.
-/
namespace Verif.Bech32

/-- text -/
abbrev Str := List Char

/-- conversion/bech32.go:10 `SetupBech32Prefix`: the prefix of account keys -/
def accPubPrefix : Str := "thorpub".toList

/-- the 32 letters of the data part -/
def charset : Str := "qpzry9x8gf2tvdw0s3jn54khce6mua7l".toList

/-- the constants of the checksum -/
def gen : List Nat := [0x3b6a57b2, 0x26508e6d, 0x1ea119fa, 0x3d4233dd, 0x2a1462b3]

/-- the exclusive or of the constants whose bit is set in `b` -/
def select (b : Nat) : Nat :=
  (gen.zipIdx).foldl (fun acc g => if b.testBit g.2 then acc ^^^ g.1 else acc) 0

/-- one step of btcutil's `bech32Polymod` -/
def polyStep (chk v : Nat) : Nat := ((chk &&& 0x1ffffff) <<< 5 ^^^ v) ^^^ select (chk >>> 25)

/-- btcutil's `bech32Polymod` -/
def polymod (vs : List Nat) : Nat := vs.foldl polyStep 1

/-- btcutil's `bech32HrpExpand` -/
def hrpExpand (hrp : Str) : List Nat := hrp.map (fun c => c.toNat >>> 5) ++ [0] ++ hrp.map (fun c => c.toNat &&& 31)

/-- btcutil's `bech32Checksum` -/
def checksum (hrp : Str) (data : List Nat) : List Nat :=
  let m := polymod (hrpExpand hrp ++ data ++ [0, 0, 0, 0, 0, 0]) ^^^ 1
  (List.range 6).map fun i => (m >>> (5 * (5 - i))) &&& 31

/-- btcutil's `bech32VerifyChecksum` -/
def verify (hrp : Str) (data : List Nat) : Bool := polymod (hrpExpand hrp ++ data) == 1

/-- btcutil's `toChars`: `none` if a value is not below 32 -/
def toChars : List Nat → Option Str
  | [] => some []
  | v :: vs => match charset[v]?, toChars vs with
    | some c, some cs => some (c :: cs)
    | _, _ => none

/-- btcutil's `toBytes`: `none` for a character which is not a letter of the data part -/
def toVals : Str → Option (List Nat)
  | [] => some []
  | c :: cs => match charset.idxOf? c, toVals cs with
    | some v, some vs => some (v :: vs)
    | _, _ => none

/-- the `w` bits of a value, most significant first -/
def bitsOf (w v : Nat) : List Bool := (List.range w).map fun i => v.testBit (w - 1 - i)

/-- the value of bits, most significant first -/
def valOf (bs : List Bool) : Nat := bs.foldl (fun acc b => 2 * acc + b.toNat) 0

/-- groups of `w` bits, and the bits left over; the first argument bounds the number of groups -/
def groups (w : Nat) : Nat → List Bool → List (List Bool) × List Bool
  | 0, bs => ([], bs)
  | fuel + 1, bs =>
    if bs.length < w then ([], bs)
    else ((bs.take w) :: (groups w fuel (bs.drop w)).1, (groups w fuel (bs.drop w)).2)

/-- btcutil's `ConvertBits(data, 8, 5, true)`: the last group is filled with zeros -/
def to5 (data : Bytes) : List Nat :=
  let bits := data.flatMap fun b => bitsOf 8 b.toNat
  let g := groups 5 bits.length bits
  g.1.map valOf ++ (if g.2.isEmpty then [] else [valOf (g.2 ++ List.replicate (5 - g.2.length) false)])

/-- btcutil's `ConvertBits(data, 5, 8, false)`: what is left over must be fewer than five bits, all zero -/
def to8 (data : List Nat) : Option Bytes :=
  let bits := data.flatMap fun v => bitsOf 5 v
  let g := groups 8 bits.length bits
  if g.2.length ≤ 4 ∧ g.2.all (· == false) then some (g.1.map fun b => UInt8.ofNat (valOf b)) else none

/-- `bech32.ConvertAndEncode` -/
def encode (hrp : Str) (data : Bytes) : Option Str :=
  (toChars (to5 data ++ checksum hrp (to5 data))).map fun cs => hrp ++ '1' :: cs

/-- the position of the last '1', as the text before and after it -/
def splitLast (s : Str) : Option (Str × Str) :=
  match s.reverse.dropWhile (· ≠ '1') with
  | [] => none
  | _ :: before => some (before.reverse, (s.reverse.takeWhile (· ≠ '1')).reverse)

/-- is the text in one case? `strings.ToLower(s) = s` or `strings.ToUpper(s) = s` -/
def oneCase (s : Str) : Bool := s.map Char.toLower == s || s.map Char.toUpper == s

/-- btcutil's `Decode` with the limit of the sdk, 1023 -/
def decodeText (s : Str) : Option (Str × List Nat) :=
  if s.length < 8 ∨ s.length > 1023 then none
  else if s.any (fun c => c.toNat < 33 || c.toNat > 126) then none
  else if !oneCase s then none
  else match splitLast (s.map Char.toLower) with
    | none => none
    | some (hrp, rest) =>
      if hrp.isEmpty ∨ rest.length < 6 then none
      else match toVals rest with
        | none => none
        | some vs => if verify hrp vs then some (hrp, vs.take (vs.length - 6)) else none

/-- `sdk.GetFromBech32` -/
def decode (pre s : Str) : Option Bytes :=
  match decodeText s with
  | none => none
  | some (hrp, vs) =>
    match to8 vs with
    | none => none
    | some b => if hrp = pre then some b else none

/-- amino's prefix of a secp256k1 key, and the length 33 -/
def aminoPrefix : Bytes := [0xEB, 0x5A, 0xE9, 0x87, 0x21]

/-- `sdk.Bech32ifyPubKey(Bech32PubKeyTypeAccPub, key)`, for the 33 bytes of a key (simplification: other lengths, which the decoder refuses, have no
text) -/
def encodeKey (b : Bytes) : Option Str := if b.length = 33 then encode accPubPrefix (aminoPrefix ++ b) else none

/-- `sdk.GetPubKeyFromBech32(Bech32PubKeyTypeAccPub, text).Bytes()` -/
def decodeKey (s : Str) : Option Bytes :=
  match decode accPubPrefix s with
  | none => none
  | some b => if b.take 5 = aminoPrefix ∧ b.length = 38 then some (b.drop 5) else none

end Verif.Bech32
