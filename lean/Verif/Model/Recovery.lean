import Mathlib.Data.ZMod.Basic
import Mathlib.Algebra.Field.ZMod
import Verif.Model.Bytes

/-!
# cmd/tss-recovery: recovering the private key of a pool from key share files

`N` is the order of the curve; the numbers in share files are only used modulo `N`, so they are elements of `ZMod N`. The library
functions are parameters: the AES block cipher, PBKDF2, Keccak, JSON and the encoding of the public key. Printing error messages is not
modelled: they change nothing.
-/
namespace Verif.Recovery
open Verif.Go

/-! ## tss-lib: crypto/vss/feldman_vss.go `Shares.ReConstruct` (a dependency, called at cmd/tss-recovery/tss-recovery.go:44) -/

/-- tss-lib `vss.Share` as filled at cmd/tss-recovery/tss-recovery.go:36-42; `none` is the nil pointer of a share file that could not be
read (25-29: the error is only printed). -/
structure Share (N : ℕ) where
  threshold : Int
  id : Option (ZMod N)
  share : Option (ZMod N)

/-- `ReConstruct`, inner loop: the product over `j ≠ i` of `x_j · (x_j - x_i)⁻¹`, from position `j` on. `ModInverse` returns nil if there is
no inverse, and the multiplication with nil panics. -/
def times {N : ℕ} (i : Nat) (x : ZMod N) : List (ZMod N) → Nat → ZMod N → Res (ZMod N)
  | [], _, t => .ok t
  | y :: ys, j, t =>
    if j = i then times i x ys (j + 1) t
    else if Nat.Coprime (y - x).val N then times i x ys (j + 1) (t * (y * (y - x)⁻¹))
    else .panic

/-- `ReConstruct`, outer loop from position `i` on; a nil share panics. -/
def sums {N : ℕ} (xs : List (ZMod N)) : List (ZMod N × ZMod N) → Nat → ZMod N → Res (ZMod N)
  | [], _, s => .ok s
  | (x, y) :: l, i, s => (times i x xs 0 1).bind fun t => sums xs l (i + 1) (s + y * t)

/-- the numbers of the shares, if none is nil -/
def numbers {N : ℕ} : List (Share N) → Option (List (ZMod N × ZMod N))
  | [] => some []
  | s :: l => match s.id, s.share, numbers l with
    | some x, some y, some r => some ((x, y) :: r)
    | _, _, _ => none

/-- `ReConstruct`. Simplified: with nil numbers it always panics (a single share with a nil id does not). -/
def ReConstruct {N : ℕ} (shares : List (Share N)) : Res (ZMod N) :=
  match shares with
  | [] => .panic
  | s :: _ =>
    if s.threshold > shares.length then .err "not enough shares to satisfy the threshold"
    else match numbers shares with
    | none => .panic
    | some l => sums (l.map Prod.fst) l 0 0

/-! ## cmd/tss-recovery/tool.go, key.go -/

/-- the next counter block: crypto/cipher `ctr`, big-endian with wrap-around (the bytes are given from the last to the first) -/
def incrRev : Bytes → Bytes
  | [] => []
  | b :: l => if b + 1 = 0 then 0 :: incrRev l else (b + 1) :: l

/-- the next counter block -/
def incr (b : Bytes) : Bytes := (incrRev b.reverse).reverse

/-- the key stream: the encrypted counter blocks -/
def keyStream (block : Bytes → Fin 16 → UInt8) : Nat → Bytes → Bytes
  | 0, _ => []
  | n + 1, ctr => List.ofFn (block ctr) ++ keyStream block n (incr ctr)

/-- `XORKeyStream`: enough blocks for the whole text -/
def xorKeyStream (block : Bytes → Fin 16 → UInt8) (iv inText : Bytes) : Bytes :=
  List.zipWith (· ^^^ ·) inText (keyStream block inText.length iv)

/-- cmd/tss-recovery/tool.go:71-81 `aesCTRXOR`; `aes` is the AES block cipher. `aes.NewCipher` fails on a key of a wrong length,
`cipher.NewCTR` panics on an iv of a wrong length. -/
def aesCTRXOR (aes : Bytes → Bytes → Fin 16 → UInt8) (key inText iv : Bytes) : Res Bytes :=
  if key.length = 16 ∨ key.length = 24 ∨ key.length = 32 then
    if iv.length = 16 then .ok (xorKeyStream (aes key) iv inText) else .panic
  else .err "crypto/aes: invalid key size"

/-- one hexadecimal digit, as in Go's encoding/hex -/
def hexDigit (n : Nat) : Char := if n < 10 then Char.ofNat (48 + n) else Char.ofNat (87 + n)

/-- `hex.EncodeToString` -/
def hexEncode : Bytes → List Char
  | [] => []
  | b :: l => hexDigit (b.toNat / 16) :: hexDigit (b.toNat % 16) :: hexEncode l

/-- cmd/tss-recovery/key.go:13-30 the exported key; the constant fields (cipher and kdf names, iteration count) are left out -/
structure EncryptedKey where
  cipherText : List Char
  iv : List Char
  salt : List Char
  mac : List Char
  id : List Char
  deriving DecidableEq, Repr

/-- the library functions of the tool -/
structure Lib where
  aes : Bytes → Bytes → Fin 16 → UInt8
  kdf : Bytes → Bytes → Bytes        -- PBKDF2 of password and salt, 32 bytes
  keccak : Bytes → Bytes

/-- the random values; `none`: reading the random source failed -/
structure Rand where
  salt : Option Bytes
  iv : Option Bytes
  uuid : Option (List Char)

/-- a Go slice expression `b[i:j]` -/
def slice (b : Bytes) (i j : Nat) : Res Bytes := if i ≤ j ∧ j ≤ b.length then .ok ((b.take j).drop i) else .panic

/-- cmd/tss-recovery/key.go:32-84 `exportKeyStore` -/
def exportKeyStore (lib : Lib) (r : Rand) (privKey password : Bytes) : Res EncryptedKey :=
  match r.salt with
  | none => .err "rand"
  | some salt =>
  match r.iv with
  | none => .err "rand"
  | some iv =>
  (slice (lib.kdf password salt) 0 32).bind fun encryptKey =>
  (aesCTRXOR lib.aes encryptKey privKey iv).bind fun cipherText =>
  (slice (lib.kdf password salt) 16 32).bind fun macKey =>
  match r.uuid with
  | none => .err "uuid"
  | some id => .ok ⟨hexEncode cipherText, hexEncode iv, hexEncode salt, hexEncode (lib.keccak (macKey ++ cipherText)), id⟩

/-- decred secp256k1 `PrivateKey.Serialize`: 32 bytes, padded on the left -/
def serialize (n : Nat) : Bytes := List.replicate (32 - (Bytes.ofNat n).length) 0 ++ Bytes.ofNat n

/-! ## cmd/tss-recovery/tss-recovery.go -/

/-- the parsed command line: the value of -n if it is given, -export, -password (byte strings) and the other arguments -/
structure Args (F : Type) where
  n : Option Int
  exportPath : Bytes
  password : Bytes
  files : List F

/-- what a run prints and writes: the private key, the public key, and the file written with its content; `none` as content stands for the JSON
text "null" -/
structure Out (K : Type) where
  sk : Nat
  pk : K
  written : Option (Bytes × Option EncryptedKey)

/-- the shares built from the files, cmd/tss-recovery/tss-recovery.go:22-42; `read` gives the two numbers in a share file -/
def loadShares {N : ℕ} {F : Type} (read : F → Option (ZMod N × ZMod N)) (threshold : Int) (files : List F) : List (Share N) :=
  files.map fun f => ⟨threshold, (read f).map Prod.fst, (read f).map Prod.snd⟩

/-- cmd/tss-recovery/tss-recovery.go:14-72 `main`. The flag -n is read before `flag.Parse`, so `n` is the default value 3. Failing to write the
export file is not modelled. A failed `ReConstruct` leaves a nil key, on which `NewPrivateKey` panics. -/
def main {N : ℕ} {F K : Type} (read : F → Option (ZMod N × ZMod N)) (pubKey : Nat → K) (lib : Lib) (r : Rand) (args : Args F) : Res (Out K) :=
  let n : Nat := 3
  let shares := loadShares read (n - 1) args.files
  if n ≤ shares.length then
    match ReConstruct (shares.take n) with
    | .ok secret =>
      let sk := secret.val
      if args.exportPath.length > 0 ∧ args.password.length ≥ 8 then
        match exportKeyStore lib r (serialize sk) args.password with
        | .ok k => .ok ⟨sk, pubKey sk, some (args.exportPath, some k)⟩
        | .err _ => .ok ⟨sk, pubKey sk, some (args.exportPath, none)⟩
        | .panic => .panic
      else .ok ⟨sk, pubKey sk, none⟩
    | _ => .panic
  else .panic

end Verif.Recovery
