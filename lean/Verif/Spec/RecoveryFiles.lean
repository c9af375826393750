import Verif.Model.RecoveryFiles
import Verif.Spec.Recovery
import Verif.Spec.Secp

/-! # What recovery from the files of a pool should give -/
namespace Verif.Spec.RecoveryFiles
open Verif.Json Verif.JsonState Verif.Recovery Verif.Curve Verif.Spec.Recovery Verif.Spec.Secp Polynomial
open Verif.MsgId (Str)
open Verif.Conversion (secp256k1N)
open Verif.Server (LocalState)

/-- the saved key share is the one with the index `x` of the sharing `f` -/
structure Member (f : (ZMod secp256k1N)[X]) (s : LocalState SaveData) (x : ZMod secp256k1N) : Prop where
  index : ∃ i : Int, s.localData.shareID = some i ∧ (i : ZMod secp256k1N) = x
  share : ∃ y : Int, s.localData.xi = some y ∧ (y : ZMod secp256k1N) = f.eval x

/-- `k` is the text, in lower case, of the public key of the sharing `f`: of the point `f(0)·G` -/
def KeyOf (f : (ZMod secp256k1N)[X]) (k : Str) : Prop :=
  k.map Char.toLower = k ∧ ∃ b q, Bech32.decodeKey k = some b ∧ parsePubKey b = some q ∧ Is (some q) ((f.eval 0).val • gen)

/-! ## reading an exported key file as a wallet does -/

/-- the functions of a wallet, by the names and numbers that a file gives -/
structure Wallet where
  /-- name of the function, its hash, number of iterations, length of the result, password, salt -/
  kdf : Str → Str → Nat → Nat → Bytes → Bytes → Bytes
  /-- name of the cipher, key, block -/
  cipher : Str → Bytes → Bytes → Fin 16 → UInt8
  keccak : Bytes → Bytes

/-- the value of the member with a name -/
def member (name : String) : J → Option J
  | .obj l => (l.find? fun p => p.1 = name.toList).map Prod.snd
  | _ => none

/-- a string -/
def text : J → Option Str
  | .str s => some s
  | _ => none

/-- a number without sign, fraction and exponent -/
def number : J → Option Nat
  | .num t => if t.all Char.isDigit then some (t.foldl (fun a c => 10 * a + (c.toNat - 48)) 0) else none
  | _ => none

/-- opening a key file of version 1 with a password -/
def openFile (w : Wallet) (raw : Bytes) (password : Bytes) : Option Bytes := do
  let j ← parse (runes raw)
  let version ← (member "version" j).bind number
  let c ← member "crypto" j
  let cipher ← (member "cipher" c).bind text
  let cipherText ← (member "ciphertext" c).bind text
  let iv ← ((member "cipherparams" c).bind (member "iv")).bind text
  let kdf ← (member "kdf" c).bind text
  let p ← member "kdfparams" c
  let count ← (member "c" p).bind number
  let dklen ← (member "dklen" p).bind number
  let prf ← (member "prf" p).bind text
  let salt ← (member "salt" p).bind text
  let mac ← (member "mac" c).bind text
  if version = 1 then openKeyStore ⟨w.cipher cipher, w.kdf kdf prf count dklen, w.keccak⟩ ⟨cipherText, iv, salt, mac, []⟩ password else none

end Verif.Spec.RecoveryFiles
