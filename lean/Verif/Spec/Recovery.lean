import Mathlib.Algebra.Polynomial.Eval.Degree
import Verif.Model.Recovery

/-! # What recovery should do: shares of a polynomial, and opening an exported key with the password -/
namespace Verif.Spec.Recovery
open Verif.Recovery Polynomial

/-- a sharing of the secret `f 0` with threshold `t`: any `t + 1` shares determine it -/
def Sharing {N : ℕ} (t : Nat) (f : (ZMod N)[X]) : Prop := f.natDegree ≤ t

/-- the file holds the share of `f` with the index `x` -/
def Holds {N : ℕ} {F : Type} (read : F → Option (ZMod N × ZMod N)) (f : (ZMod N)[X]) (file : F) (x : ZMod N) : Prop :=
  read file = some (x, f.eval x)

/-- the value of a hexadecimal digit -/
def unhexDigit (c : Char) : Option Nat :=
  if '0' ≤ c ∧ c ≤ '9' then some (c.toNat - 48) else if 'a' ≤ c ∧ c ≤ 'f' then some (c.toNat - 87) else none

/-- reading hexadecimal text -/
def unhex : List Char → Option Bytes
  | [] => some []
  | a :: b :: l => do
    let x ← unhexDigit a
    let y ← unhexDigit b
    let r ← unhex l
    return UInt8.ofNat (16 * x + y) :: r
  | _ => none

/-- counter mode decryption with a block cipher: the text and the encrypted counter blocks iv, iv + 1, … added bit by bit -/
def ctrDecrypt (block : Bytes → Fin 16 → UInt8) : Nat → Bytes → Bytes → Bytes
  | 0, _, _ => []
  | n + 1, ctr, text =>
    List.zipWith (fun a b => a ^^^ b) (text.take 16) (List.ofFn (block ctr)) ++ ctrDecrypt block n (incr ctr) (text.drop 16)

/-- opening an exported key with a password, as a wallet does: derive the key from the password and the salt, compare the
authentication code, decrypt -/
def openKeyStore (lib : Lib) (k : EncryptedKey) (password : Bytes) : Option Bytes := do
  let salt ← unhex k.salt
  let iv ← unhex k.iv
  let cipherText ← unhex k.cipherText
  let mac ← unhex k.mac
  let derived := lib.kdf password salt
  if lib.keccak ((derived.drop 16).take 16 ++ cipherText) = mac then
    some (ctrDecrypt (lib.aes (derived.take 32)) cipherText.length iv cipherText)
  else none

end Verif.Spec.Recovery
