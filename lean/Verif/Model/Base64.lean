import Verif.Model.MsgId
import Verif.Model.Bytes

/-!
# Base64: the texts of messages to sign, of signatures and of private keys

Go's encoding/base64 (`StdEncoding`), library code which is not in /repo: with padding, line ends are skipped, the bits that are left over at the end are
not looked at.
-/
namespace Verif.Base64
open Verif.MsgId (Str)

/-- encoding/base64 `encodeStd` -/
def alphabet : Str := "ABCDEFGHIJKLMNOPQRSTUVWXYZabcdefghijklmnopqrstuvwxyz0123456789+/".toList

/-- the letter of a number below 64 -/
def letter (n : Nat) : Char := alphabet.getD n 'A'

/-- encoding/base64 `Encode`: three bytes make four letters (tss/keysign.go:338-341 `EncodeToString`) -/
def encode : Bytes → Str
  | [] => []
  | [a] => [letter (a.toNat / 4), letter (a.toNat % 4 * 16), '=', '=']
  | [a, b] => [letter (a.toNat / 4), letter (a.toNat % 4 * 16 + b.toNat / 16), letter (b.toNat % 16 * 4), '=']
  | a :: b :: c :: r =>
    letter (a.toNat / 4) :: letter (a.toNat % 4 * 16 + b.toNat / 16) :: letter (b.toNat % 16 * 4 + c.toNat / 64) :: letter (c.toNat % 64) :: encode r

/-- the number of a letter -/
def index (c : Char) : Option Nat := alphabet.idxOf? c

/-- encoding/base64 `Decode` without line ends: groups of four letters, the last one perhaps padded -/
def decodeGroups : Str → Option Bytes
  | [] => some []
  | a :: b :: c :: d :: r =>
    match index a, index b with
    | some i, some j =>
      if c = '=' then (if d = '=' ∧ r = [] then some [UInt8.ofNat (i * 4 + j / 16)] else none)
      else match index c with
        | none => none
        | some k =>
          if d = '=' then (if r = [] then some [UInt8.ofNat (i * 4 + j / 16), UInt8.ofNat (j % 16 * 16 + k / 4)] else none)
          else match index d, decodeGroups r with
            | some l, some x => some (UInt8.ofNat (i * 4 + j / 16) :: UInt8.ofNat (j % 16 * 16 + k / 4) :: UInt8.ofNat (k % 4 * 64 + l) :: x)
            | _, _ => none
    | _, _ => none
  | _ => none

/-- encoding/base64 `Decode`: line ends are skipped wherever they are (tss/keysign.go:232, conversion/key_provider.go:91 `DecodeString`) -/
def decode (s : Str) : Option Bytes := decodeGroups (s.filter fun c => c ≠ '\n' ∧ c ≠ '\r')

end Verif.Base64
