import Verif.Model.Recovery
import Verif.Model.JsonState
import Verif.Model.Secp

/-!
# cmd/tss-recovery with the real files and keys

`Recovery` leaves open what is in a file of a key share, how a public key is printed and what is written into the exported file. Here they are filled in: files
are those of `JsonState`, keys are computed on the curve (`Secp`) and printed in bech32 (`Bech32`).
-/
namespace Verif.RecoveryFiles
open Verif.Go Verif.Json Verif.JsonState Verif.Recovery
open Verif.MsgId (Str)
open Verif.Conversion (secp256k1N)

/-- cmd/tss-recovery/tool.go:38-42, cmd/tss-recovery/tss-recovery.go:36-41: the two numbers used of the content of a file; `none` if there is an error or if one of
them is nil, which both make `ReConstruct` panic. (The struct at tool.go:20-27 is the one of storage/localstate_mgr.go:23-28.) -/
def readShare (raw : Bytes) : Option (ZMod secp256k1N × ZMod secp256k1N) :=
  match readState raw with
  | none => none
  | some s =>
    match s.localData.shareID, s.localData.xi with
    | some x, some y => some ((x : ZMod secp256k1N), (y : ZMod secp256k1N))
    | _, _ => none

/-- cmd/tss-recovery/tool.go:29-43 `getTssSecretFile`; `disk` gives the content of a file, `none` if it cannot be read -/
def getTssSecretFile {F : Type} (disk : F → Option Bytes) (file : F) : Option (ZMod secp256k1N × ZMod secp256k1N) := (disk file).bind readShare

/-- cmd/tss-recovery/tss-recovery.go:49-52 with cmd/tss-recovery/tool.go:53-69 `getTssPubKey`: the public key of a private key and its text. The address
that is also printed is left out. -/
def getTssPubKey (sk : Nat) : Option Str := Bech32.encodeKey (Secp.pubKeyOf sk)

/-- cmd/tss-recovery/key.go:13-30, 72-83: the text of an exported key. Members of maps are written in the order of their names. -/
def storeText (k : EncryptedKey) : Str :=
  objText
    [("crypto", objText
      [("cipher", quote "aes-256-ctr".toList),
       ("ciphertext", quote k.cipherText),
       ("cipherparams", objText [("iv", quote k.iv)]),
       ("kdf", quote "pbkdf2".toList),
       ("kdfparams", objText [("c", natText 262144), ("dklen", natText 32), ("prf", quote "hmac-sha256".toList), ("salt", quote k.salt)]),
       ("mac", quote k.mac)]),
     ("id", quote k.id),
     ("version", natText 1)]

/-- cmd/tss-recovery/tss-recovery.go:65-66: the bytes written into the exported file -/
def fileBytes : Option EncryptedKey → Bytes
  | some k => utf8 (storeText k)
  | none => utf8 "null".toList

/-- cmd/tss-recovery/tss-recovery.go:14-72: a run of the tool -/
def tool {F : Type} (disk : F → Option Bytes) (lib : Lib) (r : Rand) (args : Args F) : Res (Out (Option Str)) :=
  main (getTssSecretFile disk) getTssPubKey lib r args

end Verif.RecoveryFiles
