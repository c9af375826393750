import Verif.Model.Multiaddr
import Verif.Model.Flags
import Verif.Model.Secp
import Verif.Model.Base64

/-!
# From the command line to a running node: cmd/tss/main.go `main`, tss/tss.go `NewTss`, storage/localstate_mgr.go `NewFileStateMgr`

The pieces are in `Flags`, `Conversion`, `Base64`, `Bech32`, `Secp`, `Multiaddr`, `Storage` and `Startup`; here they are put together with the values that the program passes
from one to the other. Logging, the network name of the binance library (cmd/tss/main.go:47-50) and the metrics are left out.
-/
namespace Verif.Main
open Verif.Go
open Verif.Bech32 (Str)
open Verif.Multiaddr (Addr)

/-- what `os.Stat` says about a folder -/
inductive Stat
  | found
  | missing
  | other
  deriving DecidableEq

/-- the surroundings of the process: its working directory, the file system, the text typed in as the secret key (`none`: it cannot be read, or is shorter than 8
characters), spare bytes of Go's allocator (`Conversion.hexDecodeString`), the outcome of `GeneratePreParams`, and the network -/
structure Sys where
  cwd : Storage.Path
  stat : Storage.Path → Stat
  mkdir : Storage.Path → Bool
  disk : Storage.Disk
  password : Option Str
  pad : Nat
  generated : Option Bool
  world : Startup.World Addr

/-- the folder a text stands for -/
def folderOf (cwd : Storage.Path) (s : Str) : Storage.Path :=
  Storage.cleanAppend (if s.head? = some '/' then [] else cwd) ((Storage.splitOn '/' s).map String.ofList)

/-- storage/localstate_mgr.go:46-59 `NewFileStateMgr`: the folder of the manager, `none` for the empty text -/
def NewFileStateMgr (sys : Sys) (folder : Str) : Res (Option Storage.Path) :=
  if folder.length > 0 then
    if sys.stat (folderOf sys.cwd folder) = .missing then
      if sys.mkdir (folderOf sys.cwd folder) then .ok (some (folderOf sys.cwd folder)) else .err "mkdir"
    else .ok (some (folderOf sys.cwd folder))
  else .ok none

/-- a node that was started -/
structure Node where
  pubKey : Str                        -- `localNodePubKey`
  id : Bytes                          -- `host.ID()`
  listen : Addr
  external : Option Addr
  folder : Option Storage.Path
  peers : List Addr                   -- the bootstrap peers

/-- go-libp2p `IDFromPublicKey` of the key made from 32 bytes (p2p/communication.go:240, 256) -/
def hostID (raw : Bytes) : Bytes := RealKeys.peerPrefix ++ Secp.pubKeyOf (Bytes.toNat raw)

/-- tss/tss.go:46-126 `NewTss` as `main` calls it (no parameters for key generation are given) -/
def newTss (cid : Str → Option Bytes) (c : Flags.Conf Addr) (key : Bytes) (sys : Sys) : Res Node :=
  match Bech32.encodeKey (Secp.pubKeyOf (Bytes.toNat key)) with
  | none => .err "fail to genearte the key"
  | some pub =>
    (NewFileStateMgr sys c.home).bind fun folder =>
    (Multiaddr.newCommunication cid c.port c.externalIP).bind fun a =>
    (Startup.NewTss (Multiaddr.env cid) Multiaddr.hasID ⟨true, true, folder, c.peers, true, none, true⟩ sys.generated
      { sys.world with keyOk := decide ((Conversion.GetPriKeyRawBytes key).length = 32) } sys.disk).bind fun n =>
    .ok ⟨pub, hostID (Conversion.GetPriKeyRawBytes key), a.1, a.2, folder, n.peers⟩

/-- how `main` comes out, up to the start of the HTTP server -/
inductive Outcome
  | refused                           -- the command line cannot be read
  | usage
  | noKey                             -- cmd/tss/main.go:54-57
  | fatal                             -- `log.Fatal`
  | crash
  | running (n : Node) (c : Flags.Conf Addr)

/-- cmd/tss/main.go:32-73 -/
def main (cid : Str → Option Bytes) (duration int : Str → Option Int) (args : List Str) (sys : Sys) : Outcome :=
  match Flags.begin_ ⟨duration, int, Multiaddr.newMultiaddr cid⟩ args with
  | .refuse => .refused
  | .usage => .usage
  | .go c =>
    match sys.password with
    | none => .noKey
    | some pw =>
      match Conversion.GetPriKey sys.pad (Base64.decode pw) with
      | .err _ => .fatal
      | .panic => .crash
      | .ok key =>
        match newTss cid c key sys with
        | .err _ => .fatal
        | .panic => .crash
        | .ok n => .running n c

end Verif.Main
