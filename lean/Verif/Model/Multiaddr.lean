import Verif.Model.Base58
import Verif.Model.Json
import Verif.Model.Startup

/-!
# The texts of addresses

What go-multiaddr, library code which is not in /repo, does with the addresses of the program: `Multiaddr.String`, `NewMultiaddr`, and `AddrInfoFromP2pAddr` of
go-libp2p-core.

Simplifications: of the protocols there are ip4, tcp, udp, dns, dns4, dns6, dnsaddr, quic, ws, wss, p2p-circuit, p2p (also under its old name ipfs) and unix;
addresses with other protocols (ip6 among them) are not modelled. The numbers of ip4 are read in their usual decimal form only (the library also takes leading zeros,
with older versions of Go, and IPv6 texts of IPv4 addresses). Names and paths are characters, not bytes.
-/
namespace Verif.Multiaddr
open Verif.Bech32 (Str)
open Verif.Json (natText decimal utf8 runes)
open Verif.Go

/-- the protocols with a host name -/
inductive Dns
  | dns | dns4 | dns6 | dnsaddr
  deriving DecidableEq, Repr

/-- the protocols without a value -/
inductive Flag
  | quic | ws | wss | circuit
  deriving DecidableEq, Repr

/-- A component of an address: a protocol with its value -/
inductive Comp
  | ip4 (a b c d : Fin 256)
  | tcp (port : Fin 65536)
  | udp (port : Fin 65536)
  | dns (k : Dns) (name : Str)
  | flag (f : Flag)
  | p2p (id : Bytes)
  | unix (path : Str)            -- the path after its first '/'
  deriving DecidableEq

/-- A multiaddress -/
abbrev Addr := List Comp

/-- the names of protocols (go-multiaddr protocols.go) -/
def Dns.name : Dns → Str
  | .dns => "dns".toList
  | .dns4 => "dns4".toList
  | .dns6 => "dns6".toList
  | .dnsaddr => "dnsaddr".toList

/-- the names of protocols (go-multiaddr protocols.go) -/
def Flag.name : Flag → Str
  | .quic => "quic".toList
  | .ws => "ws".toList
  | .wss => "wss".toList
  | .circuit => "p2p-circuit".toList

/-- net.IP `String` for four bytes -/
def ipText (a b c d : Fin 256) : Str := natText a ++ '.' :: natText b ++ '.' :: natText c ++ '.' :: natText d

/-- go-multiaddr `Component.String` (used through `addr.String()`, storage/localstate_mgr.go:124, 127, p2p/types.go:25) -/
def Comp.text : Comp → Str
  | .ip4 a b c d => "/ip4/".toList ++ ipText a b c d
  | .tcp p => "/tcp/".toList ++ natText p
  | .udp p => "/udp/".toList ++ natText p
  | .dns k n => '/' :: k.name ++ '/' :: n
  | .flag f => '/' :: f.name
  | .p2p id => "/p2p/".toList ++ Base58.encode id
  | .unix path => "/unix/".toList ++ path

/-- go-multiaddr `Multiaddr.String` -/
def text (a : Addr) : Str := a.flatMap Comp.text

/-- net's `dtoi`, for a number below a bound -/
def readNat (n : Nat) (s : Str) : Option (Fin n) := if h : decimal s < n then (if s = natText (decimal s) then some ⟨decimal s, h⟩ else none) else none

/-- strconv.Atoi -/
def atoi (s : Str) : Option Int :=
  let digits := if s.head? = some '-' ∨ s.head? = some '+' then s.tail else s
  if digits = [] ∨ digits.all Char.isDigit = false then none
  else
    let i : Int := if s.head? = some '-' then -(decimal digits : Int) else decimal digits
    if -2 ^ 63 ≤ i ∧ i < 2 ^ 63 then some i else none

/-- go-multiaddr transcoders.go `portStB`: numbers from 65536 on are refused, and the rest is converted to 16 bits -/
def readPort (s : Str) : Option (Fin 65536) :=
  match atoi s with
  | none => none
  | some i => if i ≥ 65536 then none else some (Fin.ofNat 65536 (i % 65536).toNat)

/-- net.ParseIP and `To4` -/
def readIp (s : Str) : Option Comp :=
  match Storage.splitOn '.' s with
  | [a, b, c, d] =>
    match readNat 256 a, readNat 256 b, readNat 256 c, readNat 256 d with
    | some a, some b, some c, some d => some (.ip4 a b c d)
    | _, _, _, _ => none
  | _ => none

/-- go-multiaddr `ProtocolWithName`, for the protocols without a value -/
def flagOf (name : Str) : Option Flag := [Flag.quic, .ws, .wss, .circuit].find? fun f => f.name = name

/-- go-multiaddr `ProtocolWithName`, for the protocols with a host name -/
def dnsOf (name : Str) : Option Dns := [Dns.dns, .dns4, .dns6, .dnsaddr].find? fun k => k.name = name

/-- go-multiaddr transcoders.go: the value of a protocol; `cid` reads the other form of peer ids -/
def readValue (cid : Str → Option Bytes) (name v : Str) : Option Comp :=
  if name = "ip4".toList then readIp v
  else if name = "tcp".toList then (readPort v).map .tcp
  else if name = "udp".toList then (readPort v).map .udp
  else if name = "p2p".toList ∨ name = "ipfs".toList then (Base58.peerDecode cid v).map .p2p
  else match dnsOf name with
    | some k => some (.dns k v)
    | none => none

/-- strings.Join with '/' -/
def joinSlash : List Str → Str
  | [] => []
  | [p] => p
  | p :: q :: l => p ++ '/' :: joinSlash (q :: l)

/-- go-multiaddr codec.go `stringToBytes`, the loop over the parts of the text -/
def readParts (cid : Str → Option Bytes) : List Str → Option Addr
  | [] => some []
  | [name] =>
    match flagOf name with
    | some f => some [.flag f]
    | none => none
  | name :: v :: rest =>
    match flagOf name with
    | some f => (readParts cid (v :: rest)).map (.flag f :: ·)
    | none =>
      if name = "unix".toList then some [.unix (joinSlash (v :: rest))]
      else match readValue cid name v with
        | some c => (readParts cid rest).map (c :: ·)
        | none => none

/-- strings.TrimRight(s, "/") -/
def trimRight (s : Str) : Str := (s.reverse.dropWhile (· = '/')).reverse

/-- go-multiaddr `NewMultiaddr` (storage/localstate_mgr.go:163, p2p/communication.go:66, 72, p2p/types.go:31) -/
def newMultiaddr (cid : Str → Option Bytes) (s : Str) : Option Addr :=
  match Storage.splitOn '/' (trimRight s) with
  | [] :: p :: ps => readParts cid (p :: ps)
  | _ => none

/-- go-libp2p-core `peer.AddrInfoFromP2pAddr` (p2p/communication.go:204, 330): the peer and its address -/
def addrInfo (a : Addr) : Option (Bytes × Addr) :=
  match a.getLast? with
  | some (.p2p id) => if id = [] then none else some (id, a.dropLast)
  | _ => none

/-- does `AddrInfoFromP2pAddr` accept an address? -/
def hasID (a : Addr) : Bool := (addrInfo a).isSome

/-- the address book with these texts -/
def env (cid : Str → Option Bytes) : Storage.AddrEnv Addr Bytes where
  addrStr := text
  peerStr := Base58.encode
  parse := newMultiaddr cid
  bytes := utf8
  text := runes

/-- p2p/communication.go:65-91 `NewCommunication`: the address to listen at and, if there is one, the address to announce. `port` is a Go integer, `%d` prints it. -/
def newCommunication (cid : Str → Option Bytes) (port : Int) (externalIP : Str) : Res (Addr × Option Addr) :=
  match newMultiaddr cid ("/ip4/0.0.0.0/tcp/".toList ++ Json.intText port) with
  | none => .err "fail to create listen addr"
  | some a =>
    if externalIP.length ≠ 0 then
      match newMultiaddr cid ("/ip4/".toList ++ externalIP ++ "/tcp/".toList ++ Json.intText port) with
      | none => .err "fail to create listen with given external IP"
      | some e => .ok (a, some e)
    else .ok (a, none)

/-- p2p/communication.go:247-252 `addressFactory`: the addresses which a node announces, `addrs` being those it listens at -/
def announced (external : Option Addr) (addrs : List Addr) : List Addr :=
  match external with
  | some e => [e]
  | none => addrs

end Verif.Multiaddr
