import Verif.Model.Storage

/-!
# Starting and stopping a node: p2p/communication.go (connecting), tss/tss.go `NewTss`, `Stop`

`A` are multi-addresses. libp2p (the host, the DHT, dialling, ping) is given by its outcomes. Sleeping and logging are left out. The announcement
at the rendezvous point (p2p/communication.go:293-294) cannot fail and is left out.
-/
namespace Verif.Startup
open Verif.Go

variable {A : Type}

/-- the outcomes of one attempt: which addresses can be reached, and the order in which the goroutines finish -/
structure Attempt (A : Type) where
  reached : A → Bool
  order : Shuffle Bool

/-- p2p/communication.go:347-351: reading `n` verdicts from the channel -/
def anyVerdict : Nat → List Bool → Res Unit
  | 0, _ => .err "fail to connect to any peer"
  | _ + 1, [] => .panic
  | n + 1, b :: l => if b then .ok () else anyVerdict n l

/-- p2p/communication.go:320-353 `connectToBootstrapPeers`; `hasID` tells whether `AddrInfoFromP2pAddr` accepts an address. All goroutines have
written to the channel before it is read. (Reading an empty channel would block for ever; `anyVerdict` says panic for it.) -/
def connectToBootstrapPeers (hasID : A → Bool) (peers : List A) (a : Attempt A) : Res Unit :=
  if peers.length = 0 then .ok ()
  else if peers.all hasID then anyVerdict peers.length (a.order.f (peers.map a.reached))
  else .err "fail to add peer"

/-- p2p/communication.go:195-237 `bootStrapConnectivityCheck`; `pong` tells which addresses answer the ping in time. -/
def bootStrapConnectivityCheck (hasID : A → Bool) (peers : List A) (pong : A → Bool) : Res Unit :=
  if peers.length = 0 then .ok ()
  else if (peers.filter fun p => hasID p && pong p).length > 0 then .ok ()
  else .err "the node cannot ping any bootstrap node"

/-- p2p/communication.go:278-286 the loop over the attempts: the outcome of the last one made, and how many were made -/
def tryConnect (hasID : A → Bool) (peers : List A) : List (Attempt A) → Res Unit × Nat
  | [] => (.ok (), 0)
  | [a] => (connectToBootstrapPeers hasID peers a, 1)
  | a :: b :: l =>
    match connectToBootstrapPeers hasID peers a with
    | .ok () => (.ok (), 1)
    | _ => let (r, n) := tryConnect hasID peers (b :: l); (r, n + 1)

/-- what the outside decides about a start -/
structure World (A : Type) where
  keyOk : Bool            -- `UnmarshalSecp256k1PrivateKey`
  hostOk : Bool           -- `libp2p.New`
  dhtOk : Bool            -- `dht.New` and `Bootstrap`
  attempts : Fin 5 → Attempt A
  pong : A → Bool

/-- p2p/communication.go:239-302 `startChannel` -/
def startChannel (hasID : A → Bool) (peers : List A) (w : World A) : Res Unit :=
  if w.keyOk = false then .err "key"
  else if w.hostOk = false then .err "fail to create p2p host"
  else if w.dhtOk = false then .err "fail to create DHT"
  else match (tryConnect hasID peers (List.ofFn w.attempts)).1 with
  | .ok () => bootStrapConnectivityCheck hasID peers w.pong
  | .err _ => .err "fail to connect to bootstrap peer"
  | .panic => .panic

/-- the settings of a node: `folderOk`: `NewFileStateMgr` succeeds; `folder = none`: the name of the folder is empty; `addrOk`: listening port and external IP are good;
`pre = none`: no parameters are given, `some b`: they are given and `b` tells whether they are valid -/
structure Settings (A : Type) where
  pubKeyOk : Bool
  folderOk : Bool
  folder : Option Storage.Path
  cmdPeers : List A
  addrOk : Bool
  pre : Option Bool
  rawKeyOk : Bool

/-- a running node: its bootstrap peers, and whether its channel `stopChan` is closed -/
structure Node (A : Type) where
  peers : List A
  stopped : Bool
  deriving DecidableEq

/-- tss/tss.go:70-77 the bootstrap peers: the saved ones, then those of the command line -/
def bootstrapPeers {Q : Type} (aenv : Storage.AddrEnv A Q) (s : Settings A) (d : Storage.Disk) : List A :=
  match Storage.RetrieveP2PAddresses aenv s.folder d with
  | .ok saved => saved ++ s.cmdPeers
  | _ => s.cmdPeers

/-- tss/tss.go:87-92 the parameters in use: the given ones if they are valid, otherwise new ones -/
def preParams (s : Settings A) (generated : Option Bool) : Option Bool := if s.pre = some true then some true else generated

/-- tss/tss.go:46-126 `NewTss`; `generated`: the outcome of `GeneratePreParams` (`none` error, else validity). -/
def NewTss {Q : Type} (aenv : Storage.AddrEnv A Q) (hasID : A → Bool) (s : Settings A) (generated : Option Bool) (w : World A) (d : Storage.Disk) : Res (Node A) :=
  if s.pubKeyOk = false then .err "fail to genearte the key"
  else if s.folderOk = false then .err "fail to create file state manager"
  else if s.addrOk = false then .err "fail to create communication layer"
  else if preParams s generated = none then .err "fail to generate pre parameters"
  else if preParams s generated ≠ some true then .err "invalid preparams"
  else if s.rawKeyOk = false then .err "fail to get private key"
  else (startChannel hasID (bootstrapPeers aenv s d) w).bind fun _ => .ok ⟨bootstrapPeers aenv s d, false⟩

/-- tss/tss.go:135-144 `Stop`: closing a closed channel panics. (The p2p layer closes its own channel likewise, p2p/communication.go:374.) -/
def Stop (n : Node A) : Res (Node A) := if n.stopped then .panic else .ok { n with stopped := true }

end Verif.Startup
