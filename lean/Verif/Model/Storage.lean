import Verif.Model.TssCommon

/-!
# storage/localstate_mgr.go

The file system is a map from paths (lists of components) to contents. JSON encoding and the check of a public key are parameters.
`ioutil.WriteFile` opens the file with truncation and then writes; it can fail before (file untouched) or after some bytes; a crash of
the process is like the second failure. The address book's texts are lists of characters.
-/
namespace Verif.Storage
open Verif.Go Verif.TssCommon

/-- a path: its components -/
abbrev Path := List String

/-- `filepath.Clean` applied to the components of a path below `dir`: empty components and "." are dropped, ".." goes up -/
def cleanAppend (dir : Path) (comps : List String) : Path :=
  comps.foldl (fun d c => if c = "" ∨ c = "." then d else if c = ".." then d.dropLast else d ++ [c]) dir

/-- splitting at every `c`: `strings.Split` with a one-character separator -/
def splitOn (c : Char) : List Char → List (List Char)
  | [] => [[]]
  | x :: xs =>
    if x = c then [] :: splitOn c xs
    else match splitOn c xs with
      | [] => [[x]]
      | l :: ls => (x :: l) :: ls

/-- `filepath.Join(dir, name)` for a clean `dir` -/
def join (dir : Path) (name : String) : Path := cleanAppend dir ((splitOn '/' name.toList).map String.ofList)

/-- the parts outside of the package: the check `conversion.CheckKeyOnCurve` of a key, `json.Marshal` and `json.Unmarshal` of a state -/
structure Env (S : Type) where
  checkKey : String → Res Bool
  enc : S → Option Bytes
  dec : Bytes → Option S

/-- the files -/
abbrev Disk := Map Path Bytes

/-- how a write can fail -/
inductive Fault
  | open_            -- the file cannot be opened: nothing happens
  | after (n : Nat)  -- failure or crash after `n` bytes
  deriving DecidableEq, Repr

/-- `ioutil.WriteFile` -/
def writeFile (d : Disk) (p : Path) (data : Bytes) : Option Fault → Disk × Res Unit
  | none => (Map.set d p data, .ok ())
  | some .open_ => (d, .err "open")
  | some (.after n) => if n < data.length then (Map.set d p (data.take n), .err "write") else (Map.set d p data, .ok ())

/-- the file name of a key: `fmt.Sprintf("localstate-%s.json", pubKey)` -/
def localFileName (pubKey : String) : String := "localstate-" ++ pubKey ++ ".json"

/-- storage/localstate_mgr.go:61-75 `getFilePathName`; without a folder the name is relative to the working directory, the empty path -/
def getFilePathName {S : Type} (env : Env S) (folder : Path) (pubKey : String) : Res Path :=
  match env.checkKey pubKey with
  | .err e => .err e
  | .panic => .panic
  | .ok false => .err "invalid pubkey for file name"
  | .ok true => .ok (join folder (localFileName pubKey))

/-- storage/localstate_mgr.go:78-88 `SaveLocalState`; `pubKeyOf` is the field `PubKey`. -/
def SaveLocalState {S : Type} (env : Env S) (pubKeyOf : S → String) (folder : Path) (state : S) (fault : Option Fault) (d : Disk) :
    Disk × Res Unit :=
  match env.enc state with
  | none => (d, .err "fail to marshal KeygenLocalState to json")
  | some buf =>
    match getFilePathName env folder (pubKeyOf state) with
    | .ok p => writeFile d p buf fault
    | .err e => (d, .err e)
    | .panic => (d, .panic)

/-- storage/localstate_mgr.go:91-112 `GetLocalState`. -/
def GetLocalState {S : Type} (env : Env S) (folder : Path) (pubKey : String) (d : Disk) : Res S :=
  if pubKey.length = 0 then .err "pub key is empty"
  else match getFilePathName env folder pubKey with
  | .err e => .err e
  | .panic => .panic
  | .ok p =>
    match Map.get d p with
    | none => .err "not exist"
    | some buf =>
      match env.dec buf with
      | none => .err "fail to unmarshal KeygenLocalState"
      | some s => .ok s

/-! ## the address book -/

/-- the texts of addresses and peer ids: `Multiaddr.String`, `peer.ID.String`, `NewMultiaddr`; `bytes`/`text` convert between file content
and text -/
structure AddrEnv (A Q : Type) where
  addrStr : A → List Char
  peerStr : Q → List Char
  parse : List Char → Option A
  bytes : List Char → Bytes
  text : Bytes → List Char

/-- storage/localstate_mgr.go:124: is the address left out? -/
def isLoopback (s : List Char) : Bool := strContains s "127.0.0.1".toList

/-- storage/localstate_mgr.go:121-132 the records of the book, visited in the given order -/
def records {A Q : Type} (env : AddrEnv A Q) (order : List (Q × List A)) : List Char :=
  order.flatMap fun (peer, addrs) =>
    addrs.flatMap fun a =>
      if isLoopback (env.addrStr a) then [] else env.addrStr a ++ "/p2p/".toList ++ env.peerStr peer ++ ['\n']

/-- storage/localstate_mgr.go:114-137 `SaveAddressBook`; `folder = none` is the empty text -/
def SaveAddressBook {A Q : Type} (env : AddrEnv A Q) (folder : Option Path) (σ : Shuffle (Q × List A)) (book : Map Q (List A))
    (fault : Option Fault) (d : Disk) : Disk × Res Unit :=
  match folder with
  | none => (d, .err "base file path is invalid")
  | some dir => writeFile d (join dir "address_book.seed") (env.bytes (records env (σ.f book))) fault

/-- storage/localstate_mgr.go:157-168 the loop over the lines -/
def parseLines {A Q : Type} (env : AddrEnv A Q) : List (List Char) → Res (List A)
  | [] => .ok []
  | el :: rest =>
    if el.length = 0 then parseLines env rest
    else match env.parse el with
    | none => .err "invalid address in address book"
    | some a => (parseLines env rest).bind fun l => .ok (a :: l)

/-- storage/localstate_mgr.go:139-170 `RetrieveP2PAddresses`. -/
def RetrieveP2PAddresses {A Q : Type} (env : AddrEnv A Q) (folder : Option Path) (d : Disk) : Res (List A) :=
  match folder with
  | none => .err "base file path is invalid"
  | some dir =>
    match Map.get d (join dir "address_book.seed") with
    | none => .err "not exist"
    | some buf => parseLines env (splitOn '\n' (env.text buf))

/-! ## histories -/

/-- a call of the package that changes the disk -/
inductive Op (S A Q : Type)
  | save (s : S) (fault : Option Fault)
  | book (σ : Shuffle (Q × List A)) (b : Map Q (List A)) (fault : Option Fault)

/-- the effect of a call on the disk and its result -/
def apply {S A Q : Type} (env : Env S) (aenv : AddrEnv A Q) (pubKeyOf : S → String) (dir : Path) (d : Disk) : Op S A Q → Disk × Res Unit
  | .save s f => SaveLocalState env pubKeyOf dir s f d
  | .book σ b f => SaveAddressBook aenv (some dir) σ b f d

/-- a history of calls -/
def run {S A Q : Type} (env : Env S) (aenv : AddrEnv A Q) (pubKeyOf : S → String) (dir : Path) (d : Disk) (h : List (Op S A Q)) : Disk :=
  h.foldl (fun d op => (apply env aenv pubKeyOf dir d op).1) d

end Verif.Storage
