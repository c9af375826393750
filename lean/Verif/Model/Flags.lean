import Verif.Model.Go
import Mathlib.Data.List.Basic

/-!
# The command line of the service: cmd/tss/main.go `parseFlags`, p2p/types.go

Go's package flag is not part of the repository; its loop over the arguments is written out (`Parse`, `parseOne`). Texts are lists of characters.
The readers of durations, numbers and multi-addresses are parameters. The texts of errors and the list of flags printed by `-h` are left out.
-/
namespace Verif.Flags
open Verif.Go

/-- text -/
abbrev Str := List Char

/-- what the flags set: cmd/tss/main.go:24-30 and the two structures of line 89. Durations are nanoseconds. `partyTimeout` is
common/types.go:9, for which there is no flag. -/
structure Conf (A : Type) where
  tssAddr : Str
  help : Bool
  logLevel : Str
  pretty : Bool
  home : Str
  genTimeout : Int
  signTimeout : Int
  preParamTimeout : Int
  monitor : Bool
  rendezvous : Str
  port : Int
  externalIP : Str
  peers : List A
  partyTimeout : Int
  deriving DecidableEq

/-- cmd/tss/main.go:91-108, the flags -/
inductive Flag
  | tssPort | help | logLevel | prettyLog | home | genTimeout | signTimeout | preParamTimeout | enableMonitor | rendezvous | p2pPort
  | externalIP | peer
  deriving DecidableEq, Repr

/-- cmd/tss/main.go:91-108, the names -/
def Flag.name : Flag → Str
  | .tssPort => "tss-port".toList
  | .help => "h".toList
  | .logLevel => "loglevel".toList
  | .prettyLog => "pretty-log".toList
  | .home => "home".toList
  | .genTimeout => "gentimeout".toList
  | .signTimeout => "signtimeout".toList
  | .preParamTimeout => "preparamtimeout".toList
  | .enableMonitor => "enablemonitor".toList
  | .rendezvous => "rendezvous".toList
  | .p2pPort => "p2p-port".toList
  | .externalIP => "external-ip".toList
  | .peer => "peer".toList

/-- all flags -/
def Flag.all : List Flag :=
  [.tssPort, .help, .logLevel, .prettyLog, .home, .genTimeout, .signTimeout, .preParamTimeout, .enableMonitor, .rendezvous, .p2pPort, .externalIP, .peer]

/-- cmd/tss/main.go:92, 94, 101: the flags made by `BoolVar` -/
def Flag.isBool : Flag → Bool
  | .help | .prettyLog | .enableMonitor => true
  | _ => false

/-- cmd/tss/main.go:91-108, the defaults (the list of peers is empty) -/
def defaults {A : Type} : Conf A where
  tssAddr := "127.0.0.1:8080".toList
  help := false
  logLevel := "info".toList
  pretty := false
  home := []
  genTimeout := 30000000000
  signTimeout := 30000000000
  preParamTimeout := 300000000000
  monitor := true
  rendezvous := "Asgard".toList
  port := 6668
  externalIP := []
  peers := []
  partyTimeout := 0

/-- the readers: `time.ParseDuration`, `strconv.ParseInt(s, 0, 64)`, `maddr.NewMultiaddr` -/
structure Env (A : Type) where
  duration : Str → Option Int
  int : Str → Option Int
  addr : Str → Option A

/-- `strconv.ParseBool` -/
def parseBool (s : Str) : Option Bool :=
  if s ∈ ["1".toList, "t".toList, "T".toList, "true".toList, "TRUE".toList, "True".toList] then some true
  else if s ∈ ["0".toList, "f".toList, "F".toList, "false".toList, "FALSE".toList, "False".toList] then some false
  else none

variable {A : Type}

/-- the method `Set` of each flag's value: the Go ones, and p2p/types.go:30-37 for `-peer` -/
def Flag.set (env : Env A) (c : Conf A) (v : Str) : Flag → Option (Conf A)
  | .tssPort => some { c with tssAddr := v }
  | .help => (parseBool v).map fun b => { c with help := b }
  | .logLevel => some { c with logLevel := v }
  | .prettyLog => (parseBool v).map fun b => { c with pretty := b }
  | .home => some { c with home := v }
  | .genTimeout => (env.duration v).map fun d => { c with genTimeout := d }
  | .signTimeout => (env.duration v).map fun d => { c with signTimeout := d }
  | .preParamTimeout => (env.duration v).map fun d => { c with preParamTimeout := d }
  | .enableMonitor => (parseBool v).map fun b => { c with monitor := b }
  | .rendezvous => some { c with rendezvous := v }
  | .p2pPort => (env.int v).map fun n => { c with port := n }
  | .externalIP => some { c with externalIP := v }
  | .peer => (env.addr v).map fun a => { c with peers := c.peers ++ [a] }

/-- flag's `parseOne`, the beginning: what an argument is -/
inductive Token
  | stop                                   -- not a flag
  | terminator                             -- "--"
  | bad                                    -- "bad flag syntax"
  | flag (name : Str) (value : Option Str) -- with the value after '=', if there is one

/-- flag's `parseOne`: the text after the minus signs, divided at the first '=' that is not its first character -/
def splitValue : Str → Str × Option Str
  | [] => ([], none)
  | c :: cs =>
    (c :: cs.takeWhile (· ≠ '='),
      match cs.dropWhile (· ≠ '=') with
      | [] => none
      | _ :: v => some v)

/-- flag's `parseOne`: the text after the minus signs -/
def named (s : Str) : Token :=
  match s with
  | [] => .bad
  | c :: _ => if c = '-' ∨ c = '=' then .bad else .flag (splitValue s).1 (splitValue s).2

/-- flag's `parseOne`: what an argument is -/
def token : Str → Token
  | d :: c :: s =>
    if d ≠ '-' then .stop
    else if c ≠ '-' then named (c :: s)
    else if s = [] then .terminator
    else named s
  | _ => .stop

/-- the flag of a name -/
def ofName (n : Str) : Option Flag := Flag.all.find? (fun f => f.name = n)

/-- flag's `Parse` (`ExitOnError`): the settings and the arguments left over, or `none` when the program ends with a message -/
def parse (env : Env A) : List Str → Conf A → Option (Conf A × List Str)
  | [], c => some (c, [])
  | s :: args, c =>
    match token s with
    | .stop => some (c, s :: args)
    | .terminator => some (c, args)
    | .bad => none
    | .flag n v =>
      match ofName n with
      | none => none
      | some f =>
        if f.isBool then
          match f.set env c (v.getD "true".toList) with
          | none => none
          | some c' => parse env args c'
        else
          match v, args with
          | some v, args =>
            match f.set env c v with
            | none => none
            | some c' => parse env args c'
          | none, v :: args =>
            match f.set env c v with
            | none => none
            | some c' => parse env args c'
          | none, [] => none

/-- cmd/tss/main.go:89-111 `parseFlags`; what is left over is not looked at -/
def parseFlags (env : Env A) (args : List Str) : Option (Conf A) := (parse env args defaults).map Prod.fst

/-- cmd/tss/main.go:32-38: what the program does with its command line: end with a message, print the flags, or go on -/
inductive Begin (A : Type)
  | refuse
  | usage
  | go (c : Conf A)

/-- cmd/tss/main.go:32-38 -/
def begin_ (env : Env A) (args : List Str) : Begin A :=
  match parseFlags env args with
  | none => .refuse
  | some c => if c.help then .usage else .go c

/-- p2p/party_coordinator.go:41-45 with tss/tss.go:104: how long a join waits, in nanoseconds, for the configured `PartyTimeout` -/
def joinTimeout (configured : Int) : Int := if configured = 0 then 10000000000 else configured

end Verif.Flags
