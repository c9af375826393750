import Verif.Model.Flags

/-!
# What a command line of the service means

Independent of the parser: a command line is a list of settings as a user writes them, and what they mean is said field by field.
-/
namespace Verif.Spec.CommandLine
open Verif.Flags

/-- one or two minus signs, in front of a name -/
def dashed (two : Bool) (s : Str) : Str := if two then '-' :: '-' :: s else '-' :: s

/-- the names of the flags, as documented to the user -/
def spelled : Flag → Str
  | .tssPort => "tss-port".toList
  | .help => "h".toList
  | .logLevel => "loglevel".toList
  | .prettyLog => "pretty-log".toList
  | .home => "home".toList
  | .genTimeout => "gentimeout".toList
  | .signTimeout => "signtimeout".toList
  | .preParamTimeout => "preparamtimeout".toList
  | .enableMonitor => "enablemonitor".toList
  | .rendezvous => "rendezvous".toList
  | .p2pPort => "p2p-port".toList
  | .externalIP => "external-ip".toList
  | .peer => "peer".toList

/-- a setting as it is written: `-name`, `-name=value`, or `-name value` -/
inductive Written
  | bare (two : Bool) (f : Flag)
  | equals (two : Bool) (f : Flag) (v : Str)
  | apart (two : Bool) (f : Flag) (v : Str)

/-- its arguments on the command line -/
def Written.args : Written → List Str
  | .bare two f => [dashed two (spelled f)]
  | .equals two f v => [dashed two (spelled f ++ '=' :: v)]
  | .apart two f v => [dashed two (spelled f), v]

/-- which flag it sets, and to what: a switch without a value is switched on -/
def Written.says : Written → Flag × Str
  | .bare _ f => (f, "true".toList)
  | .equals _ f v => (f, v)
  | .apart _ f v => (f, v)

/-- the three switches -/
def Switch (f : Flag) : Prop := f = .help ∨ f = .prettyLog ∨ f = .enableMonitor

/-- is it written in a way that is allowed? Only a switch may stand alone, and a switch never takes the next argument. -/
def Written.Allowed : Written → Prop
  | .bare _ f => Switch f
  | .equals .. => True
  | .apart _ f _ => ¬ Switch f

variable {A : Type}

/-- the words for on and off (the documentation of Go's `strconv.ParseBool`: 1, t, T, TRUE, true, True, 0, f, F, FALSE, false, False) -/
def truth (v : Str) : Option Bool :=
  if String.ofList v ∈ ["1", "t", "T", "TRUE", "true", "True"] then some true
  else if String.ofList v ∈ ["0", "f", "F", "FALSE", "false", "False"] then some false
  else none

/-- can the value of a flag be read? -/
def Readable (env : Env A) : Flag × Str → Prop
  | (.help, v) | (.prettyLog, v) | (.enableMonitor, v) => truth v ≠ none
  | (.genTimeout, v) | (.signTimeout, v) | (.preParamTimeout, v) => env.duration v ≠ none
  | (.p2pPort, v) => env.int v ≠ none
  | (.peer, v) => env.addr v ≠ none
  | _ => True

/-- the last value given for a flag -/
def last (l : List (Flag × Str)) (f : Flag) : Option Str := ((l.filter fun x => x.1 = f).map Prod.snd).getLast?

/-- What a list of settings means. -/
structure Means (env : Env A) (l : List (Flag × Str)) (c : Conf A) : Prop where
  tssAddr : c.tssAddr = (last l .tssPort).getD "127.0.0.1:8080".toList
  help : c.help = ((last l .help).bind truth).getD false
  logLevel : c.logLevel = (last l .logLevel).getD "info".toList
  pretty : c.pretty = ((last l .prettyLog).bind truth).getD false
  home : c.home = (last l .home).getD []
  genTimeout : c.genTimeout = ((last l .genTimeout).bind env.duration).getD 30000000000
  signTimeout : c.signTimeout = ((last l .signTimeout).bind env.duration).getD 30000000000
  preParamTimeout : c.preParamTimeout = ((last l .preParamTimeout).bind env.duration).getD 300000000000
  monitor : c.monitor = ((last l .enableMonitor).bind truth).getD true
  rendezvous : c.rendezvous = (last l .rendezvous).getD "Asgard".toList
  port : c.port = ((last l .p2pPort).bind env.int).getD 6668
  externalIP : c.externalIP = (last l .externalIP).getD []
  peers : c.peers = ((l.filter fun x => x.1 = .peer).map Prod.snd).filterMap env.addr
  partyTimeout : c.partyTimeout = 0

/-- where the settings end: at the end of the line, at "--", or at an argument that is a single character or does not begin with a minus sign -/
def Ends (rest : List Str) : Prop :=
  rest = [] ∨ ∃ s more, rest = s :: more ∧ (s = "--".toList ∨ s.length < 2 ∨ s.head? ≠ some '-')

end Verif.Spec.CommandLine
