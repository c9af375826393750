import Verif.Model.FlagText
import Verif.Model.RecoveryFiles
import Verif.Model.Bench

/-!
# The command lines of cmd/tss-recovery, cmd/tss-benchgen and cmd/tss-benchsign

Go's `flag` package for flags that are numbers or texts; what an argument is (`token`) is taken from `Flags`. The package keeps the newest value of each flag; here all values are
kept and the newest is looked up. Arguments are sequences of characters, not of arbitrary bytes.
-/
namespace Verif.ToolFlags
open Verif.Go Verif.Flags
open Verif.FlagText (parseInt)
open Verif.Recovery (Args Lib Rand Out)

/-- flag.Int and flag.String -/
inductive Kind
  | number
  | text
  deriving DecidableEq

/-- the flags that a tool has defined before `flag.Parse` -/
abbrev FlagSet := List (Str × Kind)

/-- flag's `intValue.Set` and `stringValue.Set`: can the value be set? -/
def Kind.accepts : Kind → Str → Bool
  | .number, v => (parseInt v).isSome
  | .text, _ => true

/-- flag's `parseOne`: looking up a flag. (`-h` and `-help`, when not defined, print the flags and end the program, as an unknown flag does.) -/
def kindOf (fs : FlagSet) (n : Str) : Option Kind := (fs.find? fun p => p.1 = n).map Prod.snd

/-- flag's `Parse` (`ExitOnError`): the values that are set, in order, and the arguments left over; `none` when the program ends with a message -/
def parse (fs : FlagSet) : List Str → List (Str × Str) → Option (List (Str × Str) × List Str)
  | [], given => some (given, [])
  | s :: args, given =>
    match token s with
    | .stop => some (given, s :: args)
    | .terminator => some (given, args)
    | .bad => none
    | .flag n v =>
      match kindOf fs n with
      | none => none
      | some k =>
        match v, args with
        | some v, args => if k.accepts v then parse fs args (given ++ [(n, v)]) else none
        | none, v :: args => if k.accepts v then parse fs args (given ++ [(n, v)]) else none
        | none, [] => none

/-- the newest value of a flag -/
def value (given : List (Str × Str)) (n : Str) : Option Str := ((given.filter fun p => p.1 = n).map Prod.snd).getLast?

/-- the value of a flag made with flag.Int -/
def intFlag (given : List (Str × Str)) (n : Str) (default : Int) : Int := ((value given n).bind parseInt).getD default

/-- the value of a flag made with flag.String and the default "" -/
def textFlag (given : List (Str × Str)) (n : Str) : Str := (value given n).getD []

/-! ## cmd/tss-recovery -/

/-- cmd/tss-recovery/tss-recovery.go:15-18 -/
def recoveryFlags : FlagSet := [("n".toList, .number), ("export".toList, .text), ("password".toList, .text)]

/-- cmd/tss-recovery/tss-recovery.go:15-20 -/
def recoveryArgs (words : List Str) : Option (Args Str) :=
  match parse recoveryFlags words [] with
  | none => none
  | some (given, files) =>
    some ⟨(value given "n".toList).bind parseInt, Json.utf8 (textFlag given "export".toList), Json.utf8 (textFlag given "password".toList), files⟩

/-- cmd/tss-recovery/tss-recovery.go:14-72 `main` from the command line on; `none` when it is refused -/
def recovery (disk : Str → Option Bytes) (lib : Lib) (r : Rand) (words : List Str) : Option (Res (Out (Option Str))) :=
  (recoveryArgs words).map (RecoveryFiles.tool disk lib r)

/-! ## the benchmark tools -/

/-- cmd/tss-benchgen/main.go:51-55 -/
def genFlags : FlagSet := [("q".toList, .number), ("n".toList, .number), ("procs".toList, .number)]

/-- what the key generation tool goes on with -/
structure GenLine where
  quorum : Int
  parties : Int
  dir : Str
  deriving DecidableEq

/-- cmd/tss-benchgen/main.go:51-73: `there` says whether a file or folder exists; `none` when the tool ends with a message. The number of threads is left out. -/
def genLine (there : Str → Bool) (words : List Str) : Option GenLine :=
  match parse genFlags words [] with
  | none => none
  | some (given, left) =>
    if Bench.genArgs (intFlag given "n".toList 20) (intFlag given "q".toList 2) then
      match left with
      | [] => none
      | dir :: _ => if there dir then none else some ⟨intFlag given "q".toList 2, intFlag given "n".toList 20, dir⟩
    else none

/-- cmd/tss-benchsign/main.go:45-50 -/
def signFlags : FlagSet := [("q".toList, .number), ("n".toList, .number), ("r".toList, .number), ("procs".toList, .number)]

/-- cmd/tss-benchsign/main.go:43-102 `main` from the command line on: `path` is the folder that a word names and `folder` says whether it exists -/
def sign {M : Type} (path : Str → Storage.Path) (folder : Str → Bool) (d : Storage.Disk) (play : Nat → Int → Bench.Play M) (words : List Str) : Bench.Outcome :=
  match parse signFlags words [] with
  | none => .refused
  | some (given, left) =>
    match left with
    | [] => .refused
    | dir :: _ =>
      Bench.signMain (intFlag given "q".toList 2) (intFlag given "n".toList 2) (intFlag given "r".toList 1) (path dir) (folder dir) d play

end Verif.ToolFlags
