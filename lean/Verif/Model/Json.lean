import Verif.Model.Base64

/-!
# JSON

Go's encoding/json, library code which is not in /repo, as far as the program uses it: texts of values (`json.Unmarshal`, `Decoder.Decode`), values read into
variables of Go types, and the compact texts of `json.Marshal`.

Texts are read as characters: a byte which is part of no character counts as U+FFFD, which is allowed inside of strings only. The limit on the nesting of
values (10000, from Go 1.15 on) is left out.
-/
namespace Verif.Json
open Verif.MsgId (Str)

/-! ## Characters -/

/-- unicode/utf8 `DecodeRune`, `none` for an invalid first byte -/
def firstRune (b : Bytes) : Option Char := b.toByteArray.utf8DecodeChar? 0

/-- the characters of bytes, each invalid byte being U+FFFD (encoding/json `unquoteBytes`); the first argument counts bytes to skip -/
def runesFrom : Nat → Bytes → Str
  | _, [] => []
  | n + 1, _ :: r => runesFrom n r
  | 0, x :: r =>
    match firstRune (x :: r) with
    | some c => c :: runesFrom (c.utf8Size - 1) r
    | none => '\ufffd' :: runesFrom 0 r

/-- the characters of bytes -/
def runes (b : Bytes) : Str := runesFrom 0 b

/-- the bytes of characters -/
def utf8 (s : Str) : Bytes := s.flatMap String.utf8EncodeChar

/-! ## Values -/

/-- A JSON value. Numbers are kept as texts, members of objects in their order and with their repetitions. -/
inductive J
  | null
  | bool (b : Bool)
  | num (t : Str)
  | str (s : Str)
  | arr (l : List J)
  | obj (l : List (Str × J))
  deriving Repr

/-- encoding/json `isSpace` -/
def isSpace (c : Char) : Bool := c = ' ' || c = '\t' || c = '\r' || c = '\n'

/-- without leading spaces -/
def skip (s : Str) : Str := s.dropWhile isSpace

/-- the value of a hexadecimal digit -/
def hex (c : Char) : Option Nat :=
  if '0' ≤ c ∧ c ≤ '9' then some (c.toNat - 48)
  else if 'a' ≤ c ∧ c ≤ 'f' then some (c.toNat - 87)
  else if 'A' ≤ c ∧ c ≤ 'F' then some (c.toNat - 55)
  else none

/-- encoding/json `getu4` -/
def hex4 (a b c d : Char) : Option Nat :=
  match hex a, hex b, hex c, hex d with
  | some w, some x, some y, some z => some (w * 4096 + x * 256 + y * 16 + z)
  | _, _, _, _ => none

/-- encoding/json `stateInStringEsc`, `unquoteBytes`: what a short escape stands for -/
def short (c : Char) : Option Char :=
  if c = '"' then some '"' else if c = '\\' then some '\\' else if c = '/' then some '/' else if c = 'b' then some '\x08'
  else if c = 'f' then some '\x0c' else if c = 'n' then some '\n' else if c = 'r' then some '\r' else if c = 't' then some '\t' else none

/-- a piece of a string: a character, or the number of an escape `\uXXXX` -/
inductive Piece
  | char (c : Char)
  | code (n : Nat)
  deriving DecidableEq, Repr

/-- encoding/json `stateInString` and the following: the pieces of a string whose opening quote has been read, and what follows the closing quote -/
def pieces : Str → Option (List Piece × Str)
  | [] => none
  | c :: r =>
    if c = '"' then some ([], r)
    else if c = '\\' then
      match r with
      | [] => none
      | e :: r' =>
        if e = 'u' then
          match r' with
          | h :: i :: j :: k :: r'' =>
            match hex4 h i j k, pieces r'' with
            | some n, some (l, x) => some (.code n :: l, x)
            | _, _ => none
          | _ => none
        else match short e, pieces r' with
          | some d, some (l, x) => some (.char d :: l, x)
          | _, _ => none
    else if c.toNat < 32 then none
    else match pieces r with
      | some (l, x) => some (.char c :: l, x)
      | none => none

/-- unicode/utf16 `DecodeRune` of two surrogates -/
def pair (h l : Nat) : Option Char :=
  if 0xD800 ≤ h ∧ h < 0xDC00 ∧ 0xDC00 ≤ l ∧ l < 0xE000 then some (Char.ofNat ((h - 0xD800) * 1024 + (l - 0xDC00) + 0x10000)) else none

/-- the character of one escape `\uXXXX`: U+FFFD for a surrogate -/
def single (n : Nat) : Char := if 0xD800 ≤ n ∧ n < 0xE000 then '\ufffd' else Char.ofNat n

/-- encoding/json `unquoteBytes`: two escapes may make one character -/
def join : List Piece → Str
  | [] => []
  | .char c :: r => c :: join r
  | [.code h] => [single h]
  | .code h :: .char c :: r => single h :: c :: join r
  | .code h :: .code l :: r =>
    match pair h l with
    | some c => c :: join r
    | none => single h :: join (.code l :: r)

/-- a string whose opening quote has been read -/
def string (s : Str) : Option (Str × Str) := (pieces s).map fun p => (join p.1, p.2)

/-- the characters of numbers; none of them can follow a number -/
def inNumber (c : Char) : Bool := c.isDigit || c = '-' || c = '+' || c = '.' || c = 'e' || c = 'E'

/-- digits, at least one, and what follows them -/
def someDigits (s : Str) : Option Str := if (s.takeWhile Char.isDigit) = [] then none else some (s.dropWhile Char.isDigit)

/-- encoding/json `isValidNumber`: what follows the integer part -/
def afterInt : Str → Option Str
  | [] => none
  | c :: r => if c = '0' then some r else if c.isDigit then some (r.dropWhile Char.isDigit) else none

/-- encoding/json `isValidNumber`: what follows the fraction, if there is one -/
def afterFrac : Str → Option Str
  | [] => some []
  | c :: r => if c = '.' then someDigits r else some (c :: r)

/-- encoding/json `isValidNumber`: what follows the exponent, if there is one -/
def afterExp : Str → Option Str
  | [] => some []
  | c :: r =>
    if c = 'e' ∨ c = 'E' then
      match r with
      | [] => none
      | d :: r' => if d = '+' ∨ d = '-' then someDigits r' else someDigits (d :: r')
    else some (c :: r)

/-- encoding/json `isValidNumber` -/
def isNumber (s : Str) : Bool :=
  (((afterInt (match s with | [] => [] | c :: r => if c = '-' then r else c :: r)).bind afterFrac).bind afterExp) = some []

/-- a literal -/
def literal (s t : Str) (j : J) : Option (J × Str) := if t.isPrefixOf s then some (j, s.drop t.length) else none

/-- encoding/json `array`: the elements after the opening bracket, at least one; `val` reads a value, the number bounds the elements -/
def elements (val : Str → Option (J × Str)) : Nat → Str → Option (List J × Str)
  | 0, _ => none
  | k + 1, s =>
    match val s with
    | none => none
    | some (j, r) =>
      match skip r with
      | [] => none
      | c :: r' =>
        if c = ',' then (elements val k r').map fun p => (j :: p.1, p.2)
        else if c = ']' then some ([j], r')
        else none

/-- encoding/json `object`: the name of a member and what follows the colon -/
def memberName (s : Str) : Option (Str × Str) :=
  match skip s with
  | [] => none
  | c :: r =>
    if c = '"' then
      match string r with
      | none => none
      | some (n, r') =>
        match skip r' with
        | [] => none
        | d :: r'' => if d = ':' then some (n, r'') else none
    else none

/-- encoding/json `object`: the members after the opening brace, at least one -/
def members (val : Str → Option (J × Str)) : Nat → Str → Option (List (Str × J) × Str)
  | 0, _ => none
  | k + 1, s =>
    match memberName s with
    | none => none
    | some (n, r) =>
      match val r with
      | none => none
      | some (j, r') =>
        match skip r' with
        | [] => none
        | c :: r'' =>
          if c = ',' then (members val k r'').map fun p => ((n, j) :: p.1, p.2)
          else if c = '}' then some ([(n, j)], r'')
          else none

/-- encoding/json, the scanner: a value with the spaces before it, and what follows; the number bounds the nesting -/
def value : Nat → Str → Option (J × Str)
  | 0, _ => none
  | n + 1, s =>
    match skip s with
    | [] => none
    | c :: r =>
      if c = '"' then (string r).map fun p => (.str p.1, p.2)
      else if c = '[' then
        if (skip r).head? = some ']' then some (.arr [], (skip r).tail) else (elements (value n) (r.length + 1) r).map fun p => (.arr p.1, p.2)
      else if c = '{' then
        if (skip r).head? = some '}' then some (.obj [], (skip r).tail) else (members (value n) (r.length + 1) r).map fun p => (.obj p.1, p.2)
      else if c = 'n' then literal (c :: r) "null".toList .null
      else if c = 't' then literal (c :: r) "true".toList (.bool true)
      else if c = 'f' then literal (c :: r) "false".toList (.bool false)
      else if isNumber ((c :: r).takeWhile inNumber) then some (.num ((c :: r).takeWhile inNumber), (c :: r).dropWhile inNumber)
      else none

/-- encoding/json `checkValid`: a text which is one value (`json.Unmarshal`) -/
def parse (s : Str) : Option J :=
  match value (s.length + 1) s with
  | none => none
  | some (j, r) => if skip r = [] then some j else none

/-- encoding/json `Decoder.Decode`: the first value of a text; what follows it is not looked at -/
def firstValue (s : Str) : Option J := (value (s.length + 1) s).map Prod.fst

/-! ## Values read into variables

`json.Unmarshal` sets a variable; what a value does not mention stays. An error anywhere is an error of the whole: the callers use nothing of what was set.
(When an array is read a third time into the same slice, Go also finds old elements beyond its length; here they are new.) -/

/-- reading a value into a variable -/
abbrev Dec (α : Type) := J → α → Option α

/-- encoding/json `literalStore` into a `string` -/
def dString : Dec String
  | .null, old => some old
  | .str s, _ => some (String.ofList s)
  | _, _ => none

/-- encoding/json `literalStore` into a `bool` -/
def dBool : Dec Bool
  | .null, old => some old
  | .bool b, _ => some b
  | _, _ => none

/-- the number of decimal digits -/
def decimal (t : Str) : Nat := t.foldl (fun a c => a * 10 + (c.toNat - 48)) 0

/-- encoding/json `literalStore` into a `uint8`, strconv `ParseUint` -/
def dU8 : Dec Nat
  | .null, old => some old
  | .num t, _ => if t.all Char.isDigit then (if decimal t < 256 then some (decimal t) else none) else none
  | _, _ => none

/-- strconv `ParseInt` of the text of a number -/
def parseInt (t : Str) : Option Int :=
  match t with
  | [] => none
  | c :: r =>
    if c = '-' then
      (if r.all Char.isDigit then (if decimal r ≤ 2 ^ 63 then some (-(decimal r : Int)) else none) else none)
    else if (c :: r).all Char.isDigit then (if decimal (c :: r) < 2 ^ 63 then some (decimal (c :: r) : Int) else none)
    else none

/-- encoding/json `literalStore` into an `int` or `int64` -/
def dInt : Dec Int
  | .null, old => some old
  | .num t, _ => parseInt t
  | _, _ => none

/-- encoding/json `array`: elements are read into the elements that are there -/
def dElems {α : Type} (zero : α) (d : Dec α) : List J → List α → Option (List α)
  | [], _ => some []
  | j :: l, old =>
    match d j (old.headD zero), dElems zero d l old.tail with
    | some x, some r => some (x :: r)
    | _, _ => none

/-- encoding/json `array`, `literalStore` into a slice -/
def dList {α : Type} (zero : α) (d : Dec α) : Dec (List α)
  | .null, _ => some []
  | .arr l, old => dElems zero d l old
  | _, _ => none

/-- encoding/json `literalStore`, `array` into a `[]byte`: base64, or an array of numbers -/
def dBytes : Dec Bytes
  | .str s, _ => Base64.decode s
  | .null, _ => some []
  | .arr l, old => (dElems 0 dU8 l (old.map UInt8.toNat)).map (·.map UInt8.ofNat)
  | _, _ => none

/-- encoding/json `indirect` -/
def dPtr {α : Type} (zero : α) (d : Dec α) : Dec (Option α)
  | .null, _ => some none
  | j, old => (d j (old.getD zero)).map some

/-- a field of a Go struct: its name, and how a value is read into it -/
structure Slot (α : Type) where
  name : Str
  set : Dec α

/-- encoding/json `foldFunc`: the fold of characters under which names are compared -/
def foldChar (c : Char) : Char :=
  if c = '\u212a' then 'k' else if c = '\u017f' then 's' else if 'A' ≤ c ∧ c ≤ 'Z' then Char.ofNat (c.toNat + 32) else c

/-- encoding/json `object`: the field of a name: the field with this very name, otherwise the first whose name differs in case only -/
def fieldOf {α : Type} (fields : List (Slot α)) (name : Str) : Option (Slot α) :=
  match fields.find? fun f => f.name = name with
  | some f => some f
  | none => fields.find? fun f => f.name.map foldChar = name.map foldChar

/-- encoding/json `object`: the members are read one by one; a member without a field is skipped -/
def dMembers {α : Type} (fields : List (Slot α)) : List (Str × J) → α → Option α
  | [], a => some a
  | (n, j) :: l, a =>
    match fieldOf fields n with
    | none => dMembers fields l a
    | some f =>
      match f.set j a with
      | none => none
      | some a' => dMembers fields l a'

/-- encoding/json `object` into a struct -/
def dStruct {α : Type} (fields : List (Slot α)) : Dec α
  | .null, a => some a
  | .obj l, a => dMembers fields l a
  | _, _ => none

/-- `json.Unmarshal` into a new variable -/
def unmarshal {α : Type} (zero : α) (d : Dec α) (b : Bytes) : Option α := (parse (runes b)).bind fun j => d j zero

/-- `Decoder.Decode` into a new variable -/
def decodeFirst {α : Type} (zero : α) (d : Dec α) (b : Bytes) : Option α := (firstValue (runes b)).bind fun j => d j zero

/-! ## Texts -/

/-- the hexadecimal digit of a number below 16 -/
def hexDigit (n : Nat) : Char := "0123456789abcdef".toList.getD n '0'

/-- encoding/json `encodeState.string`: a character in a string -/
def escape (c : Char) : Str :=
  if c = '"' then ['\\', '"'] else if c = '\\' then ['\\', '\\'] else if c = '\n' then ['\\', 'n'] else if c = '\r' then ['\\', 'r']
  else if c = '\t' then ['\\', 't']
  else if c.toNat < 32 ∨ c = '<' ∨ c = '>' ∨ c = '&' then ['\\', 'u', '0', '0', hexDigit (c.toNat / 16), hexDigit (c.toNat % 16)]
  else if c = '\u2028' then "\\u2028".toList else if c = '\u2029' then "\\u2029".toList
  else [c]

/-- encoding/json `encodeState.string` -/
def quote (s : Str) : Str := '"' :: s.flatMap escape ++ ['"']

/-- texts separated by commas -/
def commas : List Str → Str
  | [] => []
  | [t] => t
  | t :: u :: l => t ++ ',' :: commas (u :: l)

/-- encoding/json `arrayEncoder` -/
def arrText (l : List Str) : Str := '[' :: commas l ++ [']']

/-- encoding/json `structEncoder`: names and texts of fields -/
def objText (l : List (String × Str)) : Str := '{' :: commas (l.map fun p => quote p.1.toList ++ ':' :: p.2) ++ ['}']

/-- encoding/json `boolEncoder` -/
def boolText (b : Bool) : Str := if b then "true".toList else "false".toList

/-- encoding/json `uintEncoder` -/
def natText (n : Nat) : Str := Nat.toDigits 10 n

/-- encoding/json `intEncoder` -/
def intText : Int → Str
  | .ofNat n => natText n
  | .negSucc n => '-' :: natText (n + 1)

/-- encoding/json `encodeByteSlice` of a slice which is not nil -/
def bytesText (b : Bytes) : Str := '"' :: Base64.encode b ++ ['"']

end Verif.Json
