import Verif.Model.Json

/-!
# JSON texts (RFC 8259)

The grammar of JSON, production by production, with the value of each text, and what Go makes of bytes that are no characters and of escapes that are no
characters.
-/
namespace Verif.Spec.Json
open Verif.MsgId (Str)
open Verif.Json (J Piece)

/-- `s` are the characters of the bytes `b`: an encoded character is that character, and a byte at which no encoded character begins is U+FFFD -/
inductive Runes : Bytes → Str → Prop
  | nil : Runes [] []
  | char {b : Bytes} {s : Str} (c : Char) : Runes b s → Runes (String.utf8EncodeChar c ++ b) (c :: s)
  | bad {b : Bytes} {s : Str} (x : UInt8) : (∀ c, ¬ (String.utf8EncodeChar c).IsPrefix (x :: b)) → Runes b s → Runes (x :: b) ('\ufffd' :: s)

/-- RFC 8259, 2: `ws` -/
def Space (w : Str) : Prop := ∀ c ∈ w, c ∈ [' ', '\t', '\n', '\r']

/-- one or more digits -/
def Digits (t : Str) : Prop := t ≠ [] ∧ ∀ c ∈ t, c ∈ "0123456789".toList

/-- RFC 8259, 6: `int` -/
def IsInt (t : Str) : Prop := t = ['0'] ∨ ∃ c r, t = c :: r ∧ c ∈ "123456789".toList ∧ ∀ d ∈ r, d ∈ "0123456789".toList

/-- RFC 8259, 6: `frac`, or nothing -/
def IsFrac (t : Str) : Prop := t = [] ∨ ∃ r, t = '.' :: r ∧ Digits r

/-- RFC 8259, 6: `exp`, or nothing -/
def IsExp (t : Str) : Prop := t = [] ∨ ∃ e sign r, t = e :: (sign ++ r) ∧ e ∈ ['e', 'E'] ∧ sign ∈ [[], ['+'], ['-']] ∧ Digits r

/-- RFC 8259, 6: `number` -/
def IsNumber (t : Str) : Prop := ∃ m i f e, t = m ++ i ++ f ++ e ∧ m ∈ [[], ['-']] ∧ IsInt i ∧ IsFrac f ∧ IsExp e

/-- a hexadecimal digit and its value -/
def Hex (c : Char) (n : Nat) : Prop := ("0123456789abcdef".toList)[n]? = some c ∨ ("0123456789ABCDEF".toList)[n]? = some c

/-- RFC 8259, 7: `char` -/
inductive IsPiece : Piece → Str → Prop
  | plain (c : Char) : 32 ≤ c.toNat → c ≠ '"' → c ≠ '\\' → IsPiece (.char c) [c]
  | short (c e : Char) : (e, c) ∈ [('"', '"'), ('\\', '\\'), ('/', '/'), ('b', '\x08'), ('f', '\x0c'), ('n', '\n'), ('r', '\r'), ('t', '\t')] →
      IsPiece (.char c) ['\\', e]
  | code (a b c d : Char) (w x y z : Nat) : Hex a w → Hex b x → Hex c y → Hex d z →
      IsPiece (.code (w * 4096 + x * 256 + y * 16 + z)) ['\\', 'u', a, b, c, d]

/-- the pieces of the inside of a string -/
inductive Pieces : List Piece → Str → Prop
  | nil : Pieces [] []
  | cons {p : Piece} {l : List Piece} {t u : Str} : IsPiece p t → Pieces l u → Pieces (p :: l) (t ++ u)

/-- a first, a second surrogate -/
def High (n : Nat) : Prop := 0xD800 ≤ n ∧ n ≤ 0xDBFF
def Low (n : Nat) : Prop := 0xDC00 ≤ n ∧ n ≤ 0xDFFF

/-- The characters pieces stand for: the code of a character is that character, a first surrogate with a second one behind it is the character they encode in
UTF-16, any other surrogate is U+FFFD. -/
inductive Means : List Piece → Str → Prop
  | nil : Means [] []
  | char (c : Char) {l : List Piece} {s : Str} : Means l s → Means (.char c :: l) (c :: s)
  | code (c : Char) {l : List Piece} {s : Str} : Means l s → Means (.code c.toNat :: l) (c :: s)
  | pair (c : Char) (h k : Nat) {l : List Piece} {s : Str} : High h → Low k → c.toNat = 0x10000 + (h - 0xD800) * 0x400 + (k - 0xDC00) → Means l s →
      Means (.code h :: .code k :: l) (c :: s)
  | lone (h : Nat) {l : List Piece} {s : Str} : High h ∨ Low h → (High h → ∀ k, Low k → l.head? ≠ some (.code k)) → Means l s →
      Means (.code h :: l) ('\ufffd' :: s)

/-- RFC 8259, 7: `string` -/
def IsString (s t : Str) : Prop := ∃ l u, t = '"' :: (u ++ ['"']) ∧ Pieces l u ∧ Means l s

mutual
/-- RFC 8259, 3 to 5: a value without spaces around it -/
inductive IsValue : J → Str → Prop
  | null : IsValue .null "null".toList
  | true : IsValue (.bool Bool.true) "true".toList
  | false : IsValue (.bool Bool.false) "false".toList
  | num {t : Str} : IsNumber t → IsValue (.num t) t
  | str {s t : Str} : IsString s t → IsValue (.str s) t
  | arrNil {w : Str} : Space w → IsValue (.arr []) ('[' :: (w ++ [']']))
  | arr {l : List J} {t : Str} : Elements l t → IsValue (.arr l) ('[' :: (t ++ [']']))
  | objNil {w : Str} : Space w → IsValue (.obj []) ('{' :: (w ++ ['}']))
  | obj {l : List (Str × J)} {t : Str} : Members l t → IsValue (.obj l) ('{' :: (t ++ ['}']))
/-- values with commas between them and spaces around them -/
inductive Elements : List J → Str → Prop
  | one {j : J} {w t w' : Str} : Space w → IsValue j t → Space w' → Elements [j] (w ++ t ++ w')
  | more {j : J} {w t w' u : Str} {l : List J} : Space w → IsValue j t → Space w' → Elements l u → Elements (j :: l) (w ++ t ++ w' ++ ',' :: u)
/-- members with commas between them and spaces around them -/
inductive Members : List (Str × J) → Str → Prop
  | one {n : Str} {j : J} {w m x y t w' : Str} : Space w → IsString n m → Space x → Space y → IsValue j t → Space w' →
      Members [(n, j)] (w ++ m ++ x ++ ':' :: (y ++ t ++ w'))
  | more {n : Str} {j : J} {w m x y t w' u : Str} {l : List (Str × J)} : Space w → IsString n m → Space x → Space y → IsValue j t → Space w' →
      Members l u → Members ((n, j) :: l) (w ++ m ++ x ++ ':' :: (y ++ t ++ w') ++ ',' :: u)
end

/-- RFC 8259, 2: `JSON-text` -/
def IsText (j : J) (s : Str) : Prop := ∃ w t w', s = w ++ t ++ w' ∧ Space w ∧ IsValue j t ∧ Space w'

end Verif.Spec.Json
