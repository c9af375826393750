import Verif.Model.Json

/-!
# What is read from a JSON object

An object is read into a struct field by field. The members for a field are those whose names are its name, up to the case of letters.
-/
namespace Verif.Spec.Json
open Verif.MsgId (Str)
open Verif.Json

/-- a letter without its case: also the Kelvin sign is a `k`, and the long s an `s` -/
def plain (c : Char) : Char := if c = '\u212a' then 'k' else if c = '\u017f' then 's' else c.toLower

/-- two names are the same up to the case of their letters -/
def SameName (a b : Str) : Prop := a.map plain = b.map plain

instance (a b : Str) : Decidable (SameName a b) := inferInstanceAs (Decidable (_ = _))

/-- the values an object has for a field, in their order -/
def valuesFor (name : String) (l : List (Str × J)) : List J := l.filterMap fun m => if SameName m.1 name.toList then some m.2 else none

/-- values read one after the other into the same variable -/
def readAll {α : Type} (d : Dec α) : List J → α → Option α
  | [], a => some a
  | j :: l, a => (d j a).bind (readAll d l)

/-- a text variable after values have been read into it: texts replace it, `null` leaves it as it is, and there is nothing else -/
inductive TextOf : List J → Str → Str → Prop
  | nil (s : Str) : TextOf [] s s
  | null {l : List J} {s t : Str} : TextOf l s t → TextOf (.null :: l) s t
  | str {l : List J} {s t : Str} (u : Str) : TextOf l u t → TextOf (.str u :: l) s t

end Verif.Spec.Json
