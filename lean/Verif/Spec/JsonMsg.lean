import Verif.Model.JsonMsg
import Verif.Spec.SessNet
import Verif.Spec.Json

/-!
# Messages as JSON: what is assumed, and what it means for a text to say a message
-/
namespace Verif.Spec.JsonMsg
open Verif.Json Verif.JsonMsg
open Verif.MsgId (Str)

/-- the names fit together: a party's number is the number its id is the decimal text of, peer ids are read back (the empty text is none), and an index is
an `int` of 64 bits -/
structure Lawful {P : Type} (N : Naming P) : Prop where
  number : ∀ n : Nat, N.number (toString n) = n
  peer : ∀ o, N.peer (N.peerText o) = o
  index : ∀ n, -2 ^ 63 ≤ N.index n ∧ N.index n < 2 ^ 63

end Verif.Spec.JsonMsg
