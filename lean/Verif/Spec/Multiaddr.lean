import Verif.Model.Multiaddr
import Verif.Spec.PeerId

/-!
# Specification for C142: plain addresses
-/
namespace Verif.Spec.Multiaddr
open Verif.Multiaddr Verif.Spec.PeerId

/-- A component as a network address has it: not a path, host names are not empty and contain no '/', peer ids are peer ids. -/
def PlainComp : Comp → Prop
  | .ip4 _ _ _ _ | .tcp _ | .udp _ | .flag _ => True
  | .dns _ n => n ≠ [] ∧ '/' ∉ n
  | .p2p id => IsPeerId id
  | .unix _ => False

/-- A network address -/
def Plain (a : Addr) : Prop := ∀ c ∈ a, PlainComp c

/-- No host name and no path contains a line break -/
def OneLine (a : Addr) : Prop := ∀ c ∈ a, match c with
  | .dns _ n => '\n' ∉ n
  | .unix p => '\n' ∉ p
  | _ => True

end Verif.Spec.Multiaddr
