import Verif.Model.AcceptSlices

/-!
# Specification for C151: histories of accepted shares and of a timeout being blamed
-/
namespace Verif.Spec.Accepts
open Verif.Blame Verif.AcceptSlices

/-- Whose shares of the round were accepted, in order. -/
def ids (h : List Ev) (round : RoundInfo) : List Nat :=
  h.filterMap fun
    | .accept r id => if r = round then some id else none
    | _ => none

/-- The lists were copied, and since then no share of the round was accepted. -/
def Still (h : List Ev) (round : RoundInfo) : Prop :=
  ∃ pre mid, h = pre ++ Ev.look :: mid ∧ Ev.look ∉ mid ∧ ∀ id, Ev.accept round id ∉ mid

/-- Whenever the blame writes behind the list of a round, no share of that round was accepted since the lists were copied. -/
def Quiet (h : List Ev) : Prop := ∀ pre round post, h = pre ++ Ev.add round :: post → Still pre round

end Verif.Spec.Accepts
