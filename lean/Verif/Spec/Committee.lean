import Verif.Model.Blame

/-!
# Naming committee members

`Names c committee ids ks`: `ks` are the public keys of the committee members `ids`, one for one and in the same order.
-/
namespace Verif.Spec
open Verif.Go Verif.Conversion Verif.Blame

/-- `k` is the public key of the member with party id `i` -/
def Named {K P : Type} (c : Codec K P) (committee : Map Nat Party) (i : Nat) (k : K) : Prop :=
  ∃ p, Map.get committee i = some p ∧ PartyIDtoPubKey c p = .ok k

/-- `ks` are the public keys of `ids` -/
def Names {K P : Type} (c : Codec K P) (committee : Map Nat Party) (ids : List Nat) (ks : List K) : Prop :=
  List.Forall₂ (Named c committee) ids ks

/-- every member has a public key, so that naming cannot fail -/
def Nameable {K P : Type} (c : Codec K P) (committee : Map Nat Party) : Prop :=
  ∀ i p, Map.get committee i = some p → ∃ k, PartyIDtoPubKey c p = .ok k

/-- the hypotheses of the party maps: keyed by party id, the same committee in both maps, one peer per member -/
structure Committee {K P : Type} (c : Codec K P) (m : Manager K P) : Prop where
  wf : Map.WF m.partyIDMap
  ids : ∀ i p, Map.get m.partyIDMap i = some p → p.id = i
  named : Nameable c m.partyIDMap
  wfp : Map.WF m.partyIDtoP2PID
  same : ∀ i, i ∈ Map.keys m.partyIDtoP2PID ↔ i ∈ Map.keys m.partyIDMap
  inj : ∀ i j p, Map.get m.partyIDtoP2PID i = some p → Map.get m.partyIDtoP2PID j = some p → i = j
  loc : m.localPartyID ∈ Map.keys m.partyIDMap

/-- distinct members have distinct public keys -/
def DistinctKeys {K P : Type} (c : Codec K P) (committee : Map Nat Party) : Prop :=
  ∀ i j k, Named c committee i k → Named c committee j k → i = j

end Verif.Spec
