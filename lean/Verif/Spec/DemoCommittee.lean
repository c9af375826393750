import Verif.Spec.Committee

/-! A concrete committee of four members used in the examples: member `i` has key bytes `[i + 1]`, public key `20 + i` and
peer id `10 + i`. -/
namespace Verif.Spec
open Verif.Go Verif.Conversion Verif.Blame

/-- toy encodings -/
def demoCodec : Codec Nat Nat where
  dec k := if 20 ≤ k then some [UInt8.ofNat (k - 19)] else none
  enc b := match b with
    | [x] => some (x.toNat + 19)
    | _ => none
  peerOf b := match b with
    | [x] => some (x.toNat + 9)
    | _ => none
  rawOf p := some [UInt8.ofNat (p - 9)]

/-- members 0 to 3 -/
def demoParties : List Party := [⟨0, [1], 0⟩, ⟨1, [2], 1⟩, ⟨2, [3], 2⟩, ⟨3, [4], 3⟩]

/-- their party map -/
def demoPartyMap : Map Nat Party := SetupPartyIDMap demoParties

/-- their peers -/
def demoPeers : Map Nat Nat := [(0, 10), (1, 11), (2, 12), (3, 13)]

/-- a fresh blame manager of member `loc` -/
def demoManager {K : Type} (loc : Nat) : Manager K Nat := newManager demoPartyMap demoPeers loc

theorem demoPartyMap_get (i : Nat) (p : Party) (h : Map.get demoPartyMap i = some p) :
    (i = 0 ∧ p = ⟨0, [1], 0⟩) ∨ (i = 1 ∧ p = ⟨1, [2], 1⟩) ∨ (i = 2 ∧ p = ⟨2, [3], 2⟩) ∨ (i = 3 ∧ p = ⟨3, [4], 3⟩) := by
  have h' := Map.mem_of_get h
  have e : demoPartyMap = [(0, ⟨0, [1], 0⟩), (1, ⟨1, [2], 1⟩), (2, ⟨2, [3], 2⟩), (3, ⟨3, [4], 3⟩)] := by decide
  rw [e] at h'
  simpa using h'

theorem demoPeers_get (i p : Nat) (h : Map.get demoPeers i = some p) : p = i + 10 := by
  have h' := Map.mem_of_get h
  simp [demoPeers] at h'
  omega

theorem demoCommittee (loc : Nat) (h : loc < 4) : Committee demoCodec (demoManager loc) where
  wf := by show (Map.keys demoPartyMap).Nodup; decide
  ids := by
    intro i p h
    rcases demoPartyMap_get i p h with ⟨rfl, rfl⟩ | ⟨rfl, rfl⟩ | ⟨rfl, rfl⟩ | ⟨rfl, rfl⟩ <;> rfl
  named := by
    intro i p h
    rcases demoPartyMap_get i p h with ⟨rfl, rfl⟩ | ⟨rfl, rfl⟩ | ⟨rfl, rfl⟩ | ⟨rfl, rfl⟩
    · exact ⟨20, by decide⟩
    · exact ⟨21, by decide⟩
    · exact ⟨22, by decide⟩
    · exact ⟨23, by decide⟩
  wfp := by show (Map.keys demoPeers).Nodup; decide
  same := by
    intro i
    show i ∈ Map.keys demoPeers ↔ i ∈ Map.keys demoPartyMap
    have : Map.keys demoPeers = Map.keys demoPartyMap := by decide
    rw [this]
  inj := by
    intro i j p hi hj
    have := demoPeers_get i p hi
    have := demoPeers_get j p hj
    omega
  loc := by
    show loc ∈ Map.keys demoPartyMap
    have : Map.keys demoPartyMap = [0, 1, 2, 3] := by decide
    rw [this]; simp; omega

theorem demoDistinct (loc : Nat) : DistinctKeys demoCodec (demoManager (K := Nat) loc).partyIDMap := by
  rintro i j k ⟨p, hp, hk⟩ ⟨q, hq, hk'⟩
  rcases demoPartyMap_get i p hp with ⟨rfl, rfl⟩ | ⟨rfl, rfl⟩ | ⟨rfl, rfl⟩ | ⟨rfl, rfl⟩ <;>
  rcases demoPartyMap_get j q hq with ⟨rfl, rfl⟩ | ⟨rfl, rfl⟩ | ⟨rfl, rfl⟩ | ⟨rfl, rfl⟩ <;>
  first
  | rfl
  | (rw [← hk'] at hk; exact absurd hk (by decide))

end Verif.Spec
