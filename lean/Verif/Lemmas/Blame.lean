import Verif.Model.Blame
import Verif.Spec.Committee

namespace Verif.Blame
open Verif.Go Verif.Conversion Verif.Messages Verif.Spec

variable {K P : Type} [DecidableEq K] [DecidableEq P]

omit [DecidableEq K] [DecidableEq P] in
theorem accPubKeys_ok_iff (c : Codec K P) (m : Map Nat Party) (ids : List Nat) (ks : List K) :
    AccPubKeysFromPartyIDs c m ids = .ok ks ↔ Names c m ids ks := by
  induction ids generalizing ks with
  | nil => cases ks <;> simp [AccPubKeysFromPartyIDs, Names]
  | cons i is ih =>
    rcases hg : Map.get m i with _ | p
    · simp only [AccPubKeysFromPartyIDs, hg]
      constructor
      · intro h; cases h
      · intro h
        cases h with
        | cons h1 _ => obtain ⟨p, hp, _⟩ := h1; rw [hg] at hp; cases hp
    · simp only [AccPubKeysFromPartyIDs, hg, Res.bind_eq_ok]
      constructor
      · rintro ⟨k, hk, ks', hks, h⟩
        cases h
        exact List.Forall₂.cons ⟨p, hg, hk⟩ ((ih _).1 hks)
      · intro h
        cases h with
        | cons h1 h2 =>
          obtain ⟨p', hp', hk⟩ := h1
          rw [hg] at hp'
          cases hp'
          exact ⟨_, hk, _, (ih _).2 h2, rfl⟩

omit [DecidableEq K] [DecidableEq P] in
/-- naming members succeeds when all are in the committee and have a key -/
theorem names_exists (c : Codec K P) (m : Map Nat Party) (hn : Nameable c m) (ids : List Nat) (h : ∀ i ∈ ids, i ∈ Map.keys m) :
    ∃ ks, AccPubKeysFromPartyIDs c m ids = .ok ks ∧ Names c m ids ks := by
  have : ∃ ks, Names c m ids ks := by
    induction ids with
    | nil => exact ⟨[], List.Forall₂.nil⟩
    | cons i is ih =>
      obtain ⟨ks, hks⟩ := ih (fun j hj => h j (by simp [hj]))
      have hi := (Map.get_isSome_iff m i).2 (h i (by simp))
      obtain ⟨p, hp⟩ := Option.isSome_iff_exists.1 hi
      obtain ⟨k, hk⟩ := hn i p hp
      exact ⟨k :: ks, List.Forall₂.cons ⟨p, hp, hk⟩ hks⟩
  obtain ⟨ks, hks⟩ := this
  exact ⟨ks, (accPubKeys_ok_iff c m ids ks).2 hks, hks⟩

omit [DecidableEq K] [DecidableEq P] in
theorem names_mem {c : Codec K P} {m : Map Nat Party} {ids : List Nat} {ks : List K} (h : Names c m ids ks) :
    (∀ i ∈ ids, ∃ k ∈ ks, Named c m i k) ∧ (∀ k ∈ ks, ∃ i ∈ ids, Named c m i k) := by
  induction h with
  | nil => simp
  | cons h1 h2 ih =>
    constructor
    · intro i hi
      rcases List.mem_cons.1 hi with rfl | hi
      · exact ⟨_, by simp, h1⟩
      · obtain ⟨k, hk, hh⟩ := ih.1 i hi; exact ⟨k, by simp [hk], hh⟩
    · intro k hk
      rcases List.mem_cons.1 hk with rfl | hk
      · exact ⟨_, by simp, h1⟩
      · obtain ⟨i, hi, hh⟩ := ih.2 k hk; exact ⟨i, by simp [hi], hh⟩

end Verif.Blame
