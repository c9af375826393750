import Verif.Model.Leader
import Mathlib.Tactic.Push

/-! # C08 All nodes elect the same leader -/
namespace Verif.Props.C08
open Verif.Go Verif.Leader

variable {H : Type} [LinearOrder H]

/-- the store maps every hash that occurs to some peer with that hash -/
theorem keyStore_get (sha : String → H) (m : String) (b : Int) (l : List String) (acc : Map H String)
    (hacc : ∀ h p, Map.get acc h = some p → sha (hashInput m b p) = h) :
    let r := l.foldl (fun m' el => Map.set m' (sha (hashInput m b el)) el) acc
    (∀ h p, Map.get r h = some p → sha (hashInput m b p) = h) ∧
    (∀ h p, Map.get r h = some p → p ∈ l ∨ Map.get acc h = some p) ∧
    (∀ p ∈ l, ∃ q, Map.get r (sha (hashInput m b p)) = some q) ∧
    (∀ h p, Map.get acc h = some p → ∃ q, Map.get r h = some q) := by
  induction l generalizing acc with
  | nil =>
    simp only [List.foldl_nil]
    exact ⟨hacc, fun h p hp => Or.inr hp, by simp, fun h p hp => ⟨p, hp⟩⟩
  | cons x xs ih =>
    simp only [List.foldl_cons]
    have hacc' : ∀ h p, Map.get (Map.set acc (sha (hashInput m b x)) x) h = some p → sha (hashInput m b p) = h := by
      intro h p hp
      rw [Map.get_set] at hp
      by_cases he : h = sha (hashInput m b x)
      · rw [if_pos he] at hp; cases hp; exact he.symm
      · rw [if_neg he] at hp; exact hacc h p hp
    obtain ⟨h1, h2, h3, h4⟩ := ih _ hacc'
    refine ⟨h1, ?_, ?_, ?_⟩
    · intro h p hp
      rcases h2 h p hp with h' | h'
      · left; simp [h']
      · rw [Map.get_set] at h'
        by_cases he : h = sha (hashInput m b x)
        · rw [if_pos he] at h'; cases h'; left; simp
        · rw [if_neg he] at h'; right; exact h'
    · intro p hp
      rcases List.mem_cons.1 hp with rfl | hp
      · exact h4 _ p (Map.get_set_self _ _ _)
      · exact h3 p hp
    · intro h p hp
      by_cases he : h = sha (hashInput m b x)
      · exact h4 h x (by rw [he]; exact Map.get_set_self _ _ _)
      · exact h4 h p (by rw [Map.get_set_ne _ _ he]; exact hp)

/-- C08: the leader is one of the peers, and its hash of (message id, block height, peer) is the smallest. -/
theorem c08_leader_is_min (sha : String → H) (m : String) (b : Int) (pIDs : List String) (leader : String)
    (h : LeaderNode sha m b pIDs = .ok leader) :
    leader ∈ pIDs ∧
    ∀ q ∈ pIDs, sha (m ++ toString b ++ leader) ≤ sha (m ++ toString b ++ q) := by
  unfold LeaderNode at h
  split at h
  · cases h
  · simp only at h
    rcases hs : (pIDs.map (fun el => sha (hashInput m b el))).insertionSort (· ≤ ·) with _ | ⟨x, xs⟩
    · rw [hs] at h; cases h
    · rw [hs] at h
      simp only at h
      injection h with h
      have hp := List.perm_insertionSort (· ≤ ·) (pIDs.map (fun el => sha (hashInput m b el)))
      have hpw := List.pairwise_insertionSort (· ≤ ·) (pIDs.map (fun el => sha (hashInput m b el)))
      rw [hs] at hp hpw
      have hx : x ∈ pIDs.map (fun el => sha (hashInput m b el)) := hp.mem_iff.1 (by simp)
      obtain ⟨p, hpm, hpx⟩ := List.mem_map.1 hx
      obtain ⟨h1, h2, h3, _⟩ := keyStore_get sha m b pIDs [] (by simp)
      obtain ⟨q, hq⟩ := h3 p hpm
      have hq' : Map.get (keyStore sha m b pIDs) x = some q := by rw [← hpx]; exact hq
      rw [hq', Option.getD_some] at h
      subst h
      rw [← hpx] at hq'
      have hqm : q ∈ pIDs := by
        rcases h2 _ _ hq' with h | h
        · exact h
        · simp at h
      have hqx : sha (hashInput m b q) = x := by rw [← hpx]; exact h1 _ _ hq'
      refine ⟨hqm, fun r hr => ?_⟩
      change sha (hashInput m b q) ≤ sha (hashInput m b r)
      rw [hqx]
      have hrm : sha (hashInput m b r) ∈ x :: xs := hp.mem_iff.2 (List.mem_map.2 ⟨r, hr, rfl⟩)
      rcases List.mem_cons.1 hrm with e | e
      · rw [e]
      · exact (List.pairwise_cons.1 hpw).1 _ e

/-- C08: it fails exactly on an empty list, an empty message id or block height zero, and never panics. -/
theorem c08_leader_fails_iff (sha : String → H) (m : String) (b : Int) (pIDs : List String) :
    ((∃ leader, LeaderNode sha m b pIDs = .ok leader) ↔ pIDs ≠ [] ∧ m ≠ "" ∧ b ≠ 0) ∧
    LeaderNode sha m b pIDs ≠ .panic := by
  unfold LeaderNode
  by_cases hc : pIDs.length = 0 ∨ m.length = 0 ∨ b = 0
  · rw [if_pos hc]
    refine ⟨⟨fun ⟨_, h⟩ => (by cases h), ?_⟩, by simp⟩
    rintro ⟨h1, h2, h3⟩
    rcases hc with hc | hc | hc
    · exact absurd (List.length_eq_zero_iff.1 hc) h1
    · exact absurd (by simpa using hc) h2
    · exact absurd hc h3
  · rw [if_neg hc]
    simp only
    push Not at hc
    rcases hs : (pIDs.map (fun el => sha (hashInput m b el))).insertionSort (· ≤ ·) with _ | ⟨x, xs⟩
    · have := List.length_insertionSort (· ≤ ·) (pIDs.map (fun el => sha (hashInput m b el)))
      rw [hs] at this; simp at this; exact absurd this.symm (by simpa using hc.1)
    · refine ⟨⟨fun _ => ⟨fun h => hc.1 (by simp [h]), fun h => hc.2.1 (by simp [h]), hc.2.2⟩, fun _ => ⟨_, rfl⟩⟩, by simp⟩

/-- C08: the same leader for every order of the list, if the peers' hashes differ. -/
theorem c08_leader_order_independent (sha : String → H) (m : String) (b : Int) (l l' : List String)
    (hp : l.Perm l')
    (hinj : ∀ p ∈ l, ∀ q ∈ l, sha (m ++ toString b ++ p) = sha (m ++ toString b ++ q) → p = q) :
    LeaderNode sha m b l = LeaderNode sha m b l' := by
  by_cases hc : l ≠ [] ∧ m ≠ "" ∧ b ≠ 0
  · obtain ⟨x, hx⟩ := (c08_leader_fails_iff sha m b l).1.2 hc
    have hc' : l' ≠ [] ∧ m ≠ "" ∧ b ≠ 0 := ⟨fun h => hc.1 (by rw [h] at hp; exact hp.eq_nil), hc.2⟩
    obtain ⟨y, hy⟩ := (c08_leader_fails_iff sha m b l').1.2 hc'
    obtain ⟨hx1, hx2⟩ := c08_leader_is_min sha m b l x hx
    obtain ⟨hy1, hy2⟩ := c08_leader_is_min sha m b l' y hy
    have hyl := hp.mem_iff.2 hy1
    have : x = y := hinj x hx1 y hyl (le_antisymm (hx2 y hyl) (hy2 x (hp.mem_iff.1 hx1)))
    rw [hx, hy, this]
  · have hc' : ¬ (l' ≠ [] ∧ m ≠ "" ∧ b ≠ 0) := by
      rintro ⟨h1, h2⟩
      exact hc ⟨fun h => h1 (by rw [h] at hp; exact hp.symm.eq_nil), h2⟩
    have e1 : l.length = 0 ∨ m.length = 0 ∨ b = 0 := by
      by_contra hh; push Not at hh
      exact hc ⟨fun h => hh.1 (by simp [h]), fun h => hh.2.1 (by simp [h]), hh.2.2⟩
    have e2 : l'.length = 0 ∨ m.length = 0 ∨ b = 0 := by
      by_contra hh; push Not at hh
      exact hc' ⟨fun h => hh.1 (by simp [h]), fun h => hh.2.1 (by simp [h]), hh.2.2⟩
    unfold LeaderNode
    rw [if_pos e1, if_pos e2]

omit [LinearOrder H] in
/-- C08: the hypothesis of the previous theorem holds for every peer list when the hash is injective. -/
theorem c08_injective_hash_suffices (sha : String → H) (hs : Function.Injective sha) (m : String) (b : Int) (p q : String)
    (h : sha (m ++ toString b ++ p) = sha (m ++ toString b ++ q)) : p = q := by
  have := hs h
  simpa using this

/-- C08 does depend on it: with colliding hashes two orders of one list elect different leaders. -/
theorem c08_collision_breaks_agreement :
    ∃ (sha : String → Nat) (l l' : List String), l.Perm l' ∧ LeaderNode sha "m" 1 l ≠ LeaderNode sha "m" 1 l' :=
  ⟨fun _ => 0, ["a", "b"], ["b", "a"], List.Perm.swap _ _ _, by decide⟩

/-- Witness: three peers, the hash being the text length. -/
example : LeaderNode (fun s => s.length) "id" 7 ["abc", "d", "ef"] = .ok "d" := by decide

end Verif.Props.C08
