import Verif.Model.TssCommon
import Mathlib.Data.List.Induction

/-! The frequency table and its maximum. -/
namespace Verif.TssCommon
open Verif.Go

theorem freqTable_append (l : List String) (x : String) :
    freqTable (l ++ [x]) = Map.set (freqTable l) x ((Map.get (freqTable l) x).getD 0 + 1) := by
  simp [freqTable]

theorem freqTable_WF (l : List String) : Map.WF (freqTable l) := by
  induction l using List.reverseRecOn with
  | nil => exact Map.WF_nil
  | append_singleton l x ih => rw [freqTable_append]; exact Map.WF_set ih _ _

theorem freqTable_get (l : List String) (d : String) :
    Map.get (freqTable l) d = if d ∈ l then some (l.count d) else none := by
  induction l using List.reverseRecOn with
  | nil => simp [freqTable]
  | append_singleton l x ih =>
    rw [freqTable_append, Map.get_set]
    by_cases h : d = x
    · subst h
      simp only [if_true, ih, List.mem_append, List.mem_singleton, or_true, List.count_append, List.count_singleton_self]
      by_cases hm : d ∈ l
      · simp [hm]
      · simp [hm, List.count_eq_zero_of_not_mem hm]
    · rw [if_neg h, ih]
      have : ([x] : List String).count d = 0 := by simp [Ne.symm h]
      simp [h, List.count_append, this]

theorem highest_spec (l : List (String × Nat)) (h : l ≠ []) :
    ∃ (d : String) (c : Nat), highest l = (d, (c : Int)) ∧ (d, c) ∈ l ∧ ∀ e ∈ l, e.2 ≤ c := by
  unfold highest
  induction l using List.reverseRecOn with
  | nil => exact absurd rfl h
  | append_singleton l x ih =>
    rw [List.foldl_append]
    simp only [List.foldl_cons, List.foldl_nil]
    by_cases hl : l = []
    · subst hl
      refine ⟨x.1, x.2, ?_, by simp, by simp⟩
      have h0 : ((x.2 : Int) > -1) := by omega
      show (if (x.2 : Int) > -1 then (x.1, (x.2 : Int)) else ("", -1)) = _
      rw [if_pos h0]
    · obtain ⟨d, c, h1, h2, h3⟩ := ih hl
      rw [h1]
      by_cases hx : c < x.2
      · refine ⟨x.1, x.2, ?_, by simp, ?_⟩
        · rw [if_pos (by simpa using hx)]
        · intro e he
          rcases List.mem_append.1 he with he | he
          · have := h3 e he; omega
          · simp at he; subst he; exact le_refl _
      · refine ⟨d, c, ?_, by simp [h2], ?_⟩
        · rw [if_neg (by simpa using hx)]
        · intro e he
          rcases List.mem_append.1 he with he | he
          · exact h3 e he
          · simp at he; subst he; omega

/-- the result of `getHighestFreq`: a most frequent value and its frequency, whatever the order -/
theorem getHighestFreq_spec {P : Type} (σ : Shuffle (String × Nat)) (m : Map P String) (h : m ≠ []) :
    ∃ d, getHighestFreq σ m = .ok (d, (((m.map Prod.snd).count d : Nat) : Int)) ∧ d ∈ m.map Prod.snd ∧
      ∀ d', (m.map Prod.snd).count d' ≤ (m.map Prod.snd).count d := by
  unfold getHighestFreq
  have h0 : m.length ≠ 0 := by simpa using h
  rw [if_neg h0]
  set l := m.map Prod.snd with hl
  have hne : l ≠ [] := by simpa [hl] using h
  obtain ⟨x, hx⟩ := List.exists_mem_of_ne_nil _ hne
  have hx' : Map.get (freqTable l) x = some (l.count x) := by rw [freqTable_get, if_pos hx]
  have hne' : σ.f (freqTable l) ≠ [] := by
    intro hh
    have := (σ.mem (l := freqTable l)).2 (Map.mem_of_get hx')
    rw [hh] at this
    cases this
  obtain ⟨d, c, h1, h2, h3⟩ := highest_spec _ hne'
  have h4 := Map.get_of_mem (freqTable_WF l) ((σ.mem).1 h2)
  rw [freqTable_get] at h4
  split at h4
  · rename_i hd
    cases h4
    refine ⟨d, by rw [h1], hd, ?_⟩
    intro d'
    by_cases hd' : d' ∈ l
    · have : (d', l.count d') ∈ freqTable l := Map.mem_of_get (by rw [freqTable_get, if_pos hd'])
      exact h3 _ ((σ.mem).2 this)
    · rw [List.count_eq_zero_of_not_mem hd']; exact Nat.zero_le _
  · cases h4

/-- `getMsgHash` succeeds with a most frequent hash that has `threshold - 1` votes -/
theorem getMsgHash_ok {P : Type} (σ : Shuffle (String × Nat)) (item : Item P) (t : Int) (d : String)
    (h : getMsgHash σ item t = .ok d) :
    t - 1 ≤ ((item.confirmed.map Prod.snd).count d : Nat) ∧ d ∈ item.confirmed.map Prod.snd ∧
      ∀ d', (item.confirmed.map Prod.snd).count d' ≤ (item.confirmed.map Prod.snd).count d := by
  unfold getMsgHash at h
  by_cases hne : item.confirmed = []
  · simp [hne, getHighestFreq] at h
  · obtain ⟨d0, h1, h2, h3⟩ := getHighestFreq_spec σ item.confirmed hne
    rw [h1] at h
    dsimp only at h
    split at h
    · cases h
    · rename_i hh
      cases h
      exact ⟨by omega, h2, h3⟩

theorem getMsgHash_inconsistency {P : Type} (σ : Shuffle (String × Nat)) (item : Item P) (t : Int)
    (h : getMsgHash σ item t = .error .inconsistency) :
    ∀ d', (((item.confirmed.map Prod.snd).count d' : Nat) : Int) < t - 1 := by
  unfold getMsgHash at h
  by_cases hne : item.confirmed = []
  · simp [hne, getHighestFreq] at h
  · obtain ⟨d0, h1, h2, h3⟩ := getHighestFreq_spec σ item.confirmed hne
    rw [h1] at h
    dsimp only at h
    split at h
    · rename_i hh
      intro d'
      have := h3 d'
      omega
    · cases h

theorem getMsgHash_hashCheck {P : Type} (σ : Shuffle (String × Nat)) (item : Item P) (t : Int)
    (h : getMsgHash σ item t = .error .hashCheck) : item.confirmed = [] := by
  by_contra hne
  unfold getMsgHash at h
  obtain ⟨d0, h1, h2, h3⟩ := getHighestFreq_spec σ item.confirmed hne
  rw [h1] at h
  dsimp only at h
  split at h <;> cases h

end Verif.TssCommon
