import Verif.Lemmas.Threshold
import Mathlib.Data.Finset.Card

/-! # C01 Threshold is ceil(2n/3)-1 -/
namespace Verif.Props.C01
open Verif.Go Verif.Threshold

/-- C01: for every party size the float computation yields exactly `⌈2n/3⌉ - 1`. -/
theorem threshold_exact (n : ℕ) (hn : n ≤ 3 * 2 ^ 51) :
    GetThreshold n = .ok (⌈(2 * (n : ℚ)) / 3⌉ - 1) := by
  unfold GetThreshold
  rw [if_neg (by omega), ceil_fl n hn]

/-- C01: the same with integers only: `t` is the unique integer with `3t < 2n ≤ 3(t+1)`. -/
theorem threshold_bounds (n : ℕ) (hn : n ≤ 3 * 2 ^ 51) :
    ∃ t : ℤ, GetThreshold n = .ok t ∧ 3 * t < 2 * n ∧ 2 * n ≤ 3 * (t + 1) := by
  refine ⟨_, threshold_exact n hn, ?_, ?_⟩
  · have := Int.ceil_lt_add_one ((2 * (n : ℚ)) / 3)
    have h2 : ((3 * (⌈(2 * (n : ℚ)) / 3⌉ - 1) : ℤ) : ℚ) < ((2 * n : ℤ) : ℚ) := by push_cast; linarith
    exact_mod_cast h2
  · have := Int.le_ceil ((2 * (n : ℚ)) / 3)
    have h2 : ((2 * n : ℤ) : ℚ) ≤ ((3 * (⌈(2 * (n : ℚ)) / 3⌉ - 1 + 1) : ℤ) : ℚ) := by push_cast; linarith
    exact_mod_cast h2

/-- C01: the bound cannot be raised: with two members more the double is rounded down to an integer and the threshold is too small by one. (No node can
have such a committee: its list of keys would need more than 10^17 bytes.) -/
theorem threshold_limit : GetThreshold (3 * 2 ^ 51 + 2 : ℕ) = .ok (⌈(2 * ((3 * 2 ^ 51 + 2 : ℕ) : ℚ)) / 3⌉ - 1 - 1) := by
  have h1 : fl (((3 * 2 ^ 51 + 2 : ℕ) : ℤ) : ℚ) = ((3 * 2 ^ 51 + 2 : ℕ) : ℚ) := by
    have := fl_nat (3 * 2 ^ 51 + 2) (by norm_num)
    rw [Int.cast_natCast]; exact this
  have h2 : fl (((3 * 2 ^ 51 + 2 : ℕ) : ℚ) * 2) = ((3 * 2 ^ 51 + 2 : ℕ) : ℚ) * 2 := by
    rw [fl_double _ (by positivity), fl_nat (3 * 2 ^ 51 + 2) (by norm_num)]
  have hq : (((3 * 2 ^ 51 + 2 : ℕ) : ℚ) * 2 / 3) = 2 ^ 52 + 4 / 3 := by norm_num
  have hlog : Int.log 2 (2 ^ 52 + 4 / 3 : ℚ) = 52 := by
    have a1 : Int.log 2 (2 ^ 52 + 4 / 3 : ℚ) < 53 := (Int.lt_zpow_iff_log_lt (by norm_num) (by norm_num)).1 (by norm_num)
    have a2 : (52 : ℤ) ≤ Int.log 2 (2 ^ 52 + 4 / 3 : ℚ) := (Int.zpow_le_iff_le_log (by norm_num) (by norm_num)).1 (by norm_num)
    omega
  have hu : ulp (2 ^ 52 + 4 / 3 : ℚ) = 1 := by unfold ulp; rw [hlog]; norm_num
  have hf : ⌊(2 ^ 52 + 4 / 3 : ℚ)⌋ = 2 ^ 52 + 1 := by rw [Int.floor_eq_iff]; norm_num
  have h3 : fl (2 ^ 52 + 4 / 3 : ℚ) = ((2 ^ 52 + 1 : ℤ) : ℚ) := by
    unfold fl
    rw [if_neg (by norm_num), hu, div_one, mul_one]
    unfold roundNE
    rw [hf, if_pos (by norm_num)]
  have h4 : ⌈(2 * ((3 * 2 ^ 51 + 2 : ℕ) : ℚ)) / 3⌉ = 2 ^ 52 + 2 := by rw [Int.ceil_eq_iff]; norm_num
  unfold GetThreshold
  rw [if_neg (by norm_num), h1, h2, hq, h3, Int.ceil_intCast, h4]
  norm_num

/-- C01: negative sizes are refused. -/
theorem threshold_negative (n : ℤ) (hn : n < 0) : GetThreshold n = .err "negative input" := by
  simp [GetThreshold, hn]

/-- C01: a signing party of `threshold+1` nodes fits in the committee (for a non-empty committee, and the threshold
is then not negative). -/
theorem signing_party_fits (n : ℕ) (h1 : 1 ≤ n) (hn : n ≤ 3 * 2 ^ 51) :
    ∃ t : ℕ, GetThreshold n = .ok (t : ℤ) ∧ t + 1 ≤ n := by
  obtain ⟨t, ht, h2, h3⟩ := threshold_bounds n hn
  have : 0 ≤ t := by omega
  obtain ⟨k, rfl⟩ := Int.eq_ofNat_of_zero_le this
  exact ⟨k, ht, by omega⟩

/-- C01: any two signing parties of one committee share at least a third of the committee. -/
theorem signing_parties_intersect {α : Type} [DecidableEq α] (committee A B : Finset α)
    (hn : committee.card ≤ 3 * 2 ^ 51) (hA : A ⊆ committee) (hB : B ⊆ committee) (t : ℤ)
    (ht : GetThreshold committee.card = .ok t) (hA' : t + 1 ≤ A.card) (hB' : t + 1 ≤ B.card) :
    committee.card ≤ 3 * (A ∩ B).card := by
  obtain ⟨t', ht', -, h3⟩ := threshold_bounds committee.card hn
  rw [ht] at ht'
  cases ht'
  have h4 : (A ∪ B).card ≤ committee.card := Finset.card_le_card (Finset.union_subset hA hB)
  have h5 := Finset.card_union_add_card_inter A B
  omega

/-- Witnesses: a committee of 4 has threshold 2 and one of 0 has threshold -1. -/
example : GetThreshold 4 = .ok 2 := by
  have := threshold_exact 4 (by norm_num)
  have h : ⌈(2 * ((4 : ℕ) : ℚ)) / 3⌉ = 3 := by rw [Int.ceil_eq_iff]; norm_num
  rw [h] at this; simpa using this
example : GetThreshold 0 = .ok (-1) := by
  have := threshold_exact 0 (by norm_num); simpa using this
example : ∃ A B : Finset ℕ, A ⊆ Finset.range 4 ∧ B ⊆ Finset.range 4 ∧ 3 ≤ A.card ∧ 3 ≤ B.card ∧ A ≠ B :=
  ⟨{0, 1, 2}, {1, 2, 3}, by decide, by decide, by decide, by decide, by decide⟩

end Verif.Props.C01
