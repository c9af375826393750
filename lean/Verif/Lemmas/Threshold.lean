import Verif.Model.Threshold
import Mathlib.Tactic.Linarith
import Mathlib.Tactic.FieldSimp
import Mathlib.Tactic.Ring
import Mathlib.Tactic.NormNum
import Mathlib.Tactic.Positivity
import Mathlib.Tactic.Push

namespace Verif.Threshold
open Verif.Go

theorem roundNE_int (z : ℤ) : roundNE (z : ℚ) = z := by
  unfold roundNE; simp

theorem roundNE_err (x : ℚ) : |(roundNE x : ℚ) - x| ≤ 1 / 2 := by
  have h1 : (⌊x⌋ : ℚ) ≤ x := Int.floor_le x
  have h2 : x < ⌊x⌋ + 1 := Int.lt_floor_add_one x
  unfold roundNE
  simp only
  split
  · rw [abs_le]; constructor <;> linarith
  · split
    · push_cast; rw [abs_le]; constructor <;> linarith
    · split <;> (push_cast; rw [abs_le]; constructor <;> linarith)

theorem ulp_pos (q : ℚ) : 0 < ulp q := by unfold ulp; exact zpow_pos (by norm_num) _

theorem fl_err {q : ℚ} (hq : 0 ≤ q) : |fl q - q| ≤ ulp q / 2 := by
  unfold fl
  split
  · next h => subst h; have := ulp_pos 0; simp; linarith
  · have hu := ulp_pos q
    have h := roundNE_err (q / ulp q)
    have : (roundNE (q / ulp q) : ℚ) * ulp q - q = ((roundNE (q / ulp q) : ℚ) - q / ulp q) * ulp q := by
      field_simp
    rw [this, abs_mul, abs_of_pos hu]
    calc _ ≤ 1 / 2 * ulp q := by gcongr
      _ = ulp q / 2 := by ring

theorem ulp_le_of_lt {q : ℚ} (hq : 0 < q) {k : ℤ} (h : q < (2 : ℚ) ^ k) : ulp q ≤ (2 : ℚ) ^ (k - 53) := by
  unfold ulp
  apply zpow_le_zpow_right₀ (by norm_num)
  have : Int.log 2 q < k := by
    have h2 : q < ((2 : ℕ) : ℚ) ^ k := by simpa using h
    exact (Int.lt_zpow_iff_log_lt (by norm_num) hq).1 h2
  linarith

/-- integers below 2^53 are representable -/
theorem fl_nat (n : ℕ) (hn : n < 2 ^ 53) : fl (n : ℚ) = n := by
  unfold fl
  split
  · next h => exact h.symm
  · next h =>
    have hpos : (0 : ℚ) < n := lt_of_le_of_ne (by positivity) (Ne.symm h)
    have hlog : Int.log 2 (n : ℚ) ≤ 52 := by
      have : Int.log 2 (n : ℚ) < 53 := by
        have h2 : (n : ℚ) < ((2 : ℕ) : ℚ) ^ (53 : ℤ) := by
          have : (n : ℚ) < ((2 ^ 53 : ℕ) : ℚ) := by exact_mod_cast hn
          push_cast at this
          exact_mod_cast this
        exact (Int.lt_zpow_iff_log_lt (by norm_num) hpos).1 h2
      linarith
    obtain ⟨e, he⟩ : ∃ e : ℕ, Int.log 2 (n : ℚ) - 52 = -(e : ℤ) := by
      refine ⟨(52 - Int.log 2 (n : ℚ)).toNat, ?_⟩
      omega
    have hu : ulp (n : ℚ) = ((2 : ℚ) ^ e)⁻¹ := by
      unfold ulp; rw [he, zpow_neg, zpow_natCast]
    have hdiv : (n : ℚ) / ulp n = ((n * 2 ^ e : ℤ) : ℚ) := by
      rw [hu]; push_cast; field_simp
    rw [hdiv, roundNE_int, hu]; push_cast; field_simp

/-- doubling is exact -/
theorem fl_double (q : ℚ) (hq : 0 ≤ q) : fl (q * 2) = fl q * 2 := by
  unfold fl
  rcases hq.eq_or_lt with h | h
  · subst h; simp
  · rw [if_neg (by positivity), if_neg h.ne']
    have hlog : Int.log 2 (q * 2) = Int.log 2 q + 1 := by
      have h1 : ((2 : ℕ) : ℚ) ^ Int.log 2 q ≤ q := Int.zpow_log_le_self (by norm_num) h
      have h2 : q < ((2 : ℕ) : ℚ) ^ (Int.log 2 q + 1) := Int.lt_zpow_succ_log_self (by norm_num) q
      have e : ((2 : ℕ) : ℚ) ^ (Int.log 2 q + 1 + 1) = ((2 : ℕ) : ℚ) ^ (Int.log 2 q + 1) * 2 := by
        rw [zpow_add_one₀ (by norm_num)]; norm_num
      have e' : ((2 : ℕ) : ℚ) ^ (Int.log 2 q + 1) = ((2 : ℕ) : ℚ) ^ (Int.log 2 q) * 2 := by
        rw [zpow_add_one₀ (by norm_num)]; norm_num
      have a1 : Int.log 2 (q * 2) < Int.log 2 q + 1 + 1 :=
        (Int.lt_zpow_iff_log_lt (by norm_num) (by positivity)).1 (by rw [e]; linarith)
      have a2 : Int.log 2 q + 1 ≤ Int.log 2 (q * 2) :=
        (Int.zpow_le_iff_le_log (by norm_num) (by positivity)).1 (by rw [e']; linarith)
      omega
    have hu : ulp (q * 2) = ulp q * 2 := by
      unfold ulp
      rw [hlog, show Int.log 2 q + 1 - 52 = (Int.log 2 q - 52) + 1 by ring, zpow_add_one₀ (by norm_num)]
    have hp := ulp_pos q
    rw [hu, mul_div_mul_right _ _ (by norm_num), mul_assoc]

/-- the value computed by the float expression -/
theorem ceil_fl (n : ℕ) (hn : n ≤ 3 * 2 ^ 51) :
    ⌈fl (fl (fl ((n : ℤ) : ℚ) * 2) / 3)⌉ = ⌈(2 * (n : ℚ)) / 3⌉ := by
  have h1 : fl ((n : ℤ) : ℚ) = n := by
    have := fl_nat n (lt_of_le_of_lt hn (by norm_num)); simpa using this
  have h2 : fl ((n : ℚ) * 2) = n * 2 := by
    have h1' : fl (n : ℚ) = n := by simpa using h1
    rw [fl_double _ (by positivity), h1']
  rw [h1, h2]
  set q : ℚ := (n : ℚ) * 2 / 3 with hq
  have hq2 : 2 * (n : ℚ) / 3 = q := by rw [hq]; ring
  rw [hq2]
  rcases Nat.eq_zero_or_pos n with h0 | h0
  · subst h0; have : q = 0 := by rw [hq]; simp
    rw [this]; simp [fl]
  have hpos : 0 < q := by rw [hq]; positivity
  -- write 2n = 3 j - r with r in {0,1,2}
  set j : ℤ := ⌈q⌉ with hj
  have hj1 : q ≤ j := Int.le_ceil q
  have hj2 : (j : ℚ) - 1 < q := by have := Int.ceil_lt_add_one q; linarith
  have e1 : (2 * n : ℤ) ≤ 3 * j := by
    have : ((2 * n : ℤ) : ℚ) ≤ ((3 * j : ℤ) : ℚ) := by push_cast; rw [hq] at hj1; linarith
    exact_mod_cast this
  have e2 : 3 * j < (2 * n : ℤ) + 3 := by
    have : ((3 * j : ℤ) : ℚ) < ((2 * n + 3 : ℤ) : ℚ) := by push_cast; rw [hq] at hj2; linarith
    exact_mod_cast this
  rcases Int.lt_or_le (2 * (n : ℤ)) (3 * j) with h | h
  · -- not an integer: one third away on both sides
    have hn' : n < 3 * 2 ^ 51 := by omega
    have hlt : q < (2 : ℚ) ^ (52 : ℤ) := by
      have h4 : (n : ℚ) < 3 * 2 ^ 51 := by exact_mod_cast hn'
      have h3 : q < 2 ^ 52 := by rw [hq]; linarith
      exact lt_of_lt_of_le h3 (by norm_num)
    have hu := ulp_le_of_lt hpos hlt
    have hu' : ulp q ≤ 1 / 2 := by refine le_trans hu ?_; norm_num
    have he := fl_err hpos.le
    have hsmall : |fl q - q| ≤ 1 / 4 := le_trans he (by linarith)
    rw [abs_le] at hsmall
    have a1 : ((2 * n : ℤ) : ℚ) + 1 ≤ ((3 * j : ℤ) : ℚ) := by exact_mod_cast h
    have a2 : ((3 * j : ℤ) : ℚ) ≤ ((2 * n : ℤ) : ℚ) + 2 := by
      have : 3 * j ≤ (2 * n : ℤ) + 2 := by omega
      exact_mod_cast this
    push_cast at a1 a2
    rw [Int.ceil_eq_iff]
    constructor
    · have : (j : ℚ) - 1 + 1 / 3 ≤ q := by rw [hq]; linarith
      linarith
    · have : q + 1 / 3 ≤ j := by rw [hq]; linarith
      linarith
  · have h' : (2 * n : ℤ) = 3 * j := by omega
    have hqj : q = j := by
      have : ((2 * n : ℤ) : ℚ) = ((3 * j : ℤ) : ℚ) := by exact_mod_cast h'
      push_cast at this; rw [hq]; linarith
    have hjn : 0 ≤ j := by omega
    obtain ⟨m, hm⟩ := Int.eq_ofNat_of_zero_le hjn
    have hmlt : m < 2 ^ 53 := by omega
    have : fl q = j := by rw [hqj, hm]; simpa using fl_nat m hmlt
    rw [this]; simp

end Verif.Threshold
