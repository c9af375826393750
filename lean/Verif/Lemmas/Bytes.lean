import Verif.Model.Bytes
import Mathlib.Data.List.Induction
import Mathlib.Tactic.Ring
import Mathlib.Tactic.Positivity
import Mathlib.Tactic.Linarith

namespace Verif.Bytes

theorem toNat_nil : toNat [] = 0 := rfl

theorem toNat_append_one (b : Bytes) (x : UInt8) : toNat (b ++ [x]) = toNat b * 256 + x.toNat := by
  simp [toNat]

theorem toNat_lt (b : Bytes) : toNat b < 256 ^ b.length := by
  induction b using List.reverseRecOn with
  | nil => simp [toNat]
  | append_singleton b x ih =>
    rw [toNat_append_one, List.length_append, List.length_singleton, pow_succ]
    have := x.toNat_lt
    omega

theorem toNat_inj : ∀ {a b : Bytes}, a.length = b.length → toNat a = toNat b → a = b := by
  intro a
  induction a using List.reverseRecOn with
  | nil => intro b h _; simp at h; exact (List.length_eq_zero_iff.1 h.symm).symm
  | append_singleton a x ih =>
    intro b
    induction b using List.reverseRecOn with
    | nil => intro h; simp at h
    | append_singleton b y _ =>
      intro h h2
      rw [toNat_append_one, toNat_append_one] at h2
      have hx := x.toNat_lt
      have hy := y.toNat_lt
      have h3 : toNat a = toNat b := by omega
      have h4 : x.toNat = y.toNat := by omega
      have h5 : a = b := ih (by simpa using h) h3
      rw [h5, UInt8.toNat_inj.1 h4]

theorem toNat_append (a b : Bytes) : toNat (a ++ b) = toNat a * 256 ^ b.length + toNat b := by
  induction b using List.reverseRecOn with
  | nil => simp [toNat]
  | append_singleton b x ih =>
    rw [← List.append_assoc, toNat_append_one, ih, toNat_append_one, List.length_append,
      List.length_singleton, pow_succ]
    ring

theorem toNat_pos {b : Bytes} (h : ∃ x t, b = x :: t ∧ x ≠ 0) : 0 < toNat b := by
  obtain ⟨x, t, rfl, hx⟩ := h
  have : toNat (x :: t) = toNat [x] * 256 ^ t.length + toNat t := toNat_append [x] t
  have h2 : toNat [x] = x.toNat := by simp [toNat]
  have h3 : 0 < x.toNat := by
    rcases Nat.eq_zero_or_pos x.toNat with h | h
    · exact absurd (UInt8.toNat_inj.1 (by simpa using h)) hx
    · exact h
  rw [this, h2]
  positivity

theorem digitsAux_fuel : ∀ (f f' n : Nat), n ≤ f → n ≤ f' → digitsAux f n = digitsAux f' n := by
  intro f
  induction f with
  | zero =>
    intro f' n h _
    have : n = 0 := by omega
    subst this
    cases f' <;> simp [digitsAux]
  | succ f ih =>
    intro f' n h h'
    rcases Nat.eq_zero_or_pos n with h0 | h0
    · subst h0; cases f' <;> simp [digitsAux]
    · cases f' with
      | zero => omega
      | succ f' =>
        simp only [digitsAux]
        rw [ih f' (n / 256) (by omega) (by omega)]

theorem digitsLE_eq (n : Nat) :
    digitsLE n = if n = 0 then [] else UInt8.ofNat (n % 256) :: digitsLE (n / 256) := by
  unfold digitsLE
  cases n with
  | zero => rfl
  | succ n =>
    rw [digitsAux]
    simp only [Nat.add_eq_zero_iff, one_ne_zero, and_false, if_false]
    rw [digitsAux_fuel n ((n + 1) / 256) ((n + 1) / 256) (by omega) (le_refl _)]

theorem digitsLE_toNat (b : Bytes) (h : b = [] ∨ ∃ x t, b = x :: t ∧ x ≠ 0) :
    digitsLE (toNat b) = b.reverse := by
  induction b using List.reverseRecOn with
  | nil => simp [toNat, digitsLE, digitsAux]
  | append_singleton b x ih =>
    have hpos : 0 < toNat (b ++ [x]) := by
      rcases h with h | h
      · simp at h
      · exact toNat_pos h
    rw [digitsLE_eq, if_neg (by omega), toNat_append_one]
    have hx := x.toNat_lt
    have h1 : (toNat b * 256 + x.toNat) % 256 = x.toNat := by omega
    have h2 : (toNat b * 256 + x.toNat) / 256 = toNat b := by omega
    rw [h1, h2, ih]
    · simp
    · rcases h with h | ⟨y, t, hyt, hy⟩
      · simp at h
      · cases b with
        | nil => left; rfl
        | cons z b => right; simp at hyt; exact ⟨z, b, rfl, by rw [hyt.1]; exact hy⟩

/-- `SetBytes` then `Bytes` is the identity exactly on encodings without a leading zero. -/
theorem ofNat_toNat (b : Bytes) (h : ∃ x t, b = x :: t ∧ x ≠ 0) : ofNat (toNat b) = b := by
  unfold ofNat; rw [digitsLE_toNat b (Or.inr h), List.reverse_reverse]

theorem toNat_ofNat (n : Nat) : toNat (ofNat n) = n := by
  induction n using Nat.strong_induction_on with
  | _ n ih =>
    unfold ofNat
    rw [digitsLE_eq]
    split
    · next h => simp [toNat, h]
    · next h =>
      rw [List.reverse_cons, toNat_append_one]
      have := ih (n / 256) (by omega)
      unfold ofNat at this
      rw [this]
      have : (UInt8.ofNat (n % 256)).toNat = n % 256 := by
        simp
      rw [this]; omega

end Verif.Bytes
