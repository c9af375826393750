import Verif.Model.Base58
import Mathlib.Data.List.Induction

/-! # Facts about digits and base58 -/
set_option linter.unusedSectionVars false
namespace Verif.Base58
open Verif.Bech32 (Str)

/-! ## digits -/

theorem value_snoc (B : Nat) (ds : List Nat) (d : Nat) : value B (ds ++ [d]) = value B ds * B + d := by simp [value]

theorem value_nil (B : Nat) : value B [] = 0 := rfl

theorem value_zeros (B z : Nat) (ds : List Nat) : value B (List.replicate z 0 ++ ds) = value B ds := by
  induction z with
  | zero => simp
  | succ z ih => simpa [List.replicate_succ, value] using ih

theorem digitsAux_fuel {B : Nat} (hB : 2 ≤ B) : ∀ (f n : Nat), n ≤ f → ∀ g, n ≤ g → digitsAux B f n = digitsAux B g n := by
  intro f
  induction f with
  | zero =>
    intro n hn g hg
    obtain rfl : n = 0 := by omega
    cases g <;> simp [digitsAux]
  | succ f ih =>
    intro n hn g hg
    cases g with
    | zero =>
      obtain rfl : n = 0 := by omega
      simp [digitsAux]
    | succ g =>
      simp only [digitsAux]
      split
      · rfl
      · rename_i h0
        have : n / B < n := Nat.div_lt_self (by omega) (by omega)
        rw [ih (n / B) (by omega) g (by omega)]

theorem digits_zero (B : Nat) : digits B 0 = [] := rfl

theorem digits_step {B n : Nat} (hB : 2 ≤ B) (hn : n ≠ 0) : digits B n = digits B (n / B) ++ [n % B] := by
  obtain ⟨m, rfl⟩ := Nat.exists_eq_succ_of_ne_zero hn
  have : (m + 1) / B < m + 1 := Nat.div_lt_self (by omega) (by omega)
  unfold digits
  rw [show digitsAux B (m + 1) (m + 1) = (m + 1) % B :: digitsAux B m ((m + 1) / B) by simp [digitsAux],
    digitsAux_fuel hB m ((m + 1) / B) (by omega) ((m + 1) / B) (le_refl _)]
  simp

theorem value_digits {B : Nat} (hB : 2 ≤ B) (n : Nat) : value B (digits B n) = n := by
  induction n using Nat.strong_induction_on with
  | _ n ih =>
    by_cases h : n = 0
    · subst h; rfl
    · have : n / B < n := Nat.div_lt_self (by omega) (by omega)
      rw [digits_step hB h, value_snoc, ih _ this]
      rw [Nat.mul_comm]; exact Nat.div_add_mod n B

theorem digits_lt {B : Nat} (hB : 2 ≤ B) (n : Nat) : ∀ d ∈ digits B n, d < B := by
  induction n using Nat.strong_induction_on with
  | _ n ih =>
    by_cases h : n = 0
    · subst h; simp [digits_zero]
    · have : n / B < n := Nat.div_lt_self (by omega) (by omega)
      rw [digits_step hB h]
      intro d hd
      rcases List.mem_append.1 hd with hd | hd
      · exact ih _ this d hd
      · rw [List.mem_singleton.1 hd]; exact Nat.mod_lt _ (by omega)

theorem value_eq_zero {B : Nat} (hB : 2 ≤ B) (ds : List Nat) (h : value B ds = 0) : ds.dropWhile (· == 0) = [] := by
  induction ds using List.reverseRecOn with
  | nil => rfl
  | append_singleton ds d ih =>
    rw [value_snoc] at h
    have h1 : value B ds * B = 0 := by omega
    have h2 : d = 0 := by omega
    have h3 : value B ds = 0 := by
      rcases Nat.mul_eq_zero.1 h1 with h | h
      · exact h
      · omega
    rw [List.dropWhile_append, ih h3, h2]
    simp

theorem digits_value {B : Nat} (hB : 2 ≤ B) (ds : List Nat) (hd : ∀ d ∈ ds, d < B) : digits B (value B ds) = ds.dropWhile (· == 0) := by
  induction ds using List.reverseRecOn with
  | nil => rfl
  | append_singleton ds d ih =>
    have hlt : d < B := hd d (by simp)
    have ih := ih fun x hx => hd x (by simp [hx])
    by_cases h0 : value B (ds ++ [d]) = 0
    · rw [h0, digits_zero, value_eq_zero hB _ h0]
    · rw [digits_step hB h0, value_snoc]
      have e1 : (value B ds * B + d) / B = value B ds := by
        rw [Nat.mul_comm, Nat.mul_add_div (by omega), Nat.div_eq_of_lt hlt]; omega
      have e2 : (value B ds * B + d) % B = d := by
        rw [Nat.mul_comm, Nat.mul_add_mod, Nat.mod_eq_of_lt hlt]
      rw [e1, e2, ih, List.dropWhile_append]
      cases hw : ds.dropWhile (· == 0) with
      | nil =>
        rw [hw] at ih
        have hv : value B ds = 0 := by rw [← value_digits hB (value B ds), ih]; rfl
        rw [value_snoc, hv] at h0
        have : d ≠ 0 := by omega
        simp [this]
      | cons a l => simp

theorem takeWhile_digits {B : Nat} (hB : 2 ≤ B) (n : Nat) : (digits B n).takeWhile (· == 0) = [] := by
  have h := digits_value hB (digits B n) (digits_lt hB n)
  rw [value_digits hB] at h
  have h2 := List.takeWhile_append_dropWhile (p := (· == 0)) (l := digits B n)
  rw [← h] at h2
  have := congrArg List.length h2
  rw [List.length_append] at this
  exact List.length_eq_zero_iff.1 (by omega)

/-- digits, then their leading zeros again -/
theorem zeros_drop (ds : List Nat) : List.replicate (ds.takeWhile (· == 0)).length 0 ++ ds.dropWhile (· == 0) = ds := by
  conv_rhs => rw [← List.takeWhile_append_dropWhile (p := (· == 0)) (l := ds)]
  congr 1
  refine (List.eq_replicate_of_mem fun d hd => ?_).symm
  have := List.all_eq_true.1 (List.all_takeWhile (p := (· == 0)) (l := ds)) d hd
  simpa using this

theorem takeWhile_convert {A B : Nat} (hB : 2 ≤ B) (ds : List Nat) :
    (convert A B ds).takeWhile (· == 0) = List.replicate (ds.takeWhile (· == 0)).length 0 := by
  unfold convert
  rw [List.takeWhile_append_of_pos (by simp), takeWhile_digits hB, List.append_nil]

theorem convert_convert {A B : Nat} (hA : 2 ≤ A) (hB : 2 ≤ B) (ds : List Nat) (hd : ∀ d ∈ ds, d < A) : convert B A (convert A B ds) = ds := by
  rw [convert, takeWhile_convert hB, List.length_replicate]
  rw [show value B (convert A B ds) = value A ds by rw [convert, value_zeros, value_digits hB], digits_value hA ds hd, zeros_drop]

theorem convert_lt {A B : Nat} (hB : 2 ≤ B) (ds : List Nat) : ∀ d ∈ convert A B ds, d < B := by
  intro d hd
  rcases List.mem_append.1 hd with h | h
  · rw [List.eq_of_mem_replicate h]; omega
  · exact digits_lt hB _ d h

theorem convert_ne {A B : Nat} (hA : 2 ≤ A) (hB : 2 ≤ B) {ds : List Nat} (hd : ∀ d ∈ ds, d < A) (h : ds ≠ []) : convert A B ds ≠ [] := by
  intro h0
  apply h
  rw [← convert_convert hA hB ds hd, h0]
  rfl

/-! ## letters -/

theorem alphabet_length : alphabet.length = 58 := by decide +kernel

theorem alphabet_nodup : alphabet.Nodup := by decide +kernel

theorem idxOf_letter : ∀ d < 58, alphabet.idxOf? (alphabet.getD d '1') = some d := by decide +kernel

theorem values_letters (ds : List Nat) (h : ∀ d ∈ ds, d < 58) : values (ds.map fun d => alphabet.getD d '1') = some ds := by
  induction ds with
  | nil => rfl
  | cons d ds ih =>
    rw [List.map_cons, values, idxOf_letter d (h d (by simp)), ih fun x hx => h x (by simp [hx])]

theorem letter_idxOf {c : Char} {d : Nat} (h : alphabet.idxOf? c = some d) : d < 58 ∧ alphabet.getD d '1' = c := by
  unfold List.idxOf? at h
  rw [List.findIdx?_eq_some_iff_getElem] at h
  obtain ⟨h1, h2, -⟩ := h
  rw [alphabet_length] at h1
  refine ⟨h1, ?_⟩
  have : alphabet[d]'(by rw [alphabet_length]; exact h1) = c := by simpa using h2
  rw [List.getD_eq_getElem?_getD, List.getElem?_eq_getElem (by rw [alphabet_length]; exact h1)]
  exact this

theorem letters_values {s : Str} {ds : List Nat} (h : values s = some ds) :
    (∀ d ∈ ds, d < 58) ∧ (ds.map fun d => alphabet.getD d '1') = s := by
  induction s generalizing ds with
  | nil => cases h; simp
  | cons c s ih =>
    rw [values] at h
    split at h
    · rename_i d ds' h1 h2
      cases h
      obtain ⟨g1, g2⟩ := letter_idxOf h1
      obtain ⟨g3, g4⟩ := ih h2
      refine ⟨fun x hx => ?_, by rw [List.map_cons, g2, g4]⟩
      rcases List.mem_cons.1 hx with rfl | hx
      · exact g1
      · exact g3 x hx
    · cases h

/-! ## base58 -/

theorem bytes_lt (b : Bytes) : ∀ d ∈ b.map UInt8.toNat, d < 256 := by
  intro d hd
  obtain ⟨x, -, rfl⟩ := List.mem_map.1 hd
  exact x.toNat_lt

theorem bytes_bytes (b : Bytes) : (b.map UInt8.toNat).map UInt8.ofNat = b := by
  rw [List.map_map]
  conv_rhs => rw [← List.map_id b]
  exact List.map_congr_left fun x _ => by simp

theorem bytes_nats {ds : List Nat} (h : ∀ d ∈ ds, d < 256) : (ds.map UInt8.ofNat).map UInt8.toNat = ds := by
  rw [List.map_map]
  conv_rhs => rw [← List.map_id ds]
  exact List.map_congr_left fun x hx => by simp [Nat.mod_eq_of_lt (h x hx)]

theorem decode_encode {b : Bytes} (h : b ≠ []) : decode (encode b) = some b := by
  have hne : encode b ≠ [] := by
    intro h0
    unfold encode at h0
    rw [List.map_eq_nil_iff] at h0
    exact convert_ne (by omega) (by omega) (bytes_lt b) (by simpa using h) h0
  rw [decode, if_neg hne, encode, values_letters _ (convert_lt (by omega) _), Option.map_some,
    convert_convert (by omega) (by omega) _ (bytes_lt b), bytes_bytes]

theorem encode_decode {s : Str} {b : Bytes} (h : decode s = some b) : b ≠ [] ∧ encode b = s := by
  unfold decode at h
  split at h
  · cases h
  · rename_i hs
    cases hv : values s with
    | none => rw [hv] at h; cases h
    | some ds =>
      rw [hv, Option.map_some] at h
      injection h with h
      obtain ⟨h1, h2⟩ := letters_values hv
      have h3 : ds ≠ [] := by rintro rfl; exact hs (by rw [← h2]; rfl)
      refine ⟨?_, ?_⟩
      · rw [← h]
        simpa using convert_ne (by omega) (by omega) h1 h3
      · rw [encode, ← h, bytes_nats (convert_lt (by omega) _), convert_convert (by omega) (by omega) _ h1, h2]

/-! ## first letters -/

/-- a number between `a * B ^ k` and `(a + 1) * B ^ k` has the digits of `a` and `k` more -/
theorem digits_top {B : Nat} (hB : 2 ≤ B) {a : Nat} (ha : a ≠ 0) : ∀ (k n : Nat), a * B ^ k ≤ n → n < (a + 1) * B ^ k →
    ∃ ds, digits B n = digits B a ++ ds ∧ ds.length = k := by
  intro k
  induction k with
  | zero =>
    intro n h1 h2
    obtain rfl : n = a := by simp at h1 h2; omega
    exact ⟨[], by simp, rfl⟩
  | succ k ih =>
    intro n h1 h2
    have hpos : 0 < B ^ k := Nat.pow_pos (by omega)
    have hn : n ≠ 0 := by
      have : 0 < a * B ^ (k + 1) := Nat.mul_pos (by omega) (Nat.pow_pos (by omega))
      omega
    have e : ∀ x, x * B ^ (k + 1) = x * B ^ k * B := fun x => by rw [Nat.pow_succ, Nat.mul_assoc]
    obtain ⟨ds, g1, g2⟩ := ih (n / B) ((Nat.le_div_iff_mul_le (by omega)).2 (by rw [← e]; exact h1))
      ((Nat.div_lt_iff_lt_mul (by omega)).2 (by rw [← e]; exact h2))
    exact ⟨ds ++ [n % B], by rw [digits_step hB hn, g1, List.append_assoc], by simp [g2]⟩

theorem value_append (B : Nat) (a b : List Nat) : value B (a ++ b) = value B a * B ^ b.length + value B b := by
  induction b using List.reverseRecOn with
  | nil => simp [value]
  | append_singleton b d ih =>
    rw [← List.append_assoc, value_snoc, ih, value_snoc, List.length_append, List.length_singleton, Nat.pow_succ]
    rw [Nat.add_mul, Nat.mul_assoc, Nat.add_assoc]

theorem value_lt {B : Nat} (hB : 2 ≤ B) (ds : List Nat) (h : ∀ d ∈ ds, d < B) : value B ds < B ^ ds.length := by
  induction ds using List.reverseRecOn with
  | nil => simp [value]
  | append_singleton ds d ih =>
    have ih := ih fun x hx => h x (by simp [hx])
    have hd := h d (by simp)
    rw [value_snoc, List.length_append, List.length_singleton, Nat.pow_succ]
    calc value B ds * B + d < value B ds * B + B := by omega
      _ = (value B ds + 1) * B := by rw [Nat.add_mul, Nat.one_mul]
      _ ≤ B ^ ds.length * B := Nat.mul_le_mul_right _ ih

end Verif.Base58
