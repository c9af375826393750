import Verif.Spec.Bech32
import Verif.Lemmas.Bech32

set_option linter.unusedSectionVars false

/-! # The model of bech32 writes the texts of BIP-173 -/
namespace Verif.Bech32
open Verif.Spec.Bech32 (Poly IsText remainder)

/-- a polynomial as one number, as btcutil has it -/
def pack (p : Poly) : Nat := ((((p.x5 * 32 + p.x4) * 32 + p.x3) * 32 + p.x2) * 32 + p.x1) * 32 + p.x0

/-- the coefficients are elements of the field -/
def Small (p : Poly) : Prop := p.x5 < 32 ∧ p.x4 < 32 ∧ p.x3 < 32 ∧ p.x2 < 32 ∧ p.x1 < 32 ∧ p.x0 < 32

theorem mul_add_xor {a a' b b' : Nat} (h : b < 32) (h' : b' < 32) : (a * 32 + b) ^^^ (a' * 32 + b') = (a ^^^ a') * 32 + (b ^^^ b') := by
  rw [← mul_xor h, ← mul_xor h', ← mul_xor (Nat.xor_lt_two_pow (n := 5) h h')]
  have : (a ^^^ a') * 32 = a * 32 ^^^ a' * 32 := by
    have := Nat.shiftLeft_xor_distrib (a := a) (b := a') (i := 5)
    rwa [Nat.shiftLeft_eq, Nat.shiftLeft_eq, Nat.shiftLeft_eq] at this
  rw [this]
  ac_rfl

theorem select_pack : ∀ c < 32, select c = pack ⟨Spec.Bech32.mul c 29, Spec.Bech32.mul c 22, Spec.Bech32.mul c 20, Spec.Bech32.mul c 21, Spec.Bech32.mul c 29,
    Spec.Bech32.mul c 18⟩ := by decide +kernel

theorem mul_lt : ∀ c < 32, Spec.Bech32.mul c 29 < 32 ∧ Spec.Bech32.mul c 22 < 32 ∧ Spec.Bech32.mul c 20 < 32 ∧ Spec.Bech32.mul c 21 < 32 ∧
    Spec.Bech32.mul c 18 < 32 := by decide +kernel

theorem next_small {p : Poly} (hp : Small p) {v : Nat} (hv : v < 32) : Small (Spec.Bech32.next p v) := by
  obtain ⟨h5, h4, h3, h2, h1, h0⟩ := hp
  obtain ⟨m1, m2, m3, m4, m5⟩ := mul_lt p.x5 h5
  exact ⟨Nat.xor_lt_two_pow (n := 5) h4 m1, Nat.xor_lt_two_pow (n := 5) h3 m2, Nat.xor_lt_two_pow (n := 5) h2 m3, Nat.xor_lt_two_pow (n := 5) h1 m4,
    Nat.xor_lt_two_pow (n := 5) h0 m1, Nat.xor_lt_two_pow (n := 5) hv m5⟩

theorem pack_next {p : Poly} (hp : Small p) {v : Nat} (hv : v < 32) : polyStep (pack p) v = pack (Spec.Bech32.next p v) := by
  obtain ⟨h5, h4, h3, h2, h1, h0⟩ := hp
  obtain ⟨m1, m2, m3, m4, m5⟩ := mul_lt p.x5 h5
  have hhi : pack p >>> 25 = p.x5 := by
    rw [Nat.shiftRight_eq_div_pow]
    unfold pack
    omega
  have hlo : (pack p &&& 0x1ffffff) <<< 5 = (((((p.x4 * 32 + p.x3) * 32 + p.x2) * 32 + p.x1) * 32 + p.x0)) * 32 := by
    rw [show (0x1ffffff : Nat) = 2 ^ 25 - 1 from rfl, Nat.and_two_pow_sub_one_eq_mod, Nat.shiftLeft_eq]
    unfold pack
    omega
  unfold polyStep
  rw [hhi, hlo, mul_xor hv, select_pack _ h5]
  unfold pack Spec.Bech32.next
  dsimp only
  rw [mul_add_xor hv m5, mul_add_xor h0 m1, mul_add_xor h1 m4, mul_add_xor h2 m3, mul_add_xor h3 m2]

theorem pack_inj {p q : Poly} (hp : Small p) (hq : Small q) (h : pack p = pack q) : p = q := by
  obtain ⟨h5, h4, h3, h2, h1, h0⟩ := hp
  obtain ⟨g5, g4, g3, g2, g1, g0⟩ := hq
  cases p; cases q
  unfold pack at h
  simp only at *
  simp only [Poly.mk.injEq]
  refine ⟨?_, ?_, ?_, ?_, ?_, ?_⟩ <;> omega

theorem fold_pack : ∀ (vs : List Nat), (∀ v ∈ vs, v < 32) → ∀ p, Small p →
    vs.foldl polyStep (pack p) = pack (vs.foldl Spec.Bech32.next p) ∧ Small (vs.foldl Spec.Bech32.next p)
  | [], _, p, hp => ⟨rfl, hp⟩
  | v :: vs, hv, p, hp => by
    rw [List.foldl_cons, List.foldl_cons, pack_next hp (hv v (by simp))]
    exact fold_pack vs (fun v' h' => hv v' (List.mem_cons_of_mem _ h')) _ (next_small hp (hv v (by simp)))

theorem one_small : Small Spec.Bech32.one := by unfold Small; decide

theorem polymod_one {vs : List Nat} (hv : ∀ v ∈ vs, v < 32) : polymod vs = 1 ↔ remainder vs = Spec.Bech32.one := by
  obtain ⟨h1, h2⟩ := fold_pack vs hv Spec.Bech32.one one_small
  have h3 : pack Spec.Bech32.one = 1 := rfl
  rw [h3] at h1
  unfold polymod remainder
  rw [h1]
  exact ⟨fun h => pack_inj h2 one_small (h.trans h3.symm), fun h => by rw [h]; rfl⟩

theorem expand_eq (hrp : Str) : hrpExpand hrp = Spec.Bech32.expand hrp := by
  unfold hrpExpand Spec.Bech32.expand
  rw [List.append_assoc, List.singleton_append]
  congr 1
  · exact List.map_congr_left fun c _ => by rw [Nat.shiftRight_eq_div_pow]
  · congr 1
    exact List.map_congr_left fun c _ => by rw [show (31 : Nat) = 2 ^ 5 - 1 from rfl, Nat.and_two_pow_sub_one_eq_mod]

theorem toChars_letter : ∀ {vs : List Nat}, (∀ v ∈ vs, v < 32) → toChars vs = some (vs.map Spec.Bech32.letter)
  | [], _ => rfl
  | v :: vs, h => by
    have hc : ∀ v < 32, charset[v]? = some (Spec.Bech32.letter v) := by decide +kernel
    rw [toChars, hc v (h v (by simp)), toChars_letter fun v' h' => h v' (List.mem_cons_of_mem _ h')]
    rfl

/-- forming groups of eight gives back the bytes -/
theorem to8_of_bits {vs : List Nat} {b : Bytes} {k : Nat} (hk : k < 5)
    (h : vs.flatMap (Spec.Bech32.bits 5) = b.flatMap (fun x => Spec.Bech32.bits 8 x.toNat) ++ List.replicate k false) : to8 vs = some b := by
  have h' : (vs.flatMap fun v => bitsOf 5 v) = (b.flatMap fun x => bitsOf 8 x.toNat) ++ List.replicate k false := h
  unfold to8
  dsimp only
  rw [h']
  have e : (b.flatMap fun b => bitsOf 8 b.toNat) = (b.map fun b => bitsOf 8 b.toNat).flatten := by rw [List.flatMap_def]
  rw [e, groups_eq (by decide) _ _ _ ?_ (by simp; omega) (le_refl _)]
  · dsimp only
    rw [if_pos (by simp; omega), List.map_map]
    congr 1
    have : ((fun b => UInt8.ofNat (valOf b)) ∘ fun b : UInt8 => bitsOf 8 b.toNat) = id := by
      funext b
      simp only [Function.comp, id]
      rw [valOf_bitsOf 8 _ (byte_lt b), UInt8.ofNat_toNat]
    rw [this, List.map_id]
  · intro g hg
    obtain ⟨b, -, rfl⟩ := List.mem_map.1 hg
    exact bitsOf_length _ _

/-- the texts that the program writes are those of BIP-173 -/
theorem encode_iff {hrp : Str} (hg : GoodPrefix hrp) (b : Bytes) (t : Str) : encode hrp b = some t ↔ IsText hrp b t := by
  have hsum := verify_iff hg.values (to5_lt b) (checksum_length hrp (to5 b)) (checksum_lt hrp (to5 b))
  have hall : ∀ v ∈ to5 b ++ checksum hrp (to5 b), v < 32 := fun v hv =>
    (List.mem_append.1 hv).elim (to5_lt b v) (checksum_lt _ _ v)
  constructor
  · intro h
    obtain ⟨gs, k, h1, h2, h3, h4⟩ := to5_bits b
    refine ⟨to5 b, checksum hrp (to5 b), k, hall, checksum_length _ _, by omega, ?_, ?_, ?_⟩
    · show (to5 b).flatMap (fun v => bitsOf 5 v) = (b.flatMap fun b => bitsOf 8 b.toNat) ++ List.replicate k false
      rw [← h3, h1, flatMap_bits5 h2]
    · have hv := hsum.2 rfl
      unfold verify at hv
      rw [beq_iff_eq, ← List.append_assoc, polymod_one, expand_eq] at hv
      · exact hv
      · intro v hv
        rw [List.append_assoc] at hv
        exact (List.mem_append.1 hv).elim (hg.values v) (hall v)
    · unfold encode at h
      rw [toChars_letter hall] at h
      exact (Option.some.inj h).symm
  · rintro ⟨data, sum, k, h1, h2, h3, h4, h5, rfl⟩
    have hd : ∀ v ∈ data, v < 32 := fun v hv => h1 v (List.mem_append_left _ hv)
    have hs : ∀ v ∈ sum, v < 32 := fun v hv => h1 v (List.mem_append_right _ hv)
    have e : to5 b = data := to5_to8 hd (to8_of_bits h3 h4)
    rw [← expand_eq, ← polymod_one] at h5
    · have hv : verify hrp (data ++ sum) = true := by
        unfold verify
        rw [beq_iff_eq, ← List.append_assoc]
        exact h5
      have hc := (verify_iff hg.values hd h2 hs).1 hv
      unfold encode
      rw [e, ← hc, toChars_letter h1]
      rfl
    · intro v hv
      rw [List.append_assoc] at hv
      exact (List.mem_append.1 hv).elim (hg.values v) (h1 v)

end Verif.Bech32
