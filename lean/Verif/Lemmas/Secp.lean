import Verif.Spec.Secp
import Verif.Model.Secp

/-! # The arithmetic of `Verif.Secp` is the arithmetic of the group; the order of the base point is prime -/
set_option linter.unusedSectionVars false
namespace Verif.Secp
open Verif.Go Verif.Curve Verif.Conversion Verif.Spec.Secp

attribute [local irreducible] fieldP

theorem invP_eq (a : Nat) : (invP a : ZMod fieldP) = (a : ZMod fieldP)⁻¹ := by
  have hlt : fieldP - 2 < 2 ^ 256 := by unfold fieldP; decide +kernel
  unfold invP
  rw [powMod_eq _ _ _ _ hlt, cast_mod, Nat.cast_pow]
  by_cases h : (a : ZMod fieldP) = 0
  · rw [h, inv_zero, zero_pow]; have := fieldP_two; omega
  · have h1 := ZMod.pow_card_sub_one_eq_one h
    refine eq_inv_of_mul_eq_one_left ?_
    rw [← pow_succ]
    have : fieldP - 2 + 1 = fieldP - 1 := by have := fieldP_two; omega
    rw [this, h1]

/-- the element of the group is determined by the coordinates, and the other way round -/
theorem is_unique {p : Option Point} {P Q : E} (h : Is p P) (h' : Is p Q) : P = Q := by
  cases h with
  | zero => cases h'; rfl
  | some hx hy h => cases h'; rfl

theorem is_unique' {p q : Option Point} {P : E} (h : Is p P) (h' : Is q P) : p = q := by
  cases h with
  | zero => generalize hz : (0 : E) = Z at h'
            cases h' with
            | zero => rfl
            | some => cases hz
  | some hx hy h =>
    generalize hz : (WeierstrassCurve.Affine.Point.some _ _ h : E) = Z at h'
    cases h' with
    | zero => cases hz
    | some hx' hy' h' =>
      injection hz with h1 h2
      rw [cast_inj hx hx'] at h1
      rw [cast_inj hy hy'] at h2
      rw [h1, h2]

theorem slope_eq {a b : Point} (ha : a.x < fieldP ∧ a.y < fieldP) (hb : b.x < fieldP ∧ b.y < fieldP)
    (hn : ¬ ((a.x : ZMod fieldP) = b.x ∧ (a.y : ZMod fieldP) = -b.y)) :
    (slope a b : ZMod fieldP) = curve.slope (a.x : ZMod fieldP) b.x a.y b.y := by
  unfold slope
  by_cases hx : a.x = b.x
  · rw [if_pos hx, cast_mod]
    have hx' : (a.x : ZMod fieldP) = b.x := by rw [hx]
    have hny : (a.y : ZMod fieldP) ≠ curve.negY b.x b.y := by
      intro e; apply hn; refine ⟨hx', ?_⟩
      rw [e]; simp [WeierstrassCurve.Affine.negY, curve]
    rw [WeierstrassCurve.Affine.slope_of_Y_ne hx' hny]
    push_cast
    rw [invP_eq]
    simp [WeierstrassCurve.Affine.negY, curve]
    rw [div_eq_mul_inv]
    congr 1
    · ring
    · ring
  · rw [if_neg hx, cast_mod]
    have hx' : (a.x : ZMod fieldP) ≠ b.x := by rw [Ne, cast_inj ha.1 hb.1]; exact hx
    rw [WeierstrassCurve.Affine.slope_of_X_ne hx']
    push_cast
    rw [invP_eq]
    push_cast
    rw [cast_sub ha.1, cast_sub ha.2, div_eq_mul_inv, ← neg_sub (b.y : ZMod fieldP), ← neg_sub (b.x : ZMod fieldP), inv_neg, neg_mul_neg,
      ← sub_eq_add_neg, ← sub_eq_add_neg]

theorem is_add {p q : Option Point} {P Q : E} (hp : Is p P) (hq : Is q Q) : Is (add p q) (P + Q) := by
  cases hp with
  | zero => rw [zero_add]; exact hq
  | @some x y hx hy h =>
    cases hq with
    | zero => rw [add_zero]; exact .some hx hy h
    | @some x' y' hx' hy' h' =>
      have hneg : (y + y') % fieldP = 0 ↔ (y : ZMod fieldP) = -y' := by
        rw [← Nat.dvd_iff_mod_eq_zero, ← ZMod.natCast_eq_zero_iff, eq_neg_iff_add_eq_zero]; push_cast; rfl
      by_cases hn : x = x' ∧ (y + y') % fieldP = 0
      · have e : Secp.add (some ⟨x, y⟩) (some ⟨x', y'⟩) = none := by simp only [Secp.add]; rw [if_pos hn]
        rw [e, WeierstrassCurve.Affine.Point.add_of_Y_eq (by rw [hn.1])]
        · exact .zero
        · rw [hneg.1 hn.2]; simp [WeierstrassCurve.Affine.negY, curve]
      · have hxy : ¬ ((x : ZMod fieldP) = x' ∧ (y : ZMod fieldP) = curve.negY x' y') := by
          rintro ⟨e1, e2⟩; apply hn
          refine ⟨(cast_inj hx hx').1 e1, hneg.2 ?_⟩
          rw [e2]; simp [WeierstrassCurve.Affine.negY, curve]
        have hs := slope_eq (a := ⟨x, y⟩) (b := ⟨x', y'⟩) ⟨hx, hy⟩ ⟨hx', hy'⟩
          (by rintro ⟨e1, e2⟩; apply hxy; refine ⟨e1, ?_⟩; rw [e2]; simp [WeierstrassCurve.Affine.negY, curve])
        rw [WeierstrassCurve.Affine.Point.add_some hxy]
        simp only [Secp.add]
        rw [if_neg hn]
        generalize hl : slope ⟨x, y⟩ ⟨x', y'⟩ = l at hs ⊢
        have ex : (((l * l + (fieldP - x) + (fieldP - x')) % fieldP : Nat) : ZMod fieldP) =
            curve.addX x x' (curve.slope (x : ZMod fieldP) x' y y') := by
          rw [cast_mod]; push_cast; rw [cast_sub hx, cast_sub hx']
          simp only [WeierstrassCurve.Affine.addX]
          rw [← hs]; simp [curve]; ring
        have hx3 : (l * l + (fieldP - x) + (fieldP - x')) % fieldP < fieldP := Nat.mod_lt _ fieldP_pos
        generalize hX : (l * l + (fieldP - x) + (fieldP - x')) % fieldP = X at ex hx3 ⊢
        have ey : (((l * (x + (fieldP - X)) + (fieldP - y)) % fieldP : Nat) : ZMod fieldP) =
            curve.addY x x' y (curve.slope (x : ZMod fieldP) x' y y') := by
          rw [cast_mod]; push_cast; rw [cast_sub hx3, cast_sub hy, ex]
          simp only [WeierstrassCurve.Affine.addY, WeierstrassCurve.Affine.negAddY, WeierstrassCurve.Affine.negY]
          rw [← hs]; simp [curve]; ring
        have hy3 : (l * (x + (fieldP - X)) + (fieldP - y)) % fieldP < fieldP := Nat.mod_lt _ fieldP_pos
        generalize (l * (x + (fieldP - X)) + (fieldP - y)) % fieldP = Y at ey hy3 ⊢
        have key : ∀ (u v : ZMod fieldP) (hu : curve.Nonsingular u v), (X : ZMod fieldP) = u → (Y : ZMod fieldP) = v →
            Is (some ⟨X, Y⟩) (.some u v hu) := by
          intro u v hu e1 e2; subst e1; subst e2; exact .some hx3 hy3 hu
        exact key _ _ _ ex ey

theorem is_mulBits : ∀ (n k : Nat) {p : Option Point} {P : E}, k < 2 ^ n → Is p P → Is (mulBits n k p) (k • P) := by
  intro n
  induction n with
  | zero => intro k p P hk _; have : k = 0 := by simpa using hk
            subst this; rw [zero_nsmul]; exact .zero
  | succ n ih =>
    intro k p P hk hp
    unfold Secp.mulBits
    by_cases h0 : k = 0
    · subst h0; rw [if_pos rfl, zero_nsmul]; exact .zero
    rw [if_neg h0]
    have hlt : k / 2 < 2 ^ n := by rw [pow_succ] at hk; omega
    have h := ih (k / 2) hlt (is_add hp hp)
    have e : (k / 2) • (P + P) = (2 * (k / 2)) • P := by rw [← two_nsmul, ← mul_nsmul]
    rw [e] at h
    by_cases h1 : k % 2 = 1
    · simp only [if_pos h1]
      have := is_add hp h
      have e2 : P + (2 * (k / 2)) • P = k • P := by
        rw [add_comm, ← succ_nsmul]; congr 1; omega
      rwa [e2] at this
    · simp only [if_neg h1]
      have e2 : 2 * (k / 2) = k := by omega
      rwa [e2] at h

theorem is_mul {k : Nat} {p : Option Point} {P : E} (hk : k < 2 ^ 256) (hp : Is p P) : Is (mul k p) (k • P) := is_mulBits 256 k hk hp

/-! ## the order of the base point -/

def f2 : List Nat := [2, 293, 305873, 545358713, 297159362677]
def p2 : Nat := 29047611873442575647497758179
def f3 : List Nat := [2, 2, 3, 3, 3, 109, 29047611873442575647497758179]
def p3 : Nat := 341948486974166000522343609283189
def f4 : List Nat := [2, 2, 2, 17, 59, 4051, 120233, 44706919]
def p4 : Nat := 174723607534414371449
def f5 : List Nat := [2, 2, 2, 2, 16699, 85831, 4681609]
def p5 : Nat := 107361793816595537
def fN : List Nat := [2, 2, 2, 2, 2, 2, 3, 149, 631, 107361793816595537, 174723607534414371449, 341948486974166000522343609283189]

theorem lucas' (n a : Nat) (fs : List Nat) (hn : 1 < n) (hn' : n < 2 ^ 256) (hf : fs.prod = n - 1) (hp : ∀ q ∈ fs, q.Prime)
    (h1 : powMod n 256 a (n - 1) = 1) (h2 : ∀ q ∈ fs, powMod n 256 a ((n - 1) / q) ≠ 1) : n.Prime := by
  refine lucas (a := a) fs hn hf hp ?_ ?_
  · exact pm _ _ _ _ (by omega) h1
  · intro q hq h
    apply h2 q hq
    rw [powMod_eq _ _ _ _ (lt_of_le_of_lt (Nat.div_le_self _ _) (by omega)), h]

theorem prime_0 : (545358713 : Nat).Prime := by
  refine lucas' 545358713 5 [2, 2, 2, 41, 59, 28181] (by decide +kernel) (by decide +kernel) (by decide +kernel) ?_ (by decide +kernel) (by decide +kernel)
  intro q hq
  simp only [List.mem_cons, List.not_mem_nil, or_false] at hq
  rcases hq with h | h | h | h | h | h <;> subst h <;> norm_num

theorem prime_1 : (297159362677 : Nat).Prime := by
  refine lucas' 297159362677 2 [2, 2, 3, 3, 11, 461, 1627771] (by decide +kernel) (by decide +kernel) (by decide +kernel) ?_ (by decide +kernel) (by decide +kernel)
  intro q hq
  simp only [List.mem_cons, List.not_mem_nil, or_false] at hq
  rcases hq with h | h | h | h | h | h | h <;> subst h <;> norm_num

theorem prime_2 : p2.Prime := by
  refine lucas' p2 2 f2 (by decide +kernel) (by decide +kernel) (by decide +kernel) ?_ (by decide +kernel) (by decide +kernel)
  intro q hq
  simp only [f2, List.mem_cons, List.not_mem_nil, or_false] at hq
  rcases hq with h | h | h | h | h <;> subst h
  iterate 3 norm_num
  · exact prime_0
  · exact prime_1

theorem prime_3 : p3.Prime := by
  refine lucas' p3 2 f3 (by decide +kernel) (by decide +kernel) (by decide +kernel) ?_ (by decide +kernel) (by decide +kernel)
  intro q hq
  simp only [f3, List.mem_cons, List.not_mem_nil, or_false] at hq
  rcases hq with h | h | h | h | h | h | h <;> subst h
  iterate 6 norm_num
  exact prime_2

theorem prime_4 : p4.Prime := by
  refine lucas' p4 3 f4 (by decide +kernel) (by decide +kernel) (by decide +kernel) ?_ (by decide +kernel) (by decide +kernel)
  intro q hq
  simp only [f4, List.mem_cons, List.not_mem_nil, or_false] at hq
  rcases hq with h | h | h | h | h | h | h | h <;> subst h <;> norm_num

theorem prime_5 : p5.Prime := by
  refine lucas' p5 3 f5 (by decide +kernel) (by decide +kernel) (by decide +kernel) ?_ (by decide +kernel) (by decide +kernel)
  intro q hq
  simp only [f5, List.mem_cons, List.not_mem_nil, or_false] at hq
  rcases hq with h | h | h | h | h | h | h <;> subst h <;> norm_num

theorem prime_N : secp256k1N.Prime := by
  refine lucas' secp256k1N 7 fN (by decide +kernel) (by decide +kernel) (by decide +kernel) ?_ (by decide +kernel) (by decide +kernel)
  intro q hq
  simp only [fN, List.mem_cons, List.not_mem_nil, or_false] at hq
  rcases hq with h | h | h | h | h | h | h | h | h | h | h | h <;> subst h
  iterate 9 norm_num
  · exact prime_5
  · exact prime_4
  · exact prime_3

instance : Fact secp256k1N.Prime := ⟨prime_N⟩

theorem is_G : Is (some baseG) gen := .some (by decide +kernel) (by decide +kernel) _

theorem order_computed : mulBits 256 secp256k1N (some baseG) = none := by decide +kernel

theorem order_gen : secp256k1N • gen = 0 := by
  have h := is_mulBits 256 secp256k1N (by decide +kernel) is_G
  rw [order_computed] at h
  exact is_unique h .zero

theorem gen_ne : gen ≠ 0 := by unfold gen; exact WeierstrassCurve.Affine.Point.some_ne_zero _

theorem addOrder_gen : addOrderOf gen = secp256k1N := addOrderOf_eq_prime order_gen gen_ne

theorem smul_gen {a b : Nat} : a • gen = b • gen ↔ a % secp256k1N = b % secp256k1N := by
  rw [nsmul_eq_nsmul_iff_modEq, addOrder_gen]; rfl

theorem smul_mod (a : Nat) : (a % secp256k1N) • gen = a • gen := smul_gen.2 (Nat.mod_mod _ _)

/-! ## the order of the group -/

/-- a point is determined by x and the parity of y -/
def code : E → Option (ZMod fieldP × Bool)
  | .zero => none
  | .some x y _ => some (x, decide (y.val % 2 = 1))

theorem code_inj : Function.Injective code := by
  intro P Q h
  cases P with
  | zero => cases Q with
    | zero => rfl
    | some => cases h
  | some x y hP => cases Q with
    | zero => cases h
    | some x' y' hQ =>
      have h' := Option.some.inj h
      have hx : x = x' := congrArg Prod.fst h'
      have hpar : decide (y.val % 2 = 1) = decide (y'.val % 2 = 1) := congrArg Prod.snd h'
      subst hx
      have h1 := (nonsingular_iff _ _).1 hP
      have h2 := (nonsingular_iff _ _).1 hQ
      have hy : y = y' := by
        rcases sq_eq_sq_iff_eq_or_eq_neg.1 (h1.trans h2.symm) with h | h
        · exact h
        · by_cases h0 : y' = 0
          · rw [h, h0, neg_zero]
          · exfalso
            have hv : y.val = fieldP - y'.val := by
              rw [h, ZMod.neg_val, if_neg h0]
            have hlt := ZMod.val_lt y'
            have hpos : y'.val ≠ 0 := by rwa [Ne, ZMod.val_eq_zero]
            have hodd : fieldP % 2 = 1 := by unfold fieldP; decide +kernel
            simp only [decide_eq_decide] at hpar
            omega
      subst hy
      rfl

instance : Finite E := Finite.of_injective code code_inj

theorem card_le : Nat.card E ≤ 2 * fieldP + 1 := by
  have h := Nat.card_le_card_of_injective code code_inj
  have e : Nat.card (Option (ZMod fieldP × Bool)) = 2 * fieldP + 1 := by
    rw [Finite.card_option, Nat.card_prod, Nat.card_zmod, Nat.card_eq_fintype_card, Fintype.card_bool]; omega
  omega

/-- -7 is not a cube in the field -/
theorem not_cube (x : ZMod fieldP) : x ^ 3 + 7 ≠ 0 := by
  intro h
  have hx : x ^ 3 = ((fieldP - 7 : Nat) : ZMod fieldP) := by
    rw [Nat.cast_sub (by unfold fieldP; decide +kernel), ZMod.natCast_self]
    push_cast
    rw [zero_sub]; exact eq_neg_of_add_eq_zero_left h
  have hlt : fieldP - 7 < fieldP := by have := fieldP_two; omega
  have h7 : ((fieldP - 7 : Nat) : ZMod fieldP) ≠ 0 := by
    rw [Ne, ← Nat.cast_zero, cast_inj hlt fieldP_pos]; unfold fieldP; decide +kernel
  have hx0 : x ≠ 0 := by
    rintro rfl
    rw [zero_pow (by decide)] at hx
    exact h7 hx.symm
  have h3 : 3 * ((fieldP - 1) / 3) = fieldP - 1 := by unfold fieldP; decide +kernel
  have h1 : ((fieldP - 7 : Nat) : ZMod fieldP) ^ ((fieldP - 1) / 3) = 1 := by
    rw [← hx, ← pow_mul, h3]; exact ZMod.pow_card_sub_one_eq_one hx0
  have h2 : powMod fieldP 256 (fieldP - 7) ((fieldP - 1) / 3) ≠ 1 := by unfold fieldP; decide +kernel
  apply h2
  rw [powMod_eq _ _ _ _ (by unfold fieldP; decide +kernel)]
  have h1' : (((fieldP - 7) ^ ((fieldP - 1) / 3) : Nat) : ZMod fieldP) = ((1 : Nat) : ZMod fieldP) := by rw [Nat.cast_pow, h1, Nat.cast_one]
  have h1'' := (ZMod.natCast_eq_natCast_iff _ _ _).1 h1'
  unfold Nat.ModEq at h1''
  rw [h1'', Nat.mod_eq_of_lt]; have := fieldP_two; omega

theorem no_two_torsion (P : E) (h : P + P = 0) : P = 0 := by
  cases P with
  | zero => rfl
  | some x y hP =>
    exfalso
    have h' := eq_neg_of_add_eq_zero_left h
    rw [WeierstrassCurve.Affine.Point.neg_some] at h'
    have hy : y = curve.negY x y := (WeierstrassCurve.Affine.Point.some.inj h').2
    have hy' : y = -y := by simpa [WeierstrassCurve.Affine.negY, curve] using hy
    have h2 : 2 * y = 0 := by rw [two_mul]; nth_rewrite 1 [hy']; simp
    have two_ne : (2 : ZMod fieldP) ≠ 0 := by
      have : ((2 : Nat) : ZMod fieldP) ≠ ((0 : Nat) : ZMod fieldP) := by
        rw [Ne, cast_inj fieldP_two fieldP_pos]; decide
      simpa using this
    have h0 : y = 0 := (mul_eq_zero.1 h2).resolve_left two_ne
    have := (nonsingular_iff _ _).1 hP
    rw [h0, zero_pow (by decide)] at this
    exact not_cube x this.symm

/-- the order of the group -/
theorem card_E : Nat.card E = secp256k1N := by
  have hd : secp256k1N ∣ Nat.card E := by rw [← addOrder_gen]; exact addOrderOf_dvd_natCard gen
  obtain ⟨c, hc⟩ := hd
  have hpos : 0 < Nat.card E := Nat.card_pos
  have hle := card_le
  have hb : 2 * fieldP + 1 < secp256k1N * 3 := by unfold fieldP; decide +kernel
  have hc3 : c < 3 := by
    by_contra hn
    have : secp256k1N * 3 ≤ secp256k1N * c := Nat.mul_le_mul_left _ (by omega)
    omega
  have hc0 : c ≠ 0 := by rintro rfl; omega
  by_cases h2 : c = 2
  · exfalso
    have hdiv : 2 ∣ Nat.card E := ⟨secp256k1N, by rw [hc, h2, Nat.mul_comm]⟩
    have : Fact (Nat.Prime 2) := ⟨Nat.prime_two⟩
    obtain ⟨P, hP⟩ := exists_prime_addOrderOf_dvd_card' 2 hdiv
    have h0 : P + P = 0 := by rw [← two_nsmul, ← hP]; exact addOrderOf_nsmul_eq_zero P
    rw [no_two_torsion P h0, addOrderOf_zero] at hP
    omega
  · have : c = 1 := by omega
    rw [hc, this, Nat.mul_one]

theorem order_all (P : E) : secp256k1N • P = 0 := by
  rw [← card_E]; exact card_nsmul_eq_zero'

/-- every point is a multiple of the base point -/
theorem exists_smul (P : E) : ∃ d < secp256k1N, P = d • gen := by
  have ht : AddSubgroup.zmultiples gen = ⊤ := by
    apply AddSubgroup.eq_top_of_card_eq
    rw [card_E, Nat.card_zmultiples, addOrder_gen]
  have hm : P ∈ AddSubgroup.zmultiples gen := by rw [ht]; trivial
  rw [← mem_multiples_iff_mem_zmultiples] at hm
  obtain ⟨n, hn⟩ := hm
  refine ⟨n % secp256k1N, Nat.mod_lt _ prime_N.pos, ?_⟩
  rw [smul_mod]
  exact hn.symm

end Verif.Secp
