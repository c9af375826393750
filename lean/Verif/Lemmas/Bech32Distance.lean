import Verif.Lemmas.Bech32Four

set_option linter.unusedSectionVars false

/-! # Texts with correct checksums differ in at least five characters: the argument -/
namespace Verif.Bech32.Four
open Verif.Bech32
open Verif.Spec.Bech32 (Poly mul)

/-! ## from the tables to powers -/

theorem chain_get : ∀ (rs : List (List Nat)) (r : List Nat), chain r rs = true → ∀ (i : Nat) (r' : List Nat), rs[i]? = some r' → r' = r.map (lin^[i + 1])
  | [], _, _, i, r', h => by simp at h
  | r1 :: rs, r, hc, i, r', h => by
    rw [chain, Bool.and_eq_true] at hc
    have e : r.map lin = r1 := eq_of_beq (show (r.map lin == r1) = true from hc.1)
    cases i with
    | zero =>
      simp only [List.getElem?_cons_zero, Option.some.injEq] at h
      rw [← h, ← e]
      rfl
    | succ i =>
      rw [List.getElem?_cons_succ] at h
      rw [chain_get rs r1 hc.2 i r' h, ← e, List.map_map]
      rfl

theorem rows_length : rows.tail.length = 66 := by decide +kernel

/-- row `c` of the table -/
theorem row_get {c : Nat} (h0 : 0 < c) (hc : c ≤ 66) : rows.tail[c - 1]? = some (((List.range 31).map (· + 1)).map (lin^[c])) := by
  have hl : c - 1 < rows.tail.length := by rw [rows_length]; omega
  have := chain_get _ _ chain_ok.2 (c - 1) _ (List.getElem?_eq_getElem hl)
  rw [List.getElem?_eq_getElem hl, this, chain_ok.1, Nat.sub_add_cancel h0]

theorem mem_row {c e : Nat} (h0 : 0 < e) (he : e < 32) : lin^[c] e ∈ ((List.range 31).map (· + 1)).map (lin^[c]) :=
  List.mem_map.2 ⟨e, List.mem_map.2 ⟨e - 1, List.mem_range.2 (by omega), by omega⟩, rfl⟩

theorem in_tree {c e : Nat} (h0 : 0 < c) (hc : c ≤ 66) (e0 : 0 < e) (he : e < 32) : Tree.mem tree (lin^[c] e >>> 5) = true := by
  have h1 := List.all_eq_true.1 in_ok _ (List.mem_of_getElem? (row_get h0 hc))
  exact List.all_eq_true.1 h1 _ (mem_row e0 he)

theorem apart_get : ∀ (rs' rs : List (List Nat)), apart rs rs' = true → ∀ (i : Nat) (r : List Nat), rs'[i]? = some r →
    (∀ r' ∈ rs, out (r.headD 0) r' = true) ∧ ∀ j < i, ∀ r' : List Nat, rs'[j]? = some r' → out (r.headD 0) r' = true
  | [], _, _, i, r, h => by simp at h
  | r1 :: rs', rs, ha, i, r, h => by
    rw [apart, Bool.and_eq_true] at ha
    cases i with
    | zero =>
      simp only [List.getElem?_cons_zero, Option.some.injEq] at h
      subst h
      exact ⟨List.all_eq_true.1 ha.1, fun j hj => absurd hj (by omega)⟩
    | succ i =>
      rw [List.getElem?_cons_succ] at h
      obtain ⟨h1, h2⟩ := apart_get rs' (r1 :: rs) ha.2 i r h
      refine ⟨fun r' hr => h1 r' (List.mem_cons_of_mem _ hr), fun j hj r' hr => ?_⟩
      cases j with
      | zero =>
        simp only [List.getElem?_cons_zero, Option.some.injEq] at hr
        subst hr
        exact h1 _ (by simp)
      | succ j =>
        rw [List.getElem?_cons_succ] at hr
        exact h2 j (by omega) r' hr

theorem not_in_tree {D b f : Nat} (hb : 0 < b) (hbD : b < D) (hD : D ≤ 66) (f0 : 0 < f) (hf : f < 32) :
    Tree.mem tree ((lin^[D] 1 ^^^ lin^[b] f) >>> 5) = false := by
  have h1 := (apart_get _ _ apart_ok (D - 1) _ (row_get (by omega) hD)).2 (b - 1) (by omega) _ (row_get hb (by omega))
  have h2 := List.all_eq_true.1 h1 _ (mem_row f0 hf)
  have h3 : (((List.range 31).map (· + 1)).map (lin^[D])).headD 0 = lin^[D] 1 := rfl
  rw [h3] at h2
  have h4 : (!Tree.mem tree ((lin^[D] 1 ^^^ lin^[b] f) >>> 5)) = true := h2
  simpa using h4

theorem low {a h : Nat} (hh : h < 32) : (a ^^^ h) >>> 5 = a >>> 5 := by
  rw [Nat.shiftRight_xor_distrib, show h >>> 5 = 0 by rw [Nat.shiftRight_eq_div_pow]; omega, Nat.xor_zero]

theorem xor_zero_eq {a b : Nat} (h : a ^^^ b = 0) : a = b := by
  have := congrArg (· ^^^ b) h
  simpa [Nat.xor_assoc] using this

theorem one_large : ∀ D < 67, 0 < D → 32 ≤ lin^[D] 1 := by decide +kernel

/-- no sum of up to four monomials is zero -/
theorem no_two {D h : Nat} (h0 : 0 < D) (hD : D ≤ 66) (hh : h < 32) : lin^[D] 1 ^^^ h ≠ 0 := fun e => by
  have := one_large D (by omega) h0
  have := xor_zero_eq e
  omega

theorem no_three {D b f h : Nat} (hb : 0 < b) (hbD : b < D) (hD : D ≤ 66) (f0 : 0 < f) (hf : f < 32) (hh : h < 32) :
    lin^[D] 1 ^^^ lin^[b] f ^^^ h ≠ 0 := fun e => by
  have h1 := not_in_tree hb hbD hD f0 hf
  have h2 := congrArg (· >>> 5) e
  simp only [low hh] at h2
  rw [h2] at h1
  have := zero_in
  rw [show (0 : Nat) >>> 5 = 0 from rfl] at h1
  rw [h1] at this
  cases this

theorem no_four {D b c f g h : Nat} (hc : 0 < c) (hcb : c < b) (hbD : b < D) (hD : D ≤ 66) (f0 : 0 < f) (hf : f < 32) (g0 : 0 < g) (hg : g < 32) (hh : h < 32) :
    lin^[D] 1 ^^^ lin^[b] f ^^^ lin^[c] g ^^^ h ≠ 0 := fun e => by
  have h1 := not_in_tree (by omega) hbD hD f0 hf
  have h2 := congrArg (· >>> 5) e
  simp only [low hh, Nat.shiftRight_xor_distrib (b := lin^[c] g)] at h2
  rw [show (0 : Nat) >>> 5 = 0 from rfl] at h2
  rw [xor_zero_eq h2, in_tree hc (by omega) g0 hg] at h1
  cases h1

/-! ## lists of values as sums of monomials -/

/-- the values which are not zero, each with the number of values behind it -/
def terms : List Nat → List (Nat × Nat)
  | [] => []
  | v :: vs => if v = 0 then terms vs else (vs.length, v) :: terms vs

/-- a sum of monomials -/
def total : List (Nat × Nat) → Nat
  | [] => 0
  | t :: ts => lin^[t.1] t.2 ^^^ total ts

theorem lin_zero : lin 0 = 0 := by decide +kernel

theorem iterate_zero : ∀ n, lin^[n] 0 = 0
  | 0 => rfl
  | n + 1 => by rw [Function.iterate_succ_apply', iterate_zero n, lin_zero]

theorem iterate_xor : ∀ (n a b : Nat), lin^[n] (a ^^^ b) = lin^[n] a ^^^ lin^[n] b
  | 0, _, _ => rfl
  | n + 1, a, b => by rw [Function.iterate_succ_apply', iterate_xor n, lin_xor, ← Function.iterate_succ_apply' lin, ← Function.iterate_succ_apply' lin]

theorem fold_total : ∀ (vs : List Nat) (c : Nat), vs.foldl polyStep c = lin^[vs.length] c ^^^ total (terms vs)
  | [], c => by simp [terms, total]
  | v :: vs, c => by
    rw [List.foldl_cons, fold_total vs, polyStep_eq, iterate_xor, ← Function.iterate_succ_apply, List.length_cons]
    by_cases hv : v = 0
    · rw [terms, if_pos hv, hv, iterate_zero, Nat.xor_zero]
    · rw [terms, if_neg hv, total, Nat.xor_assoc]

theorem terms_facts : ∀ (vs : List Nat), (∀ v ∈ vs, v < 32) →
    (∀ t ∈ terms vs, t.1 < vs.length ∧ 0 < t.2 ∧ t.2 < 32) ∧ (terms vs).Pairwise fun t t' => t'.1 < t.1
  | [], _ => ⟨by simp [terms], by simp [terms]⟩
  | v :: vs, h => by
    obtain ⟨h1, h2⟩ := terms_facts vs fun v' h' => h v' (List.mem_cons_of_mem _ h')
    unfold terms
    split
    · exact ⟨fun t ht => ⟨by have := (h1 t ht).1; simp; omega, (h1 t ht).2⟩, h2⟩
    · rename_i hv
      refine ⟨fun t ht => ?_, List.pairwise_cons.2 ⟨fun t ht => (h1 t ht).1, h2⟩⟩
      rcases List.mem_cons.1 ht with rfl | ht
      · exact ⟨by simp, by dsimp only; omega, h v (by simp)⟩
      · exact ⟨by have := (h1 t ht).1; simp; omega, (h1 t ht).2⟩

theorem terms_nil : ∀ (vs : List Nat), terms vs = [] → ∀ v ∈ vs, v = 0
  | [], _ => by simp
  | v :: vs, h => by
    unfold terms at h
    split at h
    · rename_i hv
      intro v' h'
      rcases List.mem_cons.1 h' with rfl | h'
      · exact hv
      · exact terms_nil vs h v' h'
    · cases h

/-! ## multiples -/

theorem mul_facts : ∀ k < 32, (∀ a < 32, mul k a < 32 ∧ (mul k a = 0 → k = 0 ∨ a = 0)) ∧ mul k 0 = 0 := by decide +kernel

theorem mul_mul : ∀ k < 32, ∀ a < 32, mul (mul k a) 29 = mul k (mul a 29) ∧ mul (mul k a) 22 = mul k (mul a 22) ∧ mul (mul k a) 20 = mul k (mul a 20) ∧
    mul (mul k a) 21 = mul k (mul a 21) ∧ mul (mul k a) 18 = mul k (mul a 18) := by decide +kernel

theorem mul_xor_distrib : ∀ k < 32, ∀ a < 32, ∀ b < 32, mul k (a ^^^ b) = mul k a ^^^ mul k b := by decide +kernel

theorem inverse : ∀ a < 32, a ≠ 0 → ∃ k < 32, k ≠ 0 ∧ mul k a = 1 := by decide +kernel

/-- the multiple of a polynomial -/
def times (k : Nat) (p : Poly) : Poly := ⟨mul k p.x5, mul k p.x4, mul k p.x3, mul k p.x2, mul k p.x1, mul k p.x0⟩

theorem next_times {k : Nat} (hk : k < 32) {p : Poly} (hp : Small p) {v : Nat} (hv : v < 32) :
    Spec.Bech32.next (times k p) (mul k v) = times k (Spec.Bech32.next p v) := by
  obtain ⟨h5, h4, h3, h2, h1, h0⟩ := hp
  obtain ⟨m1, m2, m3, m4, m5⟩ := mul_lt p.x5 h5
  obtain ⟨n1, n2, n3, n4, n5⟩ := mul_mul k hk p.x5 h5
  unfold Spec.Bech32.next times
  dsimp only
  rw [n1, n2, n3, n4, n5, mul_xor_distrib k hk _ h4 _ m1, mul_xor_distrib k hk _ h3 _ m2, mul_xor_distrib k hk _ h2 _ m3, mul_xor_distrib k hk _ h1 _ m4,
    mul_xor_distrib k hk _ h0 _ m1, mul_xor_distrib k hk _ hv _ m5]

theorem fold_times {k : Nat} (hk : k < 32) : ∀ (vs : List Nat), (∀ v ∈ vs, v < 32) → ∀ p, Small p →
    (vs.map (mul k)).foldl Spec.Bech32.next (times k p) = times k (vs.foldl Spec.Bech32.next p)
  | [], _, _, _ => rfl
  | v :: vs, hv, p, hp => by
    rw [List.map_cons, List.foldl_cons, List.foldl_cons, next_times hk hp (hv v (by simp))]
    exact fold_times hk vs (fun v' h' => hv v' (List.mem_cons_of_mem _ h')) _ (next_small hp (hv v (by simp)))

/-- the polynomial 0 -/
def zero : Poly := ⟨0, 0, 0, 0, 0, 0⟩

theorem zero_small : Small zero := by unfold Small; decide

theorem times_zero {k : Nat} (hk : k < 32) : times k zero = zero := by
  unfold times zero
  dsimp only
  rw [(mul_facts k hk).2]

/-- a multiple of a list with checksum zero has checksum zero -/
theorem fold_scale {k : Nat} (hk : k < 32) {vs : List Nat} (hv : ∀ v ∈ vs, v < 32) (h : vs.foldl polyStep 0 = 0) : (vs.map (mul k)).foldl polyStep 0 = 0 := by
  obtain ⟨h1, h2⟩ := fold_pack vs hv zero zero_small
  have hv' : ∀ v ∈ vs.map (mul k), v < 32 := fun v h' => by
    obtain ⟨a, ha, rfl⟩ := List.mem_map.1 h'
    exact ((mul_facts k hk).1 a (hv a ha)).1
  obtain ⟨h3, -⟩ := fold_pack _ hv' zero zero_small
  have hz : pack zero = 0 := rfl
  rw [hz] at h1 h3
  rw [h] at h1
  have h4 : vs.foldl Spec.Bech32.next zero = zero := pack_inj h2 zero_small h1.symm
  have h5 := fold_times hk vs hv zero zero_small
  rw [times_zero hk, h4, times_zero hk] at h5
  rw [h3, h5, hz]

theorem terms_scale {k : Nat} (hk : k < 32) (k0 : k ≠ 0) : ∀ (vs : List Nat), (∀ v ∈ vs, v < 32) →
    terms (vs.map (mul k)) = (terms vs).map fun t => (t.1, mul k t.2)
  | [], _ => rfl
  | v :: vs, hv => by
    have ih := terms_scale hk k0 vs fun v' h' => hv v' (List.mem_cons_of_mem _ h')
    have hvv := hv v (by simp)
    rw [List.map_cons]
    unfold terms
    by_cases h0 : v = 0
    · rw [if_pos h0, if_pos (by rw [h0]; exact (mul_facts k hk).2), ih]
    · have : mul k v ≠ 0 := fun e => by
        rcases ((mul_facts k hk).1 v hvv).2 e with h | h
        · exact k0 h
        · exact h0 h
      rw [if_neg h0, if_neg this, List.map_cons, ih, List.length_map]

/-! ## at most four -/

theorem lin_pos {c : Nat} (hc : c < 2 ^ 30) (h : lin c = 0) : c = 0 := by
  have hs : ∀ c < 32, select c % 32 = 0 → c = 0 := by decide +kernel
  have hm : ∀ a b : Nat, (a ^^^ b) % 32 = (a % 32) ^^^ (b % 32) := fun a b => by
    have := Nat.xor_mod_two_pow (a := a) (b := b) (n := 5)
    simpa using this
  have hhi : c >>> 25 < 32 := by rw [Nat.shiftRight_eq_div_pow]; omega
  have h0 : c >>> 25 = 0 := by
    apply hs _ hhi
    have h1 := congrArg (· % 32) h
    simp only [lin, hm] at h1
    rw [Nat.shiftLeft_eq, show (2 : Nat) ^ 5 = 32 from rfl, Nat.mul_mod_left, Nat.zero_xor] at h1
    exact h1
  rw [Nat.shiftRight_eq_div_pow] at h0
  rw [lin_small (by omega)] at h
  omega

theorem iterate_lt {c : Nat} (hc : c < 2 ^ 30) (n : Nat) : lin^[n] c < 2 ^ 30 := by
  cases n with
  | zero => exact hc
  | succ n => rw [Function.iterate_succ_apply']; exact lin_lt _

theorem iterate_pos {c : Nat} (hc : c < 2 ^ 30) : ∀ n, lin^[n] c = 0 → c = 0
  | 0, h => h
  | n + 1, h => by
    rw [Function.iterate_succ_apply'] at h
    exact iterate_pos hc n (lin_pos (iterate_lt hc n) h)

/-- the last monomial is divided out -/
theorem split_power {D a : Nat} (h : a ≤ D) (e : Nat) : lin^[D] e = lin^[a] (lin^[D - a] e) := by
  rw [← Function.iterate_add_apply, Nat.add_sub_cancel' h]

/-- **A list of at most 67 values, at most four of which are not zero, has checksum zero only if all are zero.** -/
theorem four {vs : List Nat} (hv : ∀ v ∈ vs, v < 32) (hl : vs.length ≤ 67) (hn : (terms vs).length ≤ 4) (h : vs.foldl polyStep 0 = 0) : ∀ v ∈ vs, v = 0 := by
  apply terms_nil
  by_contra hne
  -- the first value is one
  obtain ⟨t, ts, ht⟩ := List.exists_cons_of_ne_nil hne
  have hf := (terms_facts vs hv).1 t (by rw [ht]; simp)
  obtain ⟨k, hk, k0, hkt⟩ := inverse t.2 hf.2.2 (by omega)
  have hs := fold_scale hk hv h
  have hv' : ∀ v ∈ vs.map (mul k), v < 32 := fun v h' => by
    obtain ⟨a, ha, rfl⟩ := List.mem_map.1 h'
    exact ((mul_facts k hk).1 a (hv a ha)).1
  obtain ⟨f1, f2⟩ := terms_facts _ hv'
  rw [fold_total, iterate_zero, Nat.zero_xor] at hs
  rw [terms_scale hk k0 vs hv, ht, List.map_cons] at hs f1 f2
  rw [hkt] at hs f1 f2
  rw [List.length_map] at f1
  have hts : ts.length ≤ 3 := by rw [ht] at hn; simp at hn; omega
  have hts' : (ts.map fun t => (t.1, mul k t.2)).length ≤ 3 := by rw [List.length_map]; exact hts
  generalize ts.map (fun t => (t.1, mul k t.2)) = ts' at hs f1 f2 hts'
  have g0 := (f1 _ (List.mem_cons_self)).1
  dsimp only at g0
  match ts', hts' with
  | [], _ =>
    simp only [total, Nat.xor_zero] at hs
    exact absurd (iterate_pos (by decide) _ hs) (by decide)
  | [x], _ =>
    obtain ⟨-, x1, x2⟩ := f1 x (by simp)
    have p := List.pairwise_cons.1 f2
    have p1 := p.1 x (by simp)
    dsimp only at p1
    simp only [total, Nat.xor_zero] at hs
    rw [split_power (le_of_lt p1), ← iterate_xor] at hs
    refine no_two (D := t.1 - x.1) (by omega) (by omega) x2 (iterate_pos (Nat.xor_lt_two_pow (iterate_lt (by decide) _) (by omega)) _ hs)
  | [x, y], _ =>
    obtain ⟨-, x1, x2⟩ := f1 x (by simp)
    obtain ⟨-, y1, y2⟩ := f1 y (by simp)
    have p := List.pairwise_cons.1 f2
    have p1 := p.1 x (by simp)
    have p2 := (List.pairwise_cons.1 p.2).1 y (by simp)
    dsimp only at p1
    simp only [total, Nat.xor_zero] at hs
    rw [split_power (D := t.1) (a := y.1) (by omega), split_power (D := x.1) (a := y.1) (by omega), ← iterate_xor, ← iterate_xor] at hs
    refine no_three (D := t.1 - y.1) (b := x.1 - y.1) (f := x.2) (h := y.2) (by omega) (by omega) (by omega) x1 x2 y2 ?_
    rw [Nat.xor_assoc]
    exact iterate_pos (Nat.xor_lt_two_pow (iterate_lt (by decide) _) (Nat.xor_lt_two_pow (iterate_lt (by omega) _) (by omega))) _ hs
  | [x, y, z], _ =>
    obtain ⟨-, x1, x2⟩ := f1 x (by simp)
    obtain ⟨-, y1, y2⟩ := f1 y (by simp)
    obtain ⟨-, z1, z2⟩ := f1 z (by simp)
    have p := List.pairwise_cons.1 f2
    have p1 := p.1 x (by simp)
    have p2 := (List.pairwise_cons.1 p.2).1 y (by simp)
    have p3 := (List.pairwise_cons.1 (List.pairwise_cons.1 p.2).2).1 z (by simp)
    dsimp only at p1
    simp only [total, Nat.xor_zero] at hs
    rw [split_power (D := t.1) (a := z.1) (by omega), split_power (D := x.1) (a := z.1) (by omega), split_power (D := y.1) (a := z.1) (by omega), ← iterate_xor,
      ← iterate_xor, ← iterate_xor] at hs
    refine no_four (D := t.1 - z.1) (b := x.1 - z.1) (c := y.1 - z.1) (f := x.2) (g := y.2) (h := z.2) (by omega) (by omega) (by omega) (by omega) x1 x2 y1 y2 z2 ?_
    rw [Nat.xor_assoc, Nat.xor_assoc]
    exact iterate_pos (Nat.xor_lt_two_pow (iterate_lt (by decide) _) (Nat.xor_lt_two_pow (iterate_lt (by omega) _)
      (Nat.xor_lt_two_pow (iterate_lt (by omega) _) (by omega)))) _ hs
  | _ :: _ :: _ :: _ :: _, h4 => simp at h4

end Verif.Bech32.Four
