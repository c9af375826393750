import Mathlib.LinearAlgebra.Lagrange
import Verif.Spec.Recovery
import Verif.Lemmas.Bytes

/-! # Lemmas about recovery: the loops compute the Lagrange interpolation at 0, counter mode inverts itself -/
set_option linter.unusedSectionVars false
namespace Verif.Recovery
open Verif.Go Polynomial

section field
variable {N : ℕ} [Fact N.Prime]

theorem coprime_val_iff (z : ZMod N) : Nat.Coprime z.val N ↔ z ≠ 0 := by
  have hp : N.Prime := Fact.out
  constructor
  · rintro h rfl
    rw [ZMod.val_zero, Nat.coprime_zero_left] at h
    exact hp.one_lt.ne' h
  · intro h
    refine Nat.Coprime.symm ((Nat.Prime.coprime_iff_not_dvd hp).2 fun hd => h ?_)
    rw [← ZMod.natCast_zmod_val z]
    exact (ZMod.natCast_eq_zero_iff _ _).2 hd

/-- a position that does not occur: all factors -/
theorem times_all (i : Nat) (x : ZMod N) : ∀ (l : List (ZMod N)) (j : Nat) (t : ZMod N), (i < j ∨ j + l.length ≤ i) → x ∉ l →
    times i x l j t = .ok (t * (l.map fun y => y * (y - x)⁻¹).prod)
  | [], j, t, _, _ => by simp [times]
  | y :: l, j, t, hi, hx => by
    simp only [List.mem_cons, not_or] at hx
    have hj : j ≠ i := by
      rcases hi with h | h
      · omega
      · simp only [List.length_cons] at h; omega
    rw [times, if_neg hj, if_pos ((coprime_val_iff _).2 (sub_ne_zero.2 (Ne.symm hx.1))),
      times_all i x l (j + 1) _ (by simp only [List.length_cons] at hi; omega) hx.2, List.map_cons, List.prod_cons, mul_assoc]

theorem times_eq (x : ZMod N) (post : List (ZMod N)) (hpost : x ∉ post) : ∀ (pre : List (ZMod N)) (j : Nat) (t : ZMod N), x ∉ pre →
    times (j + pre.length) x (pre ++ x :: post) j t = .ok (t * ((pre ++ post).map fun y => y * (y - x)⁻¹).prod)
  | [], j, t, _ => by
    rw [List.nil_append, times, if_pos (by simp), times_all _ _ _ _ _ (Or.inl (by simp)) hpost, List.nil_append]
  | y :: pre, j, t, hpre => by
    simp only [List.mem_cons, not_or] at hpre
    rw [List.cons_append, times, if_neg (by simp), if_pos ((coprime_val_iff _).2 (sub_ne_zero.2 (Ne.symm hpre.1))),
      show j + (y :: pre).length = j + 1 + pre.length by simp only [List.length_cons]; omega, times_eq x post hpost pre (j + 1) _ hpre.2]
    simp [mul_assoc]

/-- an index that occurs twice -/
theorem times_panic (x : ZMod N) (i : Nat) : ∀ (l : List (ZMod N)) (j k : Nat) (t : ZMod N), j + k ≠ i → l[k]? = some x → times i x l j t = .panic
  | [], _, _, _, _, h => by simp at h
  | y :: l, j, k, t, hk, h => by
    rw [times]
    cases k with
    | zero =>
      simp only [List.getElem?_cons_zero, Option.some.injEq] at h
      subst h
      rw [if_neg (by simpa using hk), if_neg (by rw [coprime_val_iff]; simp)]
    | succ k =>
      rw [List.getElem?_cons_succ] at h
      have ih := fun t' => times_panic x i l (j + 1) k t' (by omega) h
      split
      · exact ih _
      · split
        · exact ih _
        · rfl

/-- the weight of the share with index `x` among the indices `xs` -/
noncomputable def weight (xs : List (ZMod N)) (x : ZMod N) : ZMod N := ∏ y ∈ xs.toFinset.erase x, y * (y - x)⁻¹

theorem times_weight (pre post : List (ZMod N)) (x : ZMod N) (hn : (pre ++ x :: post).Nodup) :
    times pre.length x (pre ++ x :: post) 0 1 = .ok (weight (pre ++ x :: post) x) := by
  have hn' := List.nodup_middle.1 hn
  have hx := List.nodup_cons.1 hn'
  have := times_eq x post (fun h => hx.1 (List.mem_append_right _ h)) pre 0 1 (fun h => hx.1 (List.mem_append_left _ h))
  rw [Nat.zero_add] at this
  rw [this, one_mul, weight]
  congr 1
  rw [← List.prod_toFinset _ hx.2]
  congr 1
  ext y
  simp only [List.mem_toFinset, List.mem_append, Finset.mem_erase, List.mem_cons]
  constructor
  · intro h
    refine ⟨?_, by tauto⟩
    rintro rfl
    exact hx.1 (List.mem_append.2 h)
  · tauto

theorem sums_eq (xs : List (ZMod N)) (hn : xs.Nodup) : ∀ (l : List (ZMod N × ZMod N)) (pre : List (ZMod N)) (s : ZMod N),
    pre ++ l.map Prod.fst = xs → sums xs l pre.length s = .ok (s + (l.map fun p => p.2 * weight xs p.1).sum)
  | [], pre, s, _ => by simp [sums]
  | (x, y) :: l, pre, s, h => by
    have ht := times_weight pre (l.map Prod.fst) x (by rw [List.map_cons] at h; rw [h]; exact hn)
    rw [List.map_cons] at h
    simp only at h
    rw [sums]
    rw [h] at ht
    rw [ht, Res.bind_ok]
    have := sums_eq xs hn l (pre ++ [x]) (s + y * weight xs x) (by rw [← h]; simp)
    rw [List.length_append, List.length_singleton] at this
    rw [this, List.map_cons, List.sum_cons, add_assoc]

/-- a repeated index makes the sum panic -/
theorem sums_panic (xs : List (ZMod N)) : ∀ (l : List (ZMod N × ZMod N)) (i : Nat) (s : ZMod N) (a b : Nat) (x : ZMod N), i ≤ a → a < b →
    xs[a]? = some x → xs[b]? = some x → (l.map Prod.fst)[a - i]? = some x → sums xs l i s = .panic
  | [], i, s, a, b, x, _, _, _, _, h => by simp at h
  | (z, y) :: l, i, s, a, b, x, hia, hab, ha, hb, h => by
    rw [sums]
    rcases Nat.eq_or_lt_of_le hia with rfl | hlt
    · simp only [Nat.sub_self, List.map_cons, List.getElem?_cons_zero, Option.some.injEq] at h
      subst h
      rw [times_panic z i xs 0 b 1 (by omega) hb]
      rfl
    · cases ht : times i z xs 0 1 with
      | ok t =>
        rw [Res.bind_ok]
        refine sums_panic xs l (i + 1) _ a b x hlt hab ha hb ?_
        rw [List.map_cons, show a - i = (a - (i + 1)) + 1 by omega, List.getElem?_cons_succ] at h
        exact h
      | err e =>
        exfalso
        revert ht
        have : ∀ (l : List (ZMod N)) (j : Nat) (t : ZMod N), times i z l j t ≠ .err e := by
          intro l
          induction l with
          | nil => intro j t h; cases h
          | cons w l ih =>
            intro j t
            rw [times]
            split
            · exact ih _ _
            · split
              · exact ih _ _
              · intro h; cases h
        exact this _ _ _
      | panic => rfl

/-- Lagrange interpolation at 0 -/
theorem lagrange (xs : List (ZMod N)) (hn : xs.Nodup) (f : (ZMod N)[X]) (hd : f.degree < xs.length) :
    (xs.map fun x => f.eval x * weight xs x).sum = f.eval 0 := by
  classical
  have hi : Set.InjOn (id : ZMod N → ZMod N) xs.toFinset := Function.injective_id.injOn
  have hf := Lagrange.eq_interpolate (s := xs.toFinset) (v := (id : ZMod N → ZMod N)) (f := f) hi (by rwa [List.toFinset_card_of_nodup hn])
  conv_rhs => rw [hf]
  rw [Lagrange.interpolate_apply, eval_finsetSum, ← List.sum_toFinset _ hn]
  refine Finset.sum_congr rfl fun x hx => ?_
  rw [eval_mul, eval_C, Lagrange.basis, eval_prod, weight]
  congr 1
  refine Finset.prod_congr rfl fun y hy => ?_
  rw [Lagrange.basisDivisor, eval_mul, eval_C, eval_sub, eval_X, eval_C, id, id, zero_sub, mul_comm]
  rw [← neg_sub y x, inv_neg, neg_mul_neg]

end field

/-! ## counter mode -/

theorem keyStream_length (block : Bytes → Fin 16 → UInt8) : ∀ (n : Nat) (ctr : Bytes), (keyStream block n ctr).length = 16 * n
  | 0, _ => rfl
  | n + 1, ctr => by
    rw [keyStream, List.length_append, List.length_ofFn, keyStream_length block n]
    omega

theorem xor_xor : ∀ (a k : Bytes), a.length ≤ k.length → List.zipWith (· ^^^ ·) (List.zipWith (· ^^^ ·) a k) k = a
  | [], _, _ => by simp
  | x :: a, [], h => by simp at h
  | x :: a, y :: k, h => by
    simp only [List.length_cons, Nat.add_le_add_iff_right] at h
    rw [List.zipWith_cons_cons, List.zipWith_cons_cons, xor_xor a k h, UInt8.xor_assoc, UInt8.xor_self, UInt8.xor_zero]

theorem xorKeyStream_length (block : Bytes → Fin 16 → UInt8) (iv t : Bytes) : (xorKeyStream block iv t).length = t.length := by
  rw [xorKeyStream, List.length_zipWith, keyStream_length]
  omega

theorem xorKeyStream_twice (block : Bytes → Fin 16 → UInt8) (iv t : Bytes) : xorKeyStream block iv (xorKeyStream block iv t) = t := by
  conv_lhs => rw [xorKeyStream, xorKeyStream_length]
  rw [xorKeyStream]
  exact xor_xor _ _ (by rw [keyStream_length]; omega)

/-- block by block, as the specification has it -/
theorem ctrDecrypt_eq (block : Bytes → Fin 16 → UInt8) : ∀ (n : Nat) (ctr t : Bytes),
    Spec.Recovery.ctrDecrypt block n ctr t = List.zipWith (· ^^^ ·) t (keyStream block n ctr)
  | 0, _, t => by simp [Spec.Recovery.ctrDecrypt, keyStream]
  | n + 1, ctr, t => by
    rw [Spec.Recovery.ctrDecrypt, keyStream, ctrDecrypt_eq block n]
    conv_rhs => rw [← List.take_append_drop 16 t]
    by_cases h : 16 ≤ t.length
    · rw [List.zipWith_append (by rw [List.length_take, List.length_ofFn]; omega)]
    · have h1 : t.take 16 = t := List.take_of_length_le (by omega)
      have h2 : t.drop 16 = [] := List.drop_eq_nil_of_le (by omega)
      rw [h1, h2, List.zipWith_nil_left, List.append_nil, List.append_nil]
      apply List.ext_getElem
      · simp only [List.length_zipWith, List.length_append, List.length_ofFn]; omega
      · intro i h3 h4
        simp only [List.getElem_zipWith]
        congr 1
        rw [List.getElem_append_left]

theorem unhex_hexEncode : ∀ b : Bytes, Spec.Recovery.unhex (hexEncode b) = some b
  | [] => rfl
  | x :: l => by
    have h : ∀ n, n < 16 → Spec.Recovery.unhexDigit (hexDigit n) = some n := by decide +kernel
    have hx := x.toNat_lt
    rw [hexEncode, Spec.Recovery.unhex, h _ (by omega), h _ (by omega), unhex_hexEncode l]
    simp only [Option.bind_eq_bind, Option.bind_some, Option.pure_def, Option.some.injEq, List.cons.injEq, and_true]
    rw [Nat.div_add_mod]
    simp

theorem toNat_zeros (k : Nat) (b : Bytes) : Bytes.toNat (List.replicate k 0 ++ b) = Bytes.toNat b := by
  rw [Bytes.toNat_append]
  have : Bytes.toNat (List.replicate k 0) = 0 := by
    induction k with
    | zero => rfl
    | succ k ih => rw [List.replicate_succ', Bytes.toNat_append_one, ih]; rfl
  rw [this]; simp

theorem toNat_serialize (n : Nat) : Bytes.toNat (serialize n) = n := by
  rw [serialize, toNat_zeros, Bytes.toNat_ofNat]

end Verif.Recovery
