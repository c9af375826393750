import Verif.Model.Curve
import Verif.Lemmas.Bytes
import Mathlib.NumberTheory.LucasPrimality
import Mathlib.Tactic.NormNum.Prime
import Mathlib.FieldTheory.Finite.Basic

/-!
# The field prime of secp256k1 is prime, and square roots in its field

The primality proof is a chain of certificates: Lucas for `primeR` (all prime factors of `primeR - 1` are known), Pocklington for `primeQ` and
then for the field prime. The powers are computed by the kernel.
-/
namespace Verif.Curve
theorem powMod_eq (m : Nat) : ∀ fuel a e, e < 2 ^ fuel → powMod m fuel a e = a ^ e % m := by
  intro fuel
  induction fuel with
  | zero => intro a e h; have : e = 0 := by simpa using h
            subst this; simp [powMod]
  | succ n ih =>
    intro a e h
    unfold powMod
    by_cases h0 : e = 0
    · simp [h0]
    rw [if_neg h0]
    have hlt : e / 2 < 2 ^ n := by rw [pow_succ] at h; omega
    rw [ih _ _ hlt]
    have hp : (a * a % m) ^ (e / 2) % m = a ^ (2 * (e / 2)) % m := by
      rw [← Nat.pow_mod, ← pow_two, ← pow_mul]
    simp only [hp]
    by_cases h1 : e % 2 = 1
    · rw [if_pos h1, Nat.mul_mod, Nat.mod_mod, ← Nat.mul_mod, ← pow_succ']
      congr 2; omega
    · rw [if_neg h1]; congr 2; omega

/-- Pocklington's criterion with one large prime factor of `n - 1` -/
theorem pocklington {n a r k : Nat} (hn : n = k * r + 1) (hr : r.Prime) (hbig : n < r * r)
    (h1 : a ^ (n - 1) % n = 1) (h2 : Nat.gcd (a ^ k % n + (n - 1)) n = 1) (hn2 : 1 < n) : n.Prime := by
  by_contra hc
  obtain ⟨d, hd, hdn, hle⟩ : ∃ d, d.Prime ∧ d ∣ n ∧ d * d ≤ n := by
    refine ⟨n.minFac, Nat.minFac_prime (by omega), Nat.minFac_dvd n, ?_⟩
    have := Nat.minFac_sq_le_self (by omega) hc
    rwa [pow_two] at this
  have := Fact.mk hd
  have e1 : (a : ZMod d) ^ (k * r) = 1 := by
    have : ((a ^ (n - 1) % n : Nat) : ZMod d) = 1 := by rw [h1]; simp
    have hh : ((a ^ (n - 1) : Nat) : ZMod d) = 1 := by
      rw [← Nat.mod_add_div (a ^ (n - 1)) n, Nat.cast_add, this, Nat.cast_mul, (ZMod.natCast_eq_zero_iff n d).2 hdn]; simp
    have hk : n - 1 = k * r := by omega
    rw [hk] at hh; simpa using hh
  have e2 : (a : ZMod d) ^ k ≠ 1 := by
    intro h
    have hz : ((a ^ k % n + (n - 1) : Nat) : ZMod d) = 0 := by
      have : ((a ^ k % n : Nat) : ZMod d) = ((a ^ k : Nat) : ZMod d) := by
        conv_rhs => rw [← Nat.mod_add_div (a ^ k) n, Nat.cast_add, Nat.cast_mul, (ZMod.natCast_eq_zero_iff n d).2 hdn]
        simp
      rw [Nat.cast_add, this, Nat.cast_pow, h]
      have : ((1 + (n - 1) : Nat) : ZMod d) = 0 := by
        rw [show 1 + (n - 1) = n by omega]; exact (ZMod.natCast_eq_zero_iff n d).2 hdn
      simpa using this
    have := Nat.dvd_gcd ((ZMod.natCast_eq_zero_iff _ d).1 hz) hdn
    rw [h2] at this
    exact hd.one_lt.ne' (Nat.dvd_one.1 this)
  have ho : orderOf ((a : ZMod d) ^ k) = r := by
    apply orderOf_eq_prime _ e2 (hp := ⟨hr⟩)
    rw [← pow_mul, e1]
  have hne : (a : ZMod d) ^ k ≠ 0 := by
    intro h
    have : ((a : ZMod d) ^ k) ^ r = 1 := by rw [← pow_mul, e1]
    rw [h, zero_pow hr.ne_zero] at this
    exact zero_ne_one this
  have hdvd : r ∣ d - 1 := by
    rw [← ho]; exact orderOf_dvd_of_pow_eq_one (ZMod.pow_card_sub_one_eq_one hne)
  have hle2 := Nat.le_of_dvd (by have := hd.two_le; omega) hdvd
  have : r * r ≤ d * d := Nat.mul_le_mul (by omega) (by omega)
  omega


/-- Lucas' criterion with a list of the prime factors of `n - 1` -/
theorem lucas {n a : Nat} (fs : List Nat) (hn : 1 < n) (hf : fs.prod = n - 1) (hp : ∀ q ∈ fs, q.Prime)
    (h1 : a ^ (n - 1) % n = 1) (h2 : ∀ q ∈ fs, a ^ ((n - 1) / q) % n ≠ 1) : n.Prime := by
  have cast : ∀ e, (a : ZMod n) ^ e = 1 ↔ a ^ e % n = 1 := by
    intro e
    have := ZMod.natCast_eq_natCast_iff (a ^ e) 1 n
    rw [Nat.ModEq, Nat.mod_eq_of_lt hn] at this
    rw [← this]; simp
  refine lucas_primality n (a : ZMod n) ((cast _).2 h1) ?_
  intro q hq hd he
  rw [← hf] at hd
  obtain ⟨x, hx, hxd⟩ := (Prime.dvd_prod_iff hq.prime).1 hd
  have := (Nat.prime_dvd_prime_iff_eq hq (hp x hx)).1 hxd
  subst this
  exact h2 q hx ((cast _).1 he)

def rFactors : List Nat := [2, 2, 2, 7, 7, 11, 1627, 2657, 4423, 41201, 96557, 7240687, 107590001]

def primeR : Nat := 255515944373312847190720520512484175977
def primeQ : Nat := 205115282021455665897114700593932402728804164701536103180137503955397371

theorem pm (m a e r : Nat) (h : e < 2 ^ 256) (hc : powMod m 256 a e = r) : a ^ e % m = r := by
  rw [← powMod_eq m 256 a e h, hc]

theorem prime_r : primeR.Prime := by
  have hpr : ∀ q ∈ rFactors, q.Prime := by
    intro q hq
    simp only [rFactors, List.mem_cons, List.not_mem_nil, or_false] at hq
    rcases hq with h | h | h | h | h | h | h | h | h | h | h | h | h <;> subst h <;> norm_num
  refine lucas (a := 3) rFactors (by decide +kernel) (by decide +kernel) hpr ?_ ?_
  · exact pm _ _ _ _ (by decide +kernel) (by decide +kernel)
  · intro q hq h
    have hall : ∀ q ∈ rFactors, powMod primeR 256 3 ((primeR - 1) / q) ≠ 1 := by decide +kernel
    apply hall q hq
    rw [powMod_eq _ _ _ _ (lt_of_le_of_lt (Nat.div_le_self _ _) (by decide +kernel)), h]

theorem prime_q : primeQ.Prime := by
  refine pocklington (a := 2) (r := primeR) (k := 802749442992798076634733441528810) (by decide +kernel) prime_r (by decide +kernel) ?_ ?_ (by decide +kernel)
  · exact pm _ _ _ _ (by decide +kernel) (by decide +kernel)
  · rw [← powMod_eq _ 256 _ _ (by decide +kernel)]; decide +kernel

theorem prime_fieldP : fieldP.Prime := by
  refine pocklington (a := 2) (r := primeQ) (k := 564522) (by decide +kernel) prime_q (by decide +kernel) ?_ ?_ (by decide +kernel)
  · exact pm _ _ _ _ (by decide +kernel) (by decide +kernel)
  · rw [← powMod_eq _ 256 _ _ (by decide +kernel)]; decide +kernel

/-- two numbers with the same square in the field are equal or add up to zero -/
theorem sq_eq {a b : Nat} (h : a * a % fieldP = b * b % fieldP) : a % fieldP = b % fieldP ∨ (a + b) % fieldP = 0 := by
  have := Fact.mk prime_fieldP
  have h' : ((a * a : Nat) : ZMod fieldP) = ((b * b : Nat) : ZMod fieldP) := (ZMod.natCast_eq_natCast_iff _ _ _).2 h
  push_cast at h'
  rcases mul_self_eq_mul_self_iff.1 h' with h | h
  · exact .inl ((ZMod.natCast_eq_natCast_iff _ _ _).1 h)
  · right
    have : ((a + b : Nat) : ZMod fieldP) = 0 := by push_cast; rw [h]; simp
    exact Nat.mod_eq_zero_of_dvd ((ZMod.natCast_eq_zero_iff _ _).1 this)

/-- the power that is computed is a square root of every square -/
theorem root_sq (c y : Nat) (hc : y * y % fieldP = c) :
    powMod fieldP 256 c ((fieldP + 1) / 4) * powMod fieldP 256 c ((fieldP + 1) / 4) % fieldP = c := by
  have := Fact.mk prime_fieldP
  rw [powMod_eq _ _ _ _ (by decide +kernel)]
  have hlt : c < fieldP := hc ▸ Nat.mod_lt _ (by decide +kernel)
  have key : ((c ^ ((fieldP + 1) / 4) * c ^ ((fieldP + 1) / 4) : Nat) : ZMod fieldP) = (c : ZMod fieldP) := by
    have hcz : (c : ZMod fieldP) = (y : ZMod fieldP) * y := by
      rw [← hc, ZMod.natCast_mod]; push_cast; rfl
    push_cast
    rw [← pow_add, hcz, ← pow_two, ← pow_mul]
    have he : 2 * ((fieldP + 1) / 4 + (fieldP + 1) / 4) = fieldP + 1 := by decide +kernel
    rw [he, pow_succ, ZMod.pow_card, pow_two]
  have := (ZMod.natCast_eq_natCast_iff _ _ _).1 key
  rw [Nat.ModEq, Nat.mod_eq_of_lt hlt] at this
  rw [← Nat.mul_mod]; exact this

theorem fieldP_odd : fieldP % 2 = 1 := by decide +kernel
theorem fieldP_pos : 0 < fieldP := by decide +kernel

/-- decompression finds the y of a point from its x and the parity of y -/
theorem decompress_point {x y : Nat} (hy : y < fieldP) (h : isOnCurve x y = true) : decompress x (decide (y % 2 = 1)) = some y := by
  have h' : y * y % fieldP = (x * x * x + 7) % fieldP := by simpa [isOnCurve] using h
  have hr := root_sq _ y h'
  have hlt : powMod fieldP 256 ((x * x * x + 7) % fieldP) ((fieldP + 1) / 4) < fieldP := by
    rw [powMod_eq _ _ _ _ (by decide +kernel)]; exact Nat.mod_lt _ fieldP_pos
  unfold decompress
  dsimp only
  generalize powMod fieldP 256 ((x * x * x + 7) % fieldP) ((fieldP + 1) / 4) = r at hr hlt ⊢
  have hodd := fieldP_odd
  have hyr : (if decide (y % 2 = 1) = decide (r % 2 = 1) then r else fieldP - r) = y := by
    rcases sq_eq (hr.trans h'.symm) with he | he
    · rw [Nat.mod_eq_of_lt hlt, Nat.mod_eq_of_lt hy] at he
      rw [he, if_pos rfl]
    · obtain ⟨k, hk⟩ := Nat.dvd_of_mod_eq_zero he
      have hk2 : k < 2 := by
        by_contra hc
        have : fieldP * 2 ≤ fieldP * k := Nat.mul_le_mul_left _ (by omega)
        omega
      interval_cases k
      · have : r = y := by omega
        rw [this, if_pos rfl]
      · have : ¬ (decide (y % 2 = 1) = decide (r % 2 = 1)) := by
          intro hd
          have hd' : y % 2 = 1 ↔ r % 2 = 1 := by simpa using hd
          omega
        rw [if_neg this]; omega
  rw [hyr, if_pos h', if_pos rfl]

theorem toNat_padded (b : Bytes) : Bytes.toNat (padded b) = Bytes.toNat b := by
  unfold padded
  rw [Bytes.toNat_append]
  have : ∀ n, Bytes.toNat (List.replicate n 0) = 0 := by
    intro n
    induction n with
    | zero => rfl
    | succ n ih => rw [List.replicate_succ', Bytes.toNat_append_one, ih]; rfl
  rw [this]; omega

/-- `SetBytes` reads a short number from few bytes -/
theorem length_ofNat {n : Nat} (m : Nat) (h : n < 256 ^ m) : (Bytes.ofNat n).length ≤ m := by
  unfold Bytes.ofNat Bytes.digitsLE
  rw [List.length_reverse]
  have : ∀ fuel m n, n < 256 ^ m → (Bytes.digitsAux fuel n).length ≤ m := by
    intro fuel
    induction fuel with
    | zero => intro m n _; simp [Bytes.digitsAux]
    | succ f ih =>
      intro m n h
      unfold Bytes.digitsAux
      split
      · simp
      · rename_i h0
        cases m with
        | zero => simp at h; omega
        | succ m =>
          rw [List.length_cons]
          have := ih m (n / 256) (by rw [pow_succ] at h; omega)
          omega
  exact this n m n h

theorem length_padded {n : Nat} (h : n < fieldP) : (padded (Bytes.ofNat n)).length = 32 := by
  unfold padded
  have h1 : (Bytes.ofNat n).length ≤ 32 := length_ofNat 32 (h.trans (by decide +kernel))
  rw [List.length_append, List.length_replicate]; omega

/-- parsing the compressed form of a point gives the point -/
theorem parse_serialize (pt : Point) (hx : pt.x < fieldP) (hy : pt.y < fieldP) (h : isOnCurve pt.x pt.y = true) :
    parsePubKey (serializeCompressed pt) = some pt := by
  have hd := decompress_point hy h
  have hl := length_padded hx
  unfold serializeCompressed parsePubKey
  by_cases ho : pt.y % 2 = 1
  · simp only [ho, decide_true] at hd
    simp [ho, hl, toNat_padded, Bytes.toNat_ofNat, hd, checked, hx, hy, h]
  · simp only [ho, decide_false] at hd
    simp [ho, hl, toNat_padded, Bytes.toNat_ofNat, hd, checked, hx, hy, h]

/-- what is parsed is a point of the curve with reduced coordinates -/
theorem parse_onCurve {b : Bytes} {pt : Point} (h : parsePubKey b = some pt) : pt.x < fieldP ∧ pt.y < fieldP ∧ isOnCurve pt.x pt.y = true := by
  have hc : ∀ x y, checked x y = some pt → pt.x < fieldP ∧ pt.y < fieldP ∧ isOnCurve pt.x pt.y = true := by
    intro x y hc
    unfold checked at hc
    split at hc
    · split at hc
      · split at hc
        · injection hc with hc; subst hc
          exact ⟨‹_›, ‹_›, ‹_›⟩
        · cases hc
      · cases hc
    · cases hc
  unfold parsePubKey at h
  split at h
  · cases h
  · dsimp only at h
    split at h
    · split at h
      · exact hc _ _ h
      · cases h
    · split at h
      · split at h
        · split at h
          · exact hc _ _ h
          · cases h
        · cases h
      · cases h

end Verif.Curve
