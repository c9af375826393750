import Verif.Spec.Ripemd160
import Verif.Model.Ripemd160
import Verif.Lemmas.Sha256

set_option linter.unusedSectionVars false

/-! # The model of RIPEMD-160 computes it -/
namespace Verif.Ripemd160
open Verif.Spec.Ripemd160 (Word Vars)
open Verif.Sha256 (blocks blocks_length blocks_get blocks_flatten len_toNat)

/-! ## words -/

theorem rotl_eq (x : UInt32) (k : UInt32) (h0 : 0 < k.toNat) (h : k.toNat < 32) : (rotl x k).toBitVec = x.toBitVec.rotateLeft k.toNat := by
  have hk : (32 - k).toNat = 32 - k.toNat := by
    rw [UInt32.toNat_sub_of_le]
    · rfl
    · rw [UInt32.le_iff_toNat_le]
      show k.toNat ≤ 32
      omega
  unfold rotl
  rw [BitVec.rotateLeft_def, Nat.mod_eq_of_lt h]
  rw [UInt32.toBitVec_or, UInt32.toBitVec_shiftLeft, UInt32.toBitVec_shiftRight]
  congr 1
  · show x.toBitVec <<< (k % 32).toBitVec = _
    rw [BitVec.shiftLeft_eq']
    congr 1
    show (k % 32).toNat = _
    rw [UInt32.toNat_mod]
    exact Nat.mod_eq_of_lt h
  · show x.toBitVec >>> ((32 - k) % 32).toBitVec = _
    rw [BitVec.ushiftRight_eq']
    congr 1
    show ((32 - k) % 32).toNat = _
    rw [UInt32.toNat_mod, hk]
    have e : (32 : UInt32).toNat = 32 := rfl
    rw [e]
    exact Nat.mod_eq_of_lt (by omega)

theorem word_big (p q r s : UInt8) : word p q r s = Sha256.word s r q p := by
  unfold word Sha256.word
  generalize p.toUInt32 = p, q.toUInt32 <<< 8 = q, r.toUInt32 <<< 16 = r, s.toUInt32 <<< 24 = s
  apply UInt32.eq_of_toBitVec_eq
  simp only [UInt32.toBitVec_or]
  ac_rfl

theorem word_eq (p q r s : UInt8) : (word p q r s).toBitVec = BitVec.ofNat 32 (Bytes.toNat [s, r, q, p]) := by
  rw [word_big, Sha256.word_eq]

theorem words_get : ∀ (b : Bytes) (t : Nat), 4 * t + 4 ≤ b.length → ((words b).getD t 0).toBitVec = Spec.Ripemd160.read b t
  | [], t, h => by simp at h
  | [_], t, h => by simp at h
  | [_, _], t, h => by simp at h
  | [_, _, _], t, h => by simp at h
  | p :: q :: r :: s :: l, 0, _ => by
    simp only [words, List.getD_cons_zero, Spec.Ripemd160.read, Nat.mul_zero, List.drop_zero]
    rw [word_eq]
    simp
  | p :: q :: r :: s :: l, t + 1, h => by
    have := words_get l t (by simp at h; omega)
    simp only [words, List.getD_cons_succ, this, Spec.Ripemd160.read]
    rw [show 4 * (t + 1) = 4 * t + 1 + 1 + 1 + 1 by ring]
    simp

/-! ## a block -/

/-- the words of a state -/
def State.vars (s : State) : Vars := ⟨s.a.toBitVec, s.b.toBitVec, s.c.toBitVec, s.d.toBitVec, s.e.toBitVec⟩

/-- the constants -/
def kL (t : Nat) : Word := ([0, 0x5a827999, 0x6ed9eba1, 0x8f1bbcdc, 0xa953fd4e] : List Word).getD t 0
def kR (t : Nat) : Word := ([0x50a28be6, 0x5c4dd124, 0x6d703ef3, 0x7a6d76e9, 0] : List Word).getD t 0

theorem tableL : ∀ j < 80, nL.getD j 0 = Spec.Ripemd160.r j ∧ (rL.getD j 0).toNat = Spec.Ripemd160.shift j (Spec.Ripemd160.r j) ∧
    Spec.Ripemd160.r j < 16 ∧ 0 < (rL.getD j 0).toNat ∧ (rL.getD j 0).toNat < 32 := by decide +kernel

theorem tableR : ∀ j < 80, nR.getD j 0 = Spec.Ripemd160.r' j ∧ (rR.getD j 0).toNat = Spec.Ripemd160.shift j (Spec.Ripemd160.r' j) ∧
    Spec.Ripemd160.r' j < 16 ∧ 0 < (rR.getD j 0).toNat ∧ (rR.getD j 0).toNat < 32 := by decide +kernel

theorem step_eq (s : State) (f x k r : UInt32) (h0 : 0 < r.toNat) (h : r.toNat < 32) :
    (step s f x k r).vars = Spec.Ripemd160.turn r.toNat x.toBitVec k.toBitVec f.toBitVec s.vars := by
  simp only [step, State.vars, Spec.Ripemd160.turn, UInt32.toBitVec_add]
  rw [rotl_eq _ _ h0 h, rotl_eq _ _ (by decide) (by decide)]
  simp only [UInt32.toBitVec_add]
  rfl

theorem stepL_eq (x : List UInt32) (X : Nat → Word) (hX : ∀ t < 16, (x.getD t 0).toBitVec = X t) (s : State) (j : Nat) (hj : j < 80) :
    (stepL x s j).vars = Spec.Ripemd160.turn (Spec.Ripemd160.shift j (Spec.Ripemd160.r j)) (X (Spec.Ripemd160.r j)) (kL (j / 16))
      (Spec.Ripemd160.f j s.vars.b s.vars.c s.vars.d) s.vars := by
  obtain ⟨h1, h2, h3, h4, h5⟩ := tableL j hj
  unfold stepL
  rw [step_eq _ _ _ _ _ h4 h5, h1, hX _ h3, h2]
  unfold Spec.Ripemd160.f
  by_cases c1 : j < 16
  · simp only [if_pos c1, if_pos (show j ≤ 15 by omega), show j / 16 = 0 by omega]; rfl
  by_cases c2 : j < 32
  · simp only [if_neg c1, if_pos c2, if_neg (show ¬ j ≤ 15 by omega), if_pos (show j ≤ 31 by omega), show j / 16 = 1 by omega]; rfl
  by_cases c3 : j < 48
  · simp only [if_neg c1, if_neg c2, if_pos c3, if_neg (show ¬ j ≤ 15 by omega), if_neg (show ¬ j ≤ 31 by omega), if_pos (show j ≤ 47 by omega),
      show j / 16 = 2 by omega]; rfl
  by_cases c4 : j < 64
  · simp only [if_neg c1, if_neg c2, if_neg c3, if_pos c4, if_neg (show ¬ j ≤ 15 by omega), if_neg (show ¬ j ≤ 31 by omega), if_neg (show ¬ j ≤ 47 by omega),
      if_pos (show j ≤ 63 by omega), show j / 16 = 3 by omega]; rfl
  · simp only [if_neg c1, if_neg c2, if_neg c3, if_neg c4, if_neg (show ¬ j ≤ 15 by omega), if_neg (show ¬ j ≤ 31 by omega), if_neg (show ¬ j ≤ 47 by omega),
      if_neg (show ¬ j ≤ 63 by omega), show j / 16 = 4 by omega]; rfl

theorem stepR_eq (x : List UInt32) (X : Nat → Word) (hX : ∀ t < 16, (x.getD t 0).toBitVec = X t) (s : State) (j : Nat) (hj : j < 80) :
    (stepR x s j).vars = Spec.Ripemd160.turn (Spec.Ripemd160.shift j (Spec.Ripemd160.r' j)) (X (Spec.Ripemd160.r' j)) (kR (j / 16))
      (Spec.Ripemd160.f (79 - j) s.vars.b s.vars.c s.vars.d) s.vars := by
  obtain ⟨h1, h2, h3, h4, h5⟩ := tableR j hj
  unfold stepR
  rw [step_eq _ _ _ _ _ h4 h5, h1, hX _ h3, h2]
  unfold Spec.Ripemd160.f
  by_cases c1 : j < 16
  · simp only [if_pos c1, if_neg (show ¬ 79 - j ≤ 15 by omega), if_neg (show ¬ 79 - j ≤ 31 by omega), if_neg (show ¬ 79 - j ≤ 47 by omega),
      if_neg (show ¬ 79 - j ≤ 63 by omega), show j / 16 = 0 by omega]; rfl
  by_cases c2 : j < 32
  · simp only [if_neg c1, if_pos c2, if_neg (show ¬ 79 - j ≤ 15 by omega), if_neg (show ¬ 79 - j ≤ 31 by omega), if_neg (show ¬ 79 - j ≤ 47 by omega),
      if_pos (show 79 - j ≤ 63 by omega), show j / 16 = 1 by omega]; rfl
  by_cases c3 : j < 48
  · simp only [if_neg c1, if_neg c2, if_pos c3, if_neg (show ¬ 79 - j ≤ 15 by omega), if_neg (show ¬ 79 - j ≤ 31 by omega), if_pos (show 79 - j ≤ 47 by omega),
      show j / 16 = 2 by omega]; rfl
  by_cases c4 : j < 64
  · simp only [if_neg c1, if_neg c2, if_neg c3, if_pos c4, if_neg (show ¬ 79 - j ≤ 15 by omega), if_pos (show 79 - j ≤ 31 by omega),
      show j / 16 = 3 by omega]; rfl
  · simp only [if_neg c1, if_neg c2, if_neg c3, if_neg c4, if_pos (show 79 - j ≤ 15 by omega), show j / 16 = 4 by omega]; rfl

theorem left_eq (x : List UInt32) (X : Nat → Word) (hX : ∀ t < 16, (x.getD t 0).toBitVec = X t) (s : State) (n : Nat) (hn : n ≤ 80) :
    ((List.range n).foldl (stepL x) s).vars = Spec.Ripemd160.left kL X n s.vars := by
  induction n with
  | zero => rfl
  | succ n ih =>
    rw [List.range_succ, List.foldl_append, List.foldl_cons, List.foldl_nil, stepL_eq x X hX _ n (by omega), ih (by omega)]
    rfl

theorem right_eq (x : List UInt32) (X : Nat → Word) (hX : ∀ t < 16, (x.getD t 0).toBitVec = X t) (s : State) (n : Nat) (hn : n ≤ 80) :
    ((List.range n).foldl (stepR x) s).vars = Spec.Ripemd160.right kR X n s.vars := by
  induction n with
  | zero => rfl
  | succ n ih =>
    rw [List.range_succ, List.foldl_append, List.foldl_cons, List.foldl_nil, stepR_eq x X hX _ n (by omega), ih (by omega)]
    rfl

theorem combine_eq (s l r : State) : (combine s l r).vars = Spec.Ripemd160.combine s.vars l.vars r.vars := by
  simp only [combine, State.vars, Spec.Ripemd160.combine, UInt32.toBitVec_add]

theorem block_eq (s : State) (p : Bytes) (X : Nat → Word) (hX : ∀ t < 16, ((words p).getD t 0).toBitVec = X t) :
    (block s p).vars = Spec.Ripemd160.combine s.vars (Spec.Ripemd160.left kL X 80 s.vars) (Spec.Ripemd160.right kR X 80 s.vars) := by
  rw [block, combine_eq, left_eq _ X hX _ _ (le_refl _), right_eq _ X hX _ _ (le_refl _)]

theorem block_words (b : Bytes) (i t : Nat) (ht : t < 16) :
    Spec.Ripemd160.read ((b.drop (64 * i)).take 64) t = Spec.Ripemd160.read b (16 * i + t) := by
  unfold Spec.Ripemd160.read
  rw [List.drop_take, List.drop_drop, List.take_take, show 64 * i + 4 * t = 4 * (16 * i + t) by ring, min_eq_left (by omega)]

theorem init_eq : init.vars = Spec.Ripemd160.iv := by decide +kernel

theorem hash_eq (b : Bytes) (n : Nat) (h : b.length = 64 * n) (i : Nat) (hi : i ≤ n) :
    (((blocks n b).take i).foldl block init).vars = Spec.Ripemd160.hash kL kR b i := by
  induction i with
  | zero => exact init_eq
  | succ i ih =>
    rw [List.take_add_one, blocks_get n b i (by omega), Option.toList_some, List.foldl_append, List.foldl_cons, List.foldl_nil, Spec.Ripemd160.hash,
      block_eq _ _ (fun t => Spec.Ripemd160.read b (16 * i + t)) (fun t ht => by rw [words_get _ _ (by simp; omega), block_words b i t ht]), ih (by omega)]

/-! ## padding and output -/

theorem le64_reverse (n : UInt64) : (le64 n).reverse = Sha256.be64 n := rfl

theorem le64_length (n : UInt64) : (le64 n).length = 8 := rfl

theorem padding_length (len : Nat) : (len + (padding len).length) % 64 = 0 ∧ 9 ≤ (padding len).length := by
  unfold padding
  simp only [List.length_append, List.length_cons, List.length_replicate, le64_length]
  split <;> omega

theorem padded (x : Bytes) (h : x.length < 2 ^ 61) : Spec.Ripemd160.Padded x (x ++ padding x.length) := by
  refine ⟨(if x.length % 64 < 56 then 55 - x.length % 64 else 119 - x.length % 64), le64 (UInt64.ofNat x.length <<< 3), ?_, ?_, ?_, rfl, ?_⟩
  · split <;> omega
  · split <;> omega
  · simp [padding]
  · rw [le64_reverse, Sha256.be64_toNat, len_toNat _ h]

theorem le32_read (x : UInt32) : BitVec.ofNat 32 (Bytes.toNat (le32 x).reverse) = x.toBitVec := Sha256.be32_read x

theorem bytes_length (s : State) : s.bytes.length = 20 := rfl

theorem bytes_read (s : State) : Spec.Ripemd160.read s.bytes 0 = s.vars.a ∧ Spec.Ripemd160.read s.bytes 1 = s.vars.b ∧ Spec.Ripemd160.read s.bytes 2 = s.vars.c ∧
    Spec.Ripemd160.read s.bytes 3 = s.vars.d ∧ Spec.Ripemd160.read s.bytes 4 = s.vars.e :=
  ⟨le32_read _, le32_read _, le32_read _, le32_read _, le32_read _⟩

end Verif.Ripemd160
