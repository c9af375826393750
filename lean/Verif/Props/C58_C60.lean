import Mathlib.Tactic.LinearCombination
import Mathlib.Tactic.NormNum.Prime
import Verif.Lemmas.Recovery
import Verif.Props.C01

/-! # C58, C59, C60, C83: recovering and exporting the private key of a pool -/
set_option linter.unusedSectionVars false
namespace Verif.Props.Recovery
open Verif.Go Verif.Recovery Verif.Spec.Recovery Polynomial

section main
variable {N : ℕ} [Fact N.Prime] {F K : Type} (read : F → Option (ZMod N × ZMod N)) (pubKey : Nat → K) (lib : Lib) (r : Rand)

theorem numbers_map (th : Int) (f : (ZMod N)[X]) : ∀ xs : List (ZMod N),
    numbers (xs.map fun x => (⟨th, some x, some (f.eval x)⟩ : Share N)) = some (xs.map fun x => (x, f.eval x))
  | [] => rfl
  | x :: xs => by
    rw [List.map_cons, numbers, numbers_map th f xs]
    rfl

/-- C58: the reconstruction returns the secret `f 0` for all prime orders, all polynomials of degree at most `t` and any `t + 1` or more shares
with distinct indices, in any order. -/
theorem c58_reconstruct (t : Nat) (f : (ZMod N)[X]) (hf : Sharing t f) (xs : List (ZMod N)) (hd : xs.Nodup) (hl : t < xs.length) (th : Int)
    (hth : th ≤ xs.length) : ReConstruct (xs.map fun x => (⟨th, some x, some (f.eval x)⟩ : Share N)) = .ok (f.eval 0) := by
  cases xs with
  | nil => simp at hl
  | cons x xs =>
    rw [List.map_cons]
    unfold ReConstruct
    simp only
    rw [if_neg (by simp only [List.length_cons, List.length_map] at hth ⊢; omega)]
    have hnum := numbers_map th f (x :: xs)
    rw [List.map_cons] at hnum
    rw [hnum]
    simp only
    have hm : ((x :: xs).map fun x => (x, f.eval x)).map Prod.fst = x :: xs := by rw [List.map_map]; exact List.map_id _
    rw [hm]
    have := sums_eq (x :: xs) hd ((x :: xs).map fun x => (x, f.eval x)) [] 0 (by rw [List.nil_append, hm])
    rw [List.length_nil] at this
    rw [this, zero_add, List.map_map]
    have hlag := lagrange (x :: xs) hd f (lt_of_le_of_lt degree_le_natDegree (by exact_mod_cast lt_of_le_of_lt hf hl))
    exact congrArg _ hlag

/-- C58: when an index occurs twice among the shares the tool crashes; it does not invent a key. -/
theorem c58_duplicates (f : (ZMod N)[X]) (xs : List (ZMod N)) (hd : ¬ xs.Nodup) (th : Int) (hth : th ≤ xs.length) :
    ReConstruct (xs.map fun x => (⟨th, some x, some (f.eval x)⟩ : Share N)) = .panic := by
  cases xs with
  | nil => simp at hd
  | cons x xs =>
    rw [List.map_cons]
    unfold ReConstruct
    simp only
    rw [if_neg (by simp only [List.length_cons, List.length_map] at hth ⊢; omega)]
    have hnum := numbers_map th f (x :: xs)
    rw [List.map_cons] at hnum
    rw [hnum]
    simp only
    have hm : ((x :: xs).map fun x => (x, f.eval x)).map Prod.fst = x :: xs := by rw [List.map_map]; exact List.map_id _
    rw [hm]
    generalize x :: xs = l at hd hm
    rw [List.nodup_iff_getElem?_ne_getElem?] at hd
    push Not at hd
    obtain ⟨a, b, hab, hb, he⟩ := hd
    refine sums_panic l _ 0 0 a b l[b] (Nat.zero_le _) hab ?_ (by simp [hb]) ?_
    · rw [he]; simp [hb]
    · rw [hm, Nat.sub_zero, he]; simp [hb]

theorem load_take (f : (ZMod N)[X]) (a b c : F) (rest : List F) (x y z : ZMod N) (ha : Holds read f a x) (hb : Holds read f b y)
    (hc : Holds read f c z) (th : Int) :
    (loadShares read th (a :: b :: c :: rest)).take 3 = [x, y, z].map fun x => (⟨th, some x, some (f.eval x)⟩ : Share N) := by
  unfold Holds at ha hb hc
  simp [loadShares, ha, hb, hc]

/-- the tool prints and exports what the first three shares give -/
theorem main_of (args : Args F) (a b c : F) (rest : List F) (hfiles : args.files = a :: b :: c :: rest) (v : ZMod N)
    (hv : ReConstruct ((loadShares read 2 (a :: b :: c :: rest)).take 3) = .ok v) :
    (∀ out, main read pubKey lib r args = .ok out → out.sk = v.val ∧ out.pk = pubKey v.val) ∧
    (args.exportPath = [] → main read pubKey lib r args = .ok ⟨v.val, pubKey v.val, none⟩) := by
  have h3 : 3 ≤ (loadShares read 2 (a :: b :: c :: rest)).length := by simp [loadShares]
  have hm : main read pubKey lib r args = if args.exportPath.length > 0 ∧ args.password.length ≥ 8 then
        match exportKeyStore lib r (serialize v.val) args.password with
        | .ok k => .ok ⟨v.val, pubKey v.val, some (args.exportPath, some k)⟩
        | .err _ => .ok ⟨v.val, pubKey v.val, some (args.exportPath, none)⟩
        | .panic => .panic
      else .ok ⟨v.val, pubKey v.val, none⟩ := by
    unfold main
    simp only [hfiles, Nat.cast_ofNat, show ((3 : ℤ) - 1) = 2 from rfl]
    rw [if_pos h3, hv]
    rfl
  rw [hm]
  refine ⟨fun out hout => ?_, fun he => ?_⟩
  · split at hout
    · split at hout
      · cases hout; exact ⟨rfl, rfl⟩
      · cases hout; exact ⟨rfl, rfl⟩
      · cases hout
    · cases hout; exact ⟨rfl, rfl⟩
  · rw [if_neg (by rw [he]; simp)]

/-- C58 for the tool, when three shares are enough (threshold at most 2): given at least three files whose first three hold shares with distinct
indices, the tool prints the secret and its public key. -/
theorem c58_tool_partial (t : Nat) (ht : t ≤ 2) (f : (ZMod N)[X]) (hf : Sharing t f) (args : Args F) (a b c : F) (rest : List F)
    (hfiles : args.files = a :: b :: c :: rest) (x y z : ZMod N) (ha : Holds read f a x) (hb : Holds read f b y) (hc : Holds read f c z)
    (hd : [x, y, z].Nodup) :
    (∀ out, main read pubKey lib r args = .ok out → out.sk = (f.eval 0).val ∧ out.pk = pubKey (f.eval 0).val) ∧
    (args.exportPath = [] → main read pubKey lib r args = .ok ⟨(f.eval 0).val, pubKey (f.eval 0).val, none⟩) := by
  refine main_of read pubKey lib r args a b c rest hfiles _ ?_
  rw [load_take read f a b c rest x y z ha hb hc]
  exact c58_reconstruct t f hf [x, y, z] hd (by simp; omega) 2 (by simp)

/-- C58: three shares are enough exactly for pools with at most four members. -/
theorem c58_pool_size (n : Nat) (hn : n ≤ 2 ^ 50) : (∃ t : Int, Threshold.GetThreshold n = .ok t ∧ t ≤ 2) ↔ n ≤ 4 := by
  obtain ⟨t, h1, h2, h3⟩ := Props.C01.threshold_bounds n (le_trans hn (by norm_num))
  constructor
  · rintro ⟨t', h, h'⟩
    rw [h1] at h
    cases h
    omega
  · intro h
    exact ⟨t, h1, by omega⟩

/-- what the tool computes from three shares of a polynomial of degree 3 -/
theorem reconstruct_cubic (f : (ZMod N)[X]) (hf : f.natDegree = 3) (xs : List (ZMod N)) (hl : xs.length = 3) (hd : xs.Nodup)
    (h0 : (0 : ZMod N) ∉ xs) (th : Int) (hth : th ≤ 3) :
    ∃ v, ReConstruct (xs.map fun x => (⟨th, some x, some (f.eval x)⟩ : Share N)) = .ok v ∧ v ≠ f.eval 0 := by
  classical
  have hf0 : f ≠ 0 := by rintro rfl; simp at hf
  have hlc : f.leadingCoeff ≠ 0 := leadingCoeff_ne_zero.2 hf0
  have hcard : xs.toFinset.card = 3 := by rw [List.toFinset_card_of_nodup hd, hl]
  let g := f - C f.leadingCoeff * Lagrange.nodal xs.toFinset (id : ZMod N → ZMod N)
  have hg : Sharing 2 g := by
    have hlt : g.degree < f.degree := by
      refine degree_sub_lt_left ?_ hf0 ?_
      · rw [degree_C_mul hlc, Lagrange.degree_nodal, hcard, degree_eq_natDegree hf0, hf]
      · rw [leadingCoeff_mul, leadingCoeff_C, Lagrange.nodal_monic.leadingCoeff, mul_one]
    rw [degree_eq_natDegree hf0, hf] at hlt
    have : g.degree ≤ (2 : ℕ) := Order.le_of_lt_succ (by exact_mod_cast hlt)
    exact natDegree_le_iff_degree_le.2 this
  have hev : ∀ x ∈ xs, f.eval x = g.eval x := by
    intro x hx
    have : (Lagrange.nodal xs.toFinset (id : ZMod N → ZMod N)).eval x = 0 := Lagrange.eval_nodal_at_node (v := id) (List.mem_toFinset.2 hx)
    simp only [g, eval_sub, eval_mul, eval_C, this, mul_zero, sub_zero]
  refine ⟨g.eval 0, ?_, ?_⟩
  · rw [List.map_congr_left (g := fun x => (⟨th, some x, some (g.eval x)⟩ : Share N)) (fun x hx => by rw [hev x hx])]
    exact c58_reconstruct 2 g hg xs hd (by omega) th (by rw [hl]; exact hth)
  · have hne : (Lagrange.nodal xs.toFinset (id : ZMod N → ZMod N)).eval 0 ≠ 0 :=
      Lagrange.eval_nodal_not_at_node fun i hi h => h0 (by rw [h]; exact List.mem_toFinset.1 hi)
    simp only [g, eval_sub, eval_mul, eval_C]
    intro h
    exact mul_ne_zero hlc hne (by linear_combination -h)

/-- C58 is false for pools with five or six members (threshold 3): whatever the files, from shares of a polynomial of degree 3 with
nonzero indices the tool never gets the secret. Giving four or more files does not help, and -n does not help. -/
theorem c58_wrong_for_larger_pools (f : (ZMod N)[X]) (hf : f.natDegree = 3) (args : Args F) (idx : F → ZMod N)
    (hh : ∀ file ∈ args.files, Holds read f file (idx file) ∧ idx file ≠ 0) (out : Out K) (ho : main read pubKey lib r args = .ok out) :
    out.sk ≠ (f.eval 0).val := by
  obtain ⟨n, ep, pw, files⟩ := args
  match files, hh with
  | [], _ => simp [main, loadShares] at ho
  | [_], _ => simp [main, loadShares] at ho
  | [_, _], _ => simp [main, loadShares] at ho
  | a :: b :: c :: rest, hh =>
    have ha := hh a (by simp)
    have hb := hh b (by simp)
    have hc := hh c (by simp)
    have hl := load_take read f a b c rest (idx a) (idx b) (idx c) ha.1 hb.1 hc.1 2
    by_cases hd : [idx a, idx b, idx c].Nodup
    · obtain ⟨v, hv, hne⟩ := reconstruct_cubic f hf [idx a, idx b, idx c] rfl hd (by simp [ha.2.symm, hb.2.symm, hc.2.symm]) 2 (by decide)
      have := (main_of read pubKey lib r ⟨n, ep, pw, a :: b :: c :: rest⟩ a b c rest rfl v (by rw [hl]; exact hv)).1 out ho
      rw [this.1]
      intro h
      exact hne (ZMod.val_injective N h)
    · exfalso
      have hp := c58_duplicates f [idx a, idx b, idx c] hd 2 (by simp)
      rw [← hl] at hp
      unfold main at ho
      simp only [Nat.cast_ofNat, show ((3 : ℤ) - 1) = 2 from rfl] at ho
      rw [hp] at ho
      split at ho <;> cases ho

/-- C58: from three shares of a pool with threshold 3 or more nobody can get the secret: another polynomial of the same pool size has the
same three shares and a different secret. -/
theorem c58_three_shares_do_not_suffice (t : Nat) (ht : 3 ≤ t) (f : (ZMod N)[X]) (hf : Sharing t f) (x y z : ZMod N) (h0 : x ≠ 0 ∧ y ≠ 0 ∧ z ≠ 0) :
    ∃ g : (ZMod N)[X], Sharing t g ∧ g.eval x = f.eval x ∧ g.eval y = f.eval y ∧ g.eval z = f.eval z ∧ g.eval 0 ≠ f.eval 0 := by
  refine ⟨f + (X - C x) * (X - C y) * (X - C z), ?_, by simp, by simp, by simp, ?_⟩
  · unfold Sharing at *
    refine (natDegree_add_le _ _).trans (max_le hf ?_)
    refine le_trans ?_ ht
    refine (natDegree_mul_le).trans ?_
    refine (Nat.add_le_add (natDegree_mul_le) (le_refl _)).trans ?_
    rw [natDegree_X_sub_C, natDegree_X_sub_C, natDegree_X_sub_C]
  · simp [h0]

/-- C58 is false for fewer than three files: the tool crashes, also for the pools of two and three members, whose threshold is 1. -/
theorem c58_needs_three_files (args : Args F) (hl : args.files.length < 3) : main read pubKey lib r args = .panic := by
  unfold main
  simp only
  rw [if_neg (by simp only [loadShares, List.length_map]; omega)]

/-- C58: a file that cannot be read among the first three makes the tool crash; it does not invent a key. -/
theorem c58_unreadable (args : Args F) (file : F) (hf : file ∈ args.files.take 3) (hr : read file = none) : main read pubKey lib r args = .panic := by
  have hnum : ∀ (th : Int) (l : List F), file ∈ l → numbers (loadShares read th l) = none := by
    intro th l
    induction l with
    | nil => intro h; cases h
    | cons a l ih =>
      intro h
      unfold loadShares at ih ⊢
      rw [List.map_cons, numbers]
      rcases List.mem_cons.1 h with rfl | h
      · simp [hr]
      · rw [ih h]
        split
        · rename_i h; cases h
        · rfl
  have hrec : ReConstruct ((loadShares read 2 args.files).take 3) = .panic ∨ ∃ e, ReConstruct ((loadShares read 2 args.files).take 3) = .err e := by
    have : (loadShares read 2 args.files).take 3 = loadShares read 2 (args.files.take 3) := by unfold loadShares; rw [List.map_take]
    rw [this]
    have hn := hnum 2 _ hf
    generalize loadShares read 2 (args.files.take 3) = l at hn
    cases l with
    | nil => exact .inl rfl
    | cons s l =>
      unfold ReConstruct
      simp only
      split
      · exact .inr ⟨_, rfl⟩
      · rw [hn]; exact .inl rfl
  unfold main
  simp only [Nat.cast_ofNat, show ((3 : ℤ) - 1) = 2 from rfl]
  split
  · rcases hrec with h | ⟨e, h⟩ <;> rw [h]
  · rfl

/-- C59 is false: the value of -n has no effect at all. -/
theorem c59_flag_ignored (args : Args F) (n : Option Int) : main read pubKey lib r { args with n := n } = main read pubKey lib r args := rfl

/-- C59, what holds: with -n 3 (or without -n, 3 being the default) the first three files are the ones used. -/
theorem c59_uses_three_partial (args args' : Args F) (h : args'.files = args.files.take 3) (hl : 3 ≤ args.files.length)
    (he : args'.exportPath = args.exportPath) (hp : args'.password = args.password) :
    main read pubKey lib r args' = main read pubKey lib r args := by
  unfold main
  have h1 : (loadShares read ((3 : ℕ) - 1) args'.files).take 3 = (loadShares read ((3 : ℕ) - 1) args.files).take 3 := by
    rw [h]; unfold loadShares
    rw [← List.map_take, ← List.map_take, List.take_take, Nat.min_self]
  have h2 : 3 ≤ (loadShares read ((3 : ℕ) - 1) args'.files).length := by rw [h]; simp [loadShares]; omega
  have h3 : 3 ≤ (loadShares read ((3 : ℕ) - 1) args.files).length := by simp [loadShares]; omega
  simp only [h1, he, hp]
  rw [if_pos h2, if_pos h3]

end main

section cipher
variable (lib : Lib) (r : Rand)

/-- C60: applying the cipher twice with the same key and iv gives the text back. -/
theorem c60_round_trip (aes : Bytes → Bytes → Fin 16 → UInt8) (key text iv c : Bytes) (h : aesCTRXOR aes key text iv = .ok c) :
    aesCTRXOR aes key c iv = .ok text := by
  unfold aesCTRXOR at h ⊢
  split at h
  · rename_i hk
    rw [if_pos hk]
    split at h
    · rename_i hi
      rw [if_pos hi]
      cases h
      rw [xorKeyStream_twice]
    · cases h
  · cases h

/-- C60: different texts have different cipher texts, of the same length as the text. -/
theorem c60_injective (aes : Bytes → Bytes → Fin 16 → UInt8) (key iv a b c d : Bytes) (ha : aesCTRXOR aes key a iv = .ok c)
    (hb : aesCTRXOR aes key b iv = .ok d) : (c = d ↔ a = b) ∧ c.length = a.length := by
  refine ⟨⟨?_, ?_⟩, ?_⟩
  · rintro rfl
    have h1 := c60_round_trip aes key a iv c ha
    rw [c60_round_trip aes key b iv c hb] at h1
    cases h1; rfl
  · rintro rfl
    rw [ha] at hb
    cases hb; rfl
  · unfold aesCTRXOR at ha
    split at ha
    · split at ha
      · cases ha
        exact xorKeyStream_length _ _ _
      · cases ha
    · cases ha

theorem incrRev_toNat : ∀ b : Bytes, (incrRev b).length = b.length ∧ Bytes.toNat (incrRev b).reverse = (Bytes.toNat b.reverse + 1) % 256 ^ b.length
  | [] => ⟨rfl, rfl⟩
  | x :: l => by
    obtain ⟨h1, h2⟩ := incrRev_toNat l
    have hlt := Bytes.toNat_lt l.reverse
    rw [List.length_reverse] at hlt
    have hx := x.toNat_lt
    have hpos : 0 < 256 ^ l.length := Nat.pow_pos (by decide)
    unfold incrRev
    by_cases hz : x + 1 = 0
    · have hx' : x = 255 := by
        have h0 := congrArg UInt8.toNat hz
        rw [UInt8.toNat_add] at h0
        have h1 : (x.toNat + 1) % 256 = 0 := h0
        exact UInt8.toNat_inj.1 (show x.toNat = 255 by omega)
      rw [if_pos hz]
      refine ⟨by simp [h1], ?_⟩
      rw [List.reverse_cons, List.reverse_cons, Bytes.toNat_append_one, Bytes.toNat_append_one, h2, hx', List.length_cons, Nat.pow_succ]
      show (Bytes.toNat l.reverse + 1) % 256 ^ l.length * 256 + 0 = (Bytes.toNat l.reverse * 256 + 255 + 1) % (256 ^ l.length * 256)
      rw [show Bytes.toNat l.reverse * 256 + 255 + 1 = (Bytes.toNat l.reverse + 1) * 256 by ring, Nat.mul_mod_mul_right, Nat.add_zero]
    · rw [if_neg hz]
      refine ⟨by simp, ?_⟩
      rw [List.reverse_cons, List.reverse_cons, Bytes.toNat_append_one, Bytes.toNat_append_one, List.length_cons, Nat.pow_succ]
      have hx1 : (x + 1).toNat = x.toNat + 1 := by
        have hne : x.toNat ≠ 255 := by
          intro h
          apply hz
          have : x = 255 := UInt8.toNat_inj.1 (by rw [h]; rfl)
          rw [this]
          rfl
        rw [UInt8.toNat_add]
        show (x.toNat + 1) % 256 = _
        omega
      rw [hx1, ← Nat.add_assoc, Nat.mod_eq_of_lt]
      have : Bytes.toNat l.reverse + 1 ≤ 256 ^ l.length := hlt
      have h3 : (Bytes.toNat l.reverse + 1) * 256 ≤ 256 ^ l.length * 256 := Nat.mul_le_mul_right _ this
      have h4 : x.toNat ≠ 255 := by
        intro h
        rw [UInt8.toNat_add, h] at hx1
        cases hx1
      omega

/-- C60: the counter is a number that goes up by one and wraps around. -/
theorem c60_counter (b : Bytes) : (incr b).length = b.length ∧ Bytes.toNat (incr b) = (Bytes.toNat b + 1) % 256 ^ b.length := by
  obtain ⟨h1, h2⟩ := incrRev_toNat b.reverse
  unfold incr
  refine ⟨by simp [h1], ?_⟩
  rw [h2, List.reverse_reverse, List.length_reverse]

/-- C60: the text is combined with the encryptions of counter blocks, one after the other. The first 2^128 of them, enough for every text, are
all different: no part of the key stream is derived from the same block as another. -/
theorem c60_blocks (block : Bytes → Fin 16 → UInt8) (iv : Bytes) (hiv : iv.length = 16) (n : Nat) :
    ∃ ctr : Nat → Bytes, ctr 0 = iv ∧ keyStream block n iv = (List.range n).flatMap (fun i => List.ofFn (block (ctr i))) ∧
      (∀ i, (ctr i).length = 16 ∧ Bytes.toNat (ctr i) = (Bytes.toNat iv + i) % 2 ^ 128) ∧
      ∀ i j, i < 2 ^ 128 → j < 2 ^ 128 → ctr i = ctr j → i = j := by
  have hval : ∀ i, (incr^[i] iv).length = 16 ∧ Bytes.toNat (incr^[i] iv) = (Bytes.toNat iv + i) % 2 ^ 128 := by
    intro i
    induction i with
    | zero =>
      refine ⟨hiv, (Nat.mod_eq_of_lt ?_).symm⟩
      have := Bytes.toNat_lt iv
      rw [hiv] at this
      exact this
    | succ i ih =>
      rw [Function.iterate_succ_apply']
      obtain ⟨h1, h2⟩ := c60_counter (incr^[i] iv)
      refine ⟨h1.trans ih.1, ?_⟩
      rw [h2, ih.1, ih.2, show (256 : Nat) ^ 16 = 2 ^ 128 by norm_num, Nat.mod_add_mod, Nat.add_assoc]
  refine ⟨fun i => incr^[i] iv, rfl, ?_, hval, ?_⟩
  · clear hval hiv
    induction n generalizing iv with
    | zero => rfl
    | succ n ih =>
      rw [keyStream, ih, List.range_succ_eq_map, List.flatMap_cons, List.flatMap_map]
      rfl
  · intro i j hi hj h
    have h1 := (hval i).2
    have h2 := (hval j).2
    dsimp only at h
    rw [h, h2] at h1
    have := Nat.ModEq.add_left_cancel' (Bytes.toNat iv) (show Nat.ModEq (2 ^ 128) (Bytes.toNat iv + j) (Bytes.toNat iv + i) from h1)
    exact (this.eq_of_lt_of_lt hj hi).symm

example : incr [1, 255, 255] = [2, 0, 0] ∧ incr [255, 255] = [0, 0] := by decide +kernel

/-- C60: the cipher works exactly for keys of 16, 24 or 32 bytes and counters of 16 bytes. -/
theorem c60_works (aes : Bytes → Bytes → Fin 16 → UInt8) (key text iv : Bytes) :
    (∃ c, aesCTRXOR aes key text iv = .ok c) ↔ (key.length = 16 ∨ key.length = 24 ∨ key.length = 32) ∧ iv.length = 16 := by
  unfold aesCTRXOR
  by_cases hk : key.length = 16 ∨ key.length = 24 ∨ key.length = 32
  · by_cases hi : iv.length = 16
    · simp [hk, hi]
    · simp [hk, hi]
  · simp [hk]

/-- C60: with random values at hand the export works: 16 random bytes as the counter are what it asks for. -/
theorem c60_export_works (hk : ∀ p s, (lib.kdf p s).length = 32) (priv password salt iv : Bytes) (id : List Char) (hs : r.salt = some salt)
    (hi : r.iv = some iv) (hl : iv.length = 16) (hu : r.uuid = some id) : ∃ k, exportKeyStore lib r priv password = .ok k := by
  obtain ⟨c, hc⟩ := (c60_works lib.aes (lib.kdf password salt) priv iv).2 ⟨Or.inr (Or.inr (hk _ _)), hl⟩
  unfold exportKeyStore
  rw [hs, hi, hu]
  dsimp only
  unfold slice
  rw [if_pos (by rw [hk]; omega), if_pos (by rw [hk]; omega)]
  simp only [Res.bind]
  rw [List.drop_zero, List.take_of_length_le (by rw [hk]), hc]
  exact ⟨_, rfl⟩

/-- C60: an exported key opens with its password and gives the private key. -/
theorem c60_export_opens (hk : ∀ p s, (lib.kdf p s).length = 32) (priv password : Bytes) (k : EncryptedKey)
    (h : exportKeyStore lib r priv password = .ok k) : openKeyStore lib k password = some priv := by
  unfold exportKeyStore at h
  split at h
  · cases h
  rename_i salt hs
  split at h
  · cases h
  rename_i iv hi
  obtain ⟨ek, h1, h⟩ := Res.bind_eq_ok.1 h
  obtain ⟨c, h2, h⟩ := Res.bind_eq_ok.1 h
  obtain ⟨mk, h3, h⟩ := Res.bind_eq_ok.1 h
  split at h
  · cases h
  cases h
  unfold slice at h1 h3
  rw [if_pos (by rw [hk]; omega)] at h1 h3
  cases h1
  cases h3
  rw [List.drop_zero] at h2
  unfold openKeyStore
  simp only [unhex_hexEncode, Option.bind_eq_bind, Option.bind_some]
  have hd : (List.take 16 (List.drop 16 (lib.kdf password salt))) = List.drop 16 (List.take 32 (lib.kdf password salt)) := by
    rw [List.drop_take]
  rw [if_pos (by rw [hd])]
  have h2' := c60_round_trip lib.aes _ _ _ _ h2
  unfold aesCTRXOR at h2 h2'
  split at h2
  · rename_i hlen
    rw [if_pos hlen] at h2'
    split at h2
    · rename_i hiv
      rw [if_pos hiv] at h2'
      rw [ctrDecrypt_eq]
      simp only [Res.ok.injEq] at h2'
      exact congrArg some h2'
    · cases h2
  · cases h2

end cipher

section main
variable {N : ℕ} {F K : Type} (read : F → Option (ZMod N × ZMod N)) (pubKey : Nat → K) (lib : Lib) (r : Rand)

theorem main_written (args : Args F) (out : Out K) (ho : main read pubKey lib r args = .ok out) :
    (args.exportPath.length > 0 ∧ args.password.length ≥ 8 ∧ ∃ c, out.written = some (args.exportPath, c) ∧
      ((∃ k, c = some k ∧ exportKeyStore lib r (serialize out.sk) args.password = .ok k) ∨
        (c = none ∧ ∃ e, exportKeyStore lib r (serialize out.sk) args.password = .err e))) ∨
    (¬ (args.exportPath.length > 0 ∧ args.password.length ≥ 8) ∧ out.written = none) := by
  unfold main at ho
  simp only at ho
  split at ho
  · split at ho
    · split at ho
      · rename_i h
        refine .inl ⟨h.1, h.2, ?_⟩
        split at ho
        · rename_i k hk
          cases ho
          exact ⟨_, rfl, .inl ⟨k, rfl, hk⟩⟩
        · rename_i e he
          cases ho
          exact ⟨_, rfl, .inr ⟨rfl, e, he⟩⟩
        · cases ho
      · rename_i h
        cases ho
        exact .inr ⟨h, rfl⟩
    · cases ho
  · cases ho

/-- C60: the key in the export file opens with the password of the command line and is the recovered private key. -/
theorem c60_exported_key (hk : ∀ p s, (lib.kdf p s).length = 32) (args : Args F) (out : Out K) (ho : main read pubKey lib r args = .ok out)
    (path : Bytes) (k : EncryptedKey) (hw : out.written = some (path, some k)) :
    ∃ b, openKeyStore lib k args.password = some b ∧ Bytes.toNat b = out.sk := by
  rcases main_written read pubKey lib r args out ho with ⟨-, -, c, h1, h | h⟩ | ⟨-, h⟩
  · obtain ⟨k', rfl, h⟩ := h
    rw [hw] at h1
    cases h1
    exact ⟨_, c60_export_opens lib r hk _ _ _ h, toNat_serialize _⟩
  · rw [hw] at h1
    obtain ⟨rfl, -⟩ := h
    cases h1
  · rw [hw] at h; cases h

/-- C83: a file is written exactly when a path and a password of at least 8 bytes were given, and it is the file of the command line. -/
theorem c83_written_iff (args : Args F) (out : Out K) (ho : main read pubKey lib r args = .ok out) :
    (out.written ≠ none ↔ args.exportPath ≠ [] ∧ 8 ≤ args.password.length) ∧ ∀ w, out.written = some w → w.1 = args.exportPath := by
  rcases main_written read pubKey lib r args out ho with ⟨h1, h2, c, h, -⟩ | ⟨h, hn⟩
  · rw [h]
    refine ⟨⟨fun _ => ⟨List.length_pos_iff.1 h1, h2⟩, fun _ => by simp⟩, ?_⟩
    rintro w hw
    cases hw
    rfl
  · rw [hn]
    refine ⟨⟨fun h => absurd rfl h, fun h' => absurd ⟨List.length_pos_iff.2 h'.1, h'.2⟩ h⟩, ?_⟩
    intro w hw
    cases hw

/-- C83: if the random source works the file contains an encrypted key. -/
theorem c83_contains_key_partial (args : Args F) (out : Out K) (ho : main read pubKey lib r args = .ok out) (hs : r.salt ≠ none)
    (hi : r.iv ≠ none) (hu : r.uuid ≠ none) (hk : ∀ p s, (lib.kdf p s).length = 32) (path : Bytes) (c : Option EncryptedKey)
    (hw : out.written = some (path, c)) : c ≠ none := by
  rcases main_written read pubKey lib r args out ho with ⟨-, -, c', h1, h | ⟨rfl, e, h⟩⟩ | ⟨-, h⟩
  · obtain ⟨k, rfl, -⟩ := h
    rw [hw] at h1
    cases h1
    simp
  · exfalso
    obtain ⟨salt, hs⟩ := Option.ne_none_iff_exists'.1 hs
    obtain ⟨iv, hi⟩ := Option.ne_none_iff_exists'.1 hi
    obtain ⟨uuid, hu⟩ := Option.ne_none_iff_exists'.1 hu
    unfold exportKeyStore at h
    simp only [hs, hi, hu] at h
    unfold slice at h
    rw [if_pos (by rw [hk]; omega), if_pos (by rw [hk]; omega)] at h
    simp only [Res.bind_ok, aesCTRXOR] at h
    rw [if_pos (by right; right; rw [List.drop_zero, List.length_take, hk]; rfl)] at h
    split at h
    · cases h
    · cases h
  · rw [hw] at h; cases h

end main

/-! ## Examples and limits -/

section demo

instance : Fact (Nat.Prime 101) := ⟨by norm_num⟩

deriving instance DecidableEq for Out

/-- share files of the polynomial 7 + 3X + 5X²: file `i` has the index `i`; file 0 cannot be read -/
def read2 (i : Nat) : Option (ZMod 101 × ZMod 101) := if i = 0 then none else some (i, 7 + 3 * i + 5 * i ^ 2)

/-- share files of the polynomial 7 + 2X³ -/
def read3 (i : Nat) : Option (ZMod 101 × ZMod 101) := if i = 0 then none else some (i, 7 + 2 * i ^ 3)

/-- toy cipher, key derivation and hash -/
def lib : Lib := ⟨fun k c i => k.sum + c.sum + UInt8.ofNat i.val, fun p s => (p ++ s ++ List.replicate 32 1).take 32, fun b => [b.sum]⟩

/-- a working random source -/
def rand : Rand := ⟨some (List.replicate 32 9), some (List.replicate 16 255), some ['u']⟩

/-- a command line -/
def args (n : Option Int) (files : List Nat) : Args Nat := ⟨n, [47], List.replicate 8 65, files⟩

/-- the secret 7 is recovered and the exported key opens to 7 -/
example : (match main read2 id lib rand (args none [4, 9, 2, 5]) with
    | .ok ⟨7, 7, some ([47], some k)⟩ => openKeyStore lib k (List.replicate 8 65) == some (serialize 7)
    | _ => false) = true := by decide +kernel

/-- the hypotheses of `c58_tool_partial` hold of these files -/
example : ∃ f : (ZMod 101)[X], Sharing 2 f ∧ Holds read2 f 4 4 ∧ Holds read2 f 9 9 ∧ Holds read2 f 2 2 ∧ [(4 : ZMod 101), 9, 2].Nodup := by
  refine ⟨C 7 + C 3 * X + C 5 * X ^ 2, ?_, ?_, ?_, ?_, by decide +kernel⟩
  · unfold Sharing
    compute_degree
  all_goals
    unfold Holds read2
    simp

/-- C58 and C59 are false: four files of a pool with five or six members, -n 4, and the tool prints a wrong key (13 instead of 7). -/
theorem c58_wrong_key : (match main read3 id lib rand { args (some 4) [1, 2, 3, 4] with exportPath := [] } with
    | .ok ⟨k, _, none⟩ => decide (k ≠ 7)
    | _ => false) = true ∧ ReConstruct ([1, 2, 3, 4].map fun x => (⟨3, some x, some (7 + 2 * x ^ 3)⟩ : Share 101)) = .ok 7 := by
  decide +kernel

/-- the hypotheses of `c58_wrong_for_larger_pools` hold of these files -/
example : ∃ f : (ZMod 101)[X], f.natDegree = 3 ∧ ∀ i ∈ [1, 2, 3, 4], Holds read3 f i (i : ZMod 101) ∧ (i : ZMod 101) ≠ 0 := by
  refine ⟨C 7 + C 2 * X ^ 3, ?_, ?_⟩
  · have h2 : (2 : ZMod 101) ≠ 0 := by decide +kernel
    rw [natDegree_C_add, natDegree_C_mul_X_pow 3 _ h2]
  · intro i hi
    have : (i : ZMod 101) ≠ 0 ∧ i ≠ 0 := by
      revert i
      decide +kernel
    refine ⟨?_, this.1⟩
    unfold Holds read3
    simp [this.2]

/-- C83 is false: when the random source fails, the file is overwritten with "null". -/
theorem c83_null_written : ∃ (rand : Rand) (out : Out Nat), main read2 id lib rand (args none [4, 9, 2]) = .ok out ∧ out.written = some ([47], none) :=
  ⟨⟨none, none, none⟩, ⟨7, 7, some ([47], none)⟩, by decide +kernel, rfl⟩

end demo

end Verif.Props.Recovery
