import Verif.Model.Bech32
import Mathlib.Data.List.Induction
import Mathlib.Data.Nat.Bitwise
import Mathlib.Tactic.IntervalCases
import Mathlib.Tactic.Ring

/-! # bech32: decoding inverts encoding, and encoding inverts decoding up to the case of the letters -/
namespace Verif.Bech32

/-! ## bits -/

theorem bitsOf_length (w v : Nat) : (bitsOf w v).length = w := by simp [bitsOf]

theorem bitsOf_succ (w v : Nat) : bitsOf (w + 1) v = bitsOf w (v / 2) ++ [v.testBit 0] := by
  unfold bitsOf
  rw [List.range_succ, List.map_append]
  congr 1
  · apply List.map_congr_left
    intro i hi
    have := List.mem_range.1 hi
    rw [Nat.testBit_div_two]
    congr 1; omega
  · simp

theorem valOf_snoc (bs : List Bool) (b : Bool) : valOf (bs ++ [b]) = 2 * valOf bs + b.toNat := by simp [valOf]

theorem valOf_bitsOf : ∀ (w v : Nat), v < 2 ^ w → valOf (bitsOf w v) = v
  | 0, v, h => by have : v = 0 := by simpa using h
                  subst this; rfl
  | w + 1, v, h => by
    rw [bitsOf_succ, valOf_snoc, valOf_bitsOf w (v / 2) (by rw [pow_succ] at h; omega), Nat.testBit_zero]
    rcases Nat.mod_two_eq_zero_or_one v with hv | hv <;> simp [hv] <;> omega

theorem valOf_lt (bs : List Bool) : valOf bs < 2 ^ bs.length := by
  induction bs using List.reverseRecOn with
  | nil => simp [valOf]
  | append_singleton bs b ih =>
    rw [valOf_snoc, List.length_append, List.length_singleton, pow_succ]
    cases b <;> simp <;> omega

theorem bitsOf_valOf (bs : List Bool) : bitsOf bs.length (valOf bs) = bs := by
  induction bs using List.reverseRecOn with
  | nil => simp [bitsOf]
  | append_singleton bs b ih =>
    rw [List.length_append, List.length_singleton, bitsOf_succ, valOf_snoc]
    have h1 : (2 * valOf bs + b.toNat) / 2 = valOf bs := by cases b <;> (simp; try omega)
    have h2 : (2 * valOf bs + b.toNat).testBit 0 = b := by
      rw [Nat.testBit_zero]; cases b <;> simp
    rw [h1, h2, ih]

/-! ## groups of bits -/

/-- forming groups gives back the groups a list of bits is made of -/
theorem groups_eq {w : Nat} (hw : 0 < w) : ∀ (gs : List (List Bool)) (r : List Bool) (fuel : Nat), (∀ g ∈ gs, g.length = w) → r.length < w →
    (gs.flatten ++ r).length ≤ fuel → groups w fuel (gs.flatten ++ r) = (gs, r)
  | [], r, fuel, _, hr, _ => by
    cases fuel with
    | zero => rfl
    | succ f => simp [groups, hr]
  | g :: gs, r, fuel, hg, hr, hf => by
    have hgl := hg g (by simp)
    cases fuel with
    | zero =>
      simp only [List.flatten_cons, List.append_assoc, List.length_append, hgl] at hf
      omega
    | succ f =>
      have ih := groups_eq hw gs r f (fun g' h => hg g' (List.mem_cons_of_mem _ h)) hr (by
        simp only [List.flatten_cons, List.append_assoc, List.length_append, hgl] at hf ⊢
        omega)
      have e1 : (g ++ (gs.flatten ++ r)).take w = g := by rw [← hgl]; simp
      have e2 : (g ++ (gs.flatten ++ r)).drop w = gs.flatten ++ r := by rw [← hgl]; simp
      rw [List.flatten_cons, List.append_assoc, groups, if_neg (by rw [List.length_append, hgl]; omega), e1, e2, ih]

/-- the groups and the rest make up the list -/
theorem groups_spec {w : Nat} (hw : 0 < w) : ∀ (fuel : Nat) (bs : List Bool), bs.length ≤ fuel →
    (groups w fuel bs).1.flatten ++ (groups w fuel bs).2 = bs ∧ (∀ g ∈ (groups w fuel bs).1, g.length = w) ∧ (groups w fuel bs).2.length < w
  | 0, bs, h => by
    have : bs = [] := List.length_eq_zero_iff.1 (by omega)
    subst this
    simp [groups, hw]
  | fuel + 1, bs, h => by
    rw [groups]
    split
    · rename_i hl
      simp [hl]
    · rename_i hl
      obtain ⟨h1, h2, h3⟩ := groups_spec hw fuel (bs.drop w) (by rw [List.length_drop]; omega)
      refine ⟨?_, ?_, h3⟩
      · rw [List.flatten_cons, List.append_assoc, h1, List.take_append_drop]
      · intro g hg
        rcases List.mem_cons.1 hg with rfl | hg
        · rw [List.length_take]; omega
        · exact h2 g hg

/-- the five-bit values of bytes: their bits are those of the bytes and up to four zeros -/
theorem to5_bits (data : Bytes) : ∃ (gs : List (List Bool)) (k : Nat), to5 data = gs.map valOf ∧ (∀ g ∈ gs, g.length = 5) ∧
    gs.flatten = (data.flatMap fun b => bitsOf 8 b.toNat) ++ List.replicate k false ∧ k ≤ 4 := by
  unfold to5
  dsimp only
  generalize (data.flatMap fun b => bitsOf 8 b.toNat) = bits
  obtain ⟨h1, h2, h3⟩ := groups_spec (w := 5) (by decide) bits.length bits (le_refl _)
  generalize groups 5 bits.length bits = g at h1 h2 h3 ⊢
  obtain ⟨gs, r⟩ := g
  dsimp only at *
  cases r with
  | nil => exact ⟨gs, 0, by simp, h2, by simpa using h1, by omega⟩
  | cons x r =>
    refine ⟨gs ++ [(x :: r) ++ List.replicate (5 - (x :: r).length) false], 5 - (x :: r).length, by simp, ?_, ?_, ?_⟩
    · intro g hg
      rcases List.mem_append.1 hg with hg | hg
      · exact h2 g hg
      · rw [List.mem_singleton.1 hg, List.length_append, List.length_replicate]; omega
    · rw [List.flatten_append, ← h1]; simp
    · simp only [List.length_cons]; omega

theorem flatMap_bits5 {gs : List (List Bool)} (h : ∀ g ∈ gs, g.length = 5) : ((gs.map valOf).flatMap fun v => bitsOf 5 v) = gs.flatten := by
  induction gs with
  | nil => rfl
  | cons g gs ih =>
    rw [List.map_cons, List.flatMap_cons, List.flatten_cons, ih fun g' h' => h g' (List.mem_cons_of_mem _ h')]
    have := bitsOf_valOf g
    rw [h g (by simp)] at this
    rw [this]

theorem byte_lt (b : UInt8) : b.toNat < 2 ^ 8 := b.toNat_lt

theorem to8_to5 (data : Bytes) : to8 (to5 data) = some data := by
  obtain ⟨gs, k, h1, h2, h3, h4⟩ := to5_bits data
  unfold to8
  dsimp only
  rw [h1, flatMap_bits5 h2, h3]
  have e : (data.flatMap fun b => bitsOf 8 b.toNat) = (data.map fun b => bitsOf 8 b.toNat).flatten := by rw [List.flatMap_def]
  rw [e, groups_eq (by decide) _ _ _ ?_ (by simp; omega) (le_refl _)]
  · dsimp only
    rw [if_pos (by simp; omega), List.map_map]
    congr 1
    have : ((fun b => UInt8.ofNat (valOf b)) ∘ fun b : UInt8 => bitsOf 8 b.toNat) = id := by
      funext b
      simp only [Function.comp, id]
      rw [valOf_bitsOf 8 _ (byte_lt b), UInt8.ofNat_toNat]
    rw [this, List.map_id]
  · intro g hg
    obtain ⟨b, -, rfl⟩ := List.mem_map.1 hg
    exact bitsOf_length _ _

theorem to5_to8 {vs : List Nat} (hv : ∀ v ∈ vs, v < 32) {b : Bytes} (h : to8 vs = some b) : to5 b = vs := by
  unfold to8 at h
  dsimp only at h
  have hbits : (vs.flatMap fun v => bitsOf 5 v) = (vs.map fun v => bitsOf 5 v).flatten := by rw [List.flatMap_def]
  have hval : ∀ l : List Nat, (∀ v ∈ l, v < 32) → (l.map fun v => bitsOf 5 v).map valOf = l := by
    intro l hl
    rw [List.map_map]
    conv_rhs => rw [← List.map_id l]
    exact List.map_congr_left fun v hv => valOf_bitsOf 5 v (hl v hv)
  obtain ⟨h1, h2, h3⟩ := groups_spec (w := 8) (by decide) _ (vs.flatMap fun v => bitsOf 5 v) (le_refl _)
  generalize groups 8 (vs.flatMap fun v => bitsOf 5 v).length (vs.flatMap fun v => bitsOf 5 v) = g at h h1 h2 h3
  obtain ⟨gs, r⟩ := g
  dsimp only at *
  split at h
  · rename_i hc
    obtain ⟨hr, hz⟩ := hc
    injection h with h
    have hz' : r = List.replicate r.length false := by
      rw [List.eq_replicate_iff]
      refine ⟨rfl, fun x hx => ?_⟩
      simpa using List.all_eq_true.1 hz x hx
    have hb : (b.flatMap fun b => bitsOf 8 b.toNat) = gs.flatten := by
      rw [← h, List.flatMap_def, List.map_map]
      congr 1
      conv_rhs => rw [← List.map_id gs]
      apply List.map_congr_left
      intro g hg
      have hl := h2 g hg
      have hlt := valOf_lt g
      rw [hl] at hlt
      simp only [Function.comp, id]
      rw [UInt8.toNat_ofNat_of_lt' hlt]
      have := bitsOf_valOf g
      rwa [hl] at this
    unfold to5
    dsimp only
    rw [hb]
    have hlen5 : ∀ l : List Nat, ∀ g ∈ (l.map fun v => bitsOf 5 v), g.length = 5 := by
      intro l g hg
      obtain ⟨v, -, rfl⟩ := List.mem_map.1 hg
      exact bitsOf_length _ _
    rw [hbits] at h1
    cases r with
    | nil =>
      rw [List.append_nil] at h1
      have := groups_eq (w := 5) (by decide) (vs.map fun v => bitsOf 5 v) [] (gs.flatten).length (hlen5 vs) (by simp) (by rw [List.append_nil, h1])
      rw [List.append_nil, ← h1] at this
      rw [this]
      simpa using hval vs hv
    | cons x r =>
      rcases List.eq_nil_or_concat' vs with rfl | ⟨init, last, rfl⟩
      · simp at h1
      · rw [List.map_append, List.flatten_append, List.map_singleton, List.flatten_singleton] at h1
        have hl5 := bitsOf_length 5 last
        have hle : (x :: r).length ≤ 4 := hr
        rcases List.append_eq_append_iff.1 h1 with ⟨a, -, ha⟩ | ⟨c, hc1, hc2⟩
        · have := congrArg List.length ha
          rw [List.length_append, hl5] at this
          omega
        · have hcl := congrArg List.length hc2
          rw [List.length_append, hl5] at hcl
          have hg := groups_eq (w := 5) (by decide) (init.map fun v => bitsOf 5 v) c (gs.flatten).length (hlen5 init)
            (by simp only [List.length_cons] at hcl; omega) (by rw [hc1])
          rw [← hc1] at hg
          rw [hg]
          dsimp only
          have hne : c.isEmpty = false := by
            cases c with
            | nil => simp only [List.length_nil] at hcl; omega
            | cons _ _ => rfl
          have hpad : c ++ List.replicate (5 - c.length) false = bitsOf 5 last := by
            rw [hc2]
            congr 1
            rw [hz']
            congr 1
            omega
          rw [hne, if_neg (by simp), hpad, valOf_bitsOf 5 _ (hv last (by simp)), hval init fun v h => hv v (by simp [h])]
  · cases h

/-! ## the checksum -/

/-- the step without a new value -/
def lin (c : Nat) : Nat := (c &&& 0x1ffffff) <<< 5 ^^^ select (c >>> 25)

theorem polyStep_eq (c v : Nat) : polyStep c v = lin c ^^^ v := by
  unfold polyStep lin
  rw [Nat.xor_assoc, Nat.xor_comm v, ← Nat.xor_assoc]

theorem select_eq (b : Nat) : select b = (if b.testBit 0 then 0x3b6a57b2 else 0) ^^^ (if b.testBit 1 then 0x26508e6d else 0) ^^^
    (if b.testBit 2 then 0x1ea119fa else 0) ^^^ (if b.testBit 3 then 0x3d4233dd else 0) ^^^ (if b.testBit 4 then 0x2a1462b3 else 0) := by
  have h : ∀ b0 b1 b2 b3 b4 : Bool,
      ([((0x3b6a57b2 : Nat), b0), (0x26508e6d, b1), (0x1ea119fa, b2), (0x3d4233dd, b3), (0x2a1462b3, b4)].foldl
        (fun acc g => if g.2 then acc ^^^ g.1 else acc) 0) = (if b0 then 0x3b6a57b2 else 0) ^^^ (if b1 then 0x26508e6d else 0) ^^^
    (if b2 then 0x1ea119fa else 0) ^^^ (if b3 then 0x3d4233dd else 0) ^^^ (if b4 then 0x2a1462b3 else 0) := by decide +kernel
  rw [← h]
  rfl

theorem ite_xor (a b : Bool) (g : Nat) : (if (a ^^ b) then g else 0) = (if a then g else 0) ^^^ (if b then g else 0) := by
  cases a <;> cases b <;> simp

theorem select_xor (a b : Nat) : select (a ^^^ b) = select a ^^^ select b := by
  simp only [select_eq, Nat.testBit_xor, ite_xor]
  ac_rfl

theorem lin_xor (a b : Nat) : lin (a ^^^ b) = lin a ^^^ lin b := by
  unfold lin
  rw [Nat.and_xor_distrib_right, Nat.shiftLeft_xor_distrib, Nat.shiftRight_xor_distrib, select_xor]
  ac_rfl

theorem lin_small {c : Nat} (h : c < 2 ^ 25) : lin c = c * 32 := by
  unfold lin
  have h1 : c &&& 0x1ffffff = c := by
    rw [show (0x1ffffff : Nat) = 2 ^ 25 - 1 from rfl, Nat.and_two_pow_sub_one_eq_mod, Nat.mod_eq_of_lt h]
  have h2 : c >>> 25 = 0 := by rw [Nat.shiftRight_eq_div_pow]; exact Nat.div_eq_of_lt h
  rw [h1, h2, Nat.shiftLeft_eq, show select 0 = 0 from by decide +kernel, Nat.xor_zero]

theorem mul_xor {c v : Nat} (h : v < 32) : c * 32 ^^^ v = c * 32 + v := by
  apply Nat.eq_of_testBit_eq
  intro i
  rw [Nat.testBit_xor, mul_comm, show (32 : Nat) = 2 ^ 5 from rfl, Nat.testBit_two_pow_mul_add c (by exact h) i, Nat.testBit_two_pow_mul]
  by_cases hi : i < 5
  · simp [hi, Nat.not_le.2 hi]
  · have : v.testBit i = false := Nat.testBit_lt_two_pow (lt_of_lt_of_le h (by
      calc (32 : Nat) = 2 ^ 5 := rfl
        _ ≤ 2 ^ i := Nat.pow_le_pow_right (by decide) (by omega)))
    simp [hi, Nat.le_of_not_lt hi, this]

theorem foldl_xor (cs : List Nat) : ∀ a b : Nat, cs.foldl polyStep (a ^^^ b) =
    (List.replicate cs.length 0).foldl polyStep a ^^^ cs.foldl polyStep b := by
  induction cs with
  | nil => intro a b; rfl
  | cons v cs ih =>
    intro a b
    simp only [List.foldl_cons, List.length_cons, List.replicate_succ]
    rw [← ih]
    congr 1
    rw [polyStep_eq, polyStep_eq, polyStep_eq, lin_xor, Nat.xor_zero, Nat.xor_assoc]

/-- six values added to the checked part -/
theorem polymod_six (pre : List Nat) (c0 c1 c2 c3 c4 c5 : Nat) (h0 : c0 < 32) (h1 : c1 < 32) (h2 : c2 < 32) (h3 : c3 < 32) (h4 : c4 < 32)
    (h5 : c5 < 32) : polymod (pre ++ [c0, c1, c2, c3, c4, c5]) =
      polymod (pre ++ [0, 0, 0, 0, 0, 0]) ^^^ (((((c0 * 32 + c1) * 32 + c2) * 32 + c3) * 32 + c4) * 32 + c5) := by
  unfold polymod
  rw [List.foldl_append, List.foldl_append]
  have := foldl_xor [c0, c1, c2, c3, c4, c5] (pre.foldl polyStep 1) 0
  rw [Nat.xor_zero] at this
  rw [this]
  congr 1
  simp only [List.foldl_cons, List.foldl_nil, polyStep_eq]
  rw [show lin 0 = 0 from by decide +kernel, Nat.zero_xor, lin_small (c := c0) (by omega), mul_xor h1, lin_small (c := c0 * 32 + c1) (by omega),
    mul_xor h2, lin_small (c := (c0 * 32 + c1) * 32 + c2) (by omega), mul_xor h3, lin_small (c := ((c0 * 32 + c1) * 32 + c2) * 32 + c3) (by omega),
    mul_xor h4, lin_small (c := (((c0 * 32 + c1) * 32 + c2) * 32 + c3) * 32 + c4) (by omega), mul_xor h5]

theorem lin_lt (c : Nat) : lin c < 2 ^ 30 := by
  unfold lin
  apply Nat.xor_lt_two_pow
  · rw [Nat.shiftLeft_eq, show (0x1ffffff : Nat) = 2 ^ 25 - 1 from rfl, Nat.and_two_pow_sub_one_eq_mod]
    have := Nat.mod_lt c (show 0 < 2 ^ 25 by decide)
    omega
  · rw [select_eq]
    refine Nat.xor_lt_two_pow (Nat.xor_lt_two_pow (Nat.xor_lt_two_pow (Nat.xor_lt_two_pow ?_ ?_) ?_) ?_) ?_ <;> split <;> decide

theorem polymod_lt (vs : List Nat) (h : ∀ v ∈ vs, v < 32) : polymod vs < 2 ^ 30 := by
  unfold polymod
  have : ∀ (vs : List Nat) (c : Nat), c < 2 ^ 30 → (∀ v ∈ vs, v < 32) → vs.foldl polyStep c < 2 ^ 30 := by
    intro vs
    induction vs with
    | nil => intro c hc _; exact hc
    | cons v vs ih =>
      intro c hc hv
      refine ih _ ?_ fun v' h' => hv v' (List.mem_cons_of_mem _ h')
      rw [polyStep_eq]
      exact Nat.xor_lt_two_pow (lin_lt c) (lt_trans (hv v (by simp)) (by decide))
  exact this vs 1 (by decide) h

theorem checksum_eq (hrp : Str) (data : List Nat) : checksum hrp data =
    (let m := polymod (hrpExpand hrp ++ data ++ [0, 0, 0, 0, 0, 0]) ^^^ 1
     [m / 2 ^ 25 % 32, m / 2 ^ 20 % 32, m / 2 ^ 15 % 32, m / 2 ^ 10 % 32, m / 2 ^ 5 % 32, m / 2 ^ 0 % 32]) := by
  unfold checksum
  dsimp only
  have : ∀ n k : Nat, (n >>> k) &&& 31 = n / 2 ^ k % 32 := fun n k => by
    rw [Nat.shiftRight_eq_div_pow, show (31 : Nat) = 2 ^ 5 - 1 from rfl, Nat.and_two_pow_sub_one_eq_mod]
  simp only [this]
  rfl

/-- a sequence of six values is accepted after the data exactly if it is the checksum -/
theorem verify_iff {hrp : Str} (hh : ∀ v ∈ hrpExpand hrp, v < 32) {data : List Nat} (hd : ∀ v ∈ data, v < 32) {cs : List Nat} (hl : cs.length = 6)
    (hc : ∀ v ∈ cs, v < 32) : verify hrp (data ++ cs) = true ↔ cs = checksum hrp data := by
  match cs, hl with
  | [c0, c1, c2, c3, c4, c5], _ =>
    have b0 := hc c0 (by simp)
    have b1 := hc c1 (by simp)
    have b2 := hc c2 (by simp)
    have b3 := hc c3 (by simp)
    have b4 := hc c4 (by simp)
    have b5 := hc c5 (by simp)
    unfold verify
    rw [beq_iff_eq, ← List.append_assoc, polymod_six _ _ _ _ _ _ _ b0 b1 b2 b3 b4 b5, checksum_eq]
    have hz : polymod (hrpExpand hrp ++ data ++ [0, 0, 0, 0, 0, 0]) < 2 ^ 30 := by
      apply polymod_lt
      intro v hv
      simp only [List.mem_append, List.mem_cons, List.not_mem_nil, or_false] at hv
      rcases hv with (hv | hv) | hv
      · exact hh v hv
      · exact hd v hv
      · omega
    generalize polymod (hrpExpand hrp ++ data ++ [0, 0, 0, 0, 0, 0]) = z at hz ⊢
    have hm : z ^^^ 1 < 2 ^ 30 := Nat.xor_lt_two_pow hz (by decide)
    dsimp only
    have hx : (z ^^^ (((((c0 * 32 + c1) * 32 + c2) * 32 + c3) * 32 + c4) * 32 + c5) = 1) ↔
        (((((c0 * 32 + c1) * 32 + c2) * 32 + c3) * 32 + c4) * 32 + c5) = z ^^^ 1 := by
      constructor
      · intro h
        rw [← h, ← Nat.xor_assoc, Nat.xor_self, Nat.zero_xor]
      · intro h
        rw [h, ← Nat.xor_assoc, Nat.xor_self, Nat.zero_xor]
    rw [hx]
    generalize z ^^^ 1 = m at hm ⊢
    simp only [List.cons.injEq, and_true]
    constructor
    · intro h; subst h; refine ⟨?_, ?_, ?_, ?_, ?_, ?_⟩ <;> omega
    · rintro ⟨r0, r1, r2, r3, r4, r5⟩; omega

theorem checksum_lt (hrp : Str) (data : List Nat) : ∀ v ∈ checksum hrp data, v < 32 := by
  rw [checksum_eq]
  intro v hv
  simp only [List.mem_cons, List.not_mem_nil, or_false] at hv
  rcases hv with rfl | rfl | rfl | rfl | rfl | rfl <;> exact Nat.mod_lt _ (by decide)

theorem checksum_length (hrp : Str) (data : List Nat) : (checksum hrp data).length = 6 := by rw [checksum_eq]; rfl

/-! ## the letters -/

theorem charset_getElem {v : Nat} (h : v < 32) : ∃ c, charset[v]? = some c ∧ charset.idxOf? c = some v ∧ c ∈ charset := by
  have : ∀ v < 32, ∃ c ∈ charset, charset[v]? = some c ∧ charset.idxOf? c = some v := by decide +kernel
  obtain ⟨c, h1, h2, h3⟩ := this v h
  exact ⟨c, h2, h3, h1⟩

theorem idxOf_some {c : Char} {v : Nat} (h : charset.idxOf? c = some v) : v < 32 ∧ charset[v]? = some c ∧ c ∈ charset := by
  have hmem : c ∈ charset := by
    by_contra hc
    rw [List.idxOf?_eq_none_iff.2 hc] at h
    cases h
  have : ∀ c ∈ charset, ∀ v, charset.idxOf? c = some v → v < 32 ∧ charset[v]? = some c := by
    have h0 : ∀ c ∈ charset, ∃ v < 32, charset.idxOf? c = some v ∧ charset[v]? = some c := by decide +kernel
    intro c hc v hv
    obtain ⟨w, h1, h2, h3⟩ := h0 c hc
    rw [h2] at hv; cases hv
    exact ⟨h1, h3⟩
  exact ⟨(this c hmem v h).1, (this c hmem v h).2, hmem⟩

theorem toChars_some : ∀ {vs : List Nat}, (∀ v ∈ vs, v < 32) → ∃ cs, toChars vs = some cs ∧ toVals cs = some vs ∧ (∀ c ∈ cs, c ∈ charset) ∧ cs.length = vs.length
  | [], _ => ⟨[], rfl, rfl, by simp, rfl⟩
  | v :: vs, h => by
    obtain ⟨cs, h1, h2, h3, h4⟩ := toChars_some (vs := vs) fun v' h' => h v' (List.mem_cons_of_mem _ h')
    obtain ⟨c, g1, g2, g3⟩ := charset_getElem (h v (by simp))
    refine ⟨c :: cs, by simp [toChars, g1, h1], by simp [toVals, g2, h2], ?_, by simp [h4]⟩
    intro c' hc'
    rcases List.mem_cons.1 hc' with rfl | hc'
    · exact g3
    · exact h3 _ hc'

theorem toVals_some : ∀ {cs : Str} {vs : List Nat}, toVals cs = some vs → (∀ v ∈ vs, v < 32) ∧ toChars vs = some cs ∧ (∀ c ∈ cs, c ∈ charset) ∧
    cs.length = vs.length
  | [], vs, h => by cases h; exact ⟨by simp, rfl, by simp, rfl⟩
  | c :: cs, vs, h => by
    unfold toVals at h
    split at h
    · rename_i v vs' g1 g2
      cases h
      obtain ⟨h1, h2, h3, h4⟩ := toVals_some g2
      obtain ⟨k1, k2, k3⟩ := idxOf_some g1
      refine ⟨?_, by simp [toChars, k2, h2], ?_, by simp [h4]⟩
      · intro v' hv'
        rcases List.mem_cons.1 hv' with rfl | hv'
        · exact k1
        · exact h1 _ hv'
      · intro c' hc'
        rcases List.mem_cons.1 hc' with rfl | hc'
        · exact k3
        · exact h3 _ hc'
    · cases h

/-! ## the whole text -/

theorem splitLast_append {hrp cs : Str} (h : '1' ∉ cs) : splitLast (hrp ++ '1' :: cs) = some (hrp, cs) := by
  unfold splitLast
  have : (hrp ++ '1' :: cs).reverse = cs.reverse ++ '1' :: hrp.reverse := by simp
  rw [this]
  have ht : (cs.reverse ++ '1' :: hrp.reverse).takeWhile (fun c => decide (c ≠ '1')) = cs.reverse := by
    rw [List.takeWhile_append_of_pos]
    · simp
    · intro c hc
      have : c ∈ cs := List.mem_reverse.1 hc
      simp only [ne_eq, decide_eq_true_eq]
      rintro rfl; exact h this
  have hd : (cs.reverse ++ '1' :: hrp.reverse).dropWhile (fun c => decide (c ≠ '1')) = '1' :: hrp.reverse := by
    rw [List.dropWhile_append_of_pos]
    · simp
    · intro c hc
      have : c ∈ cs := List.mem_reverse.1 hc
      simp only [ne_eq, decide_eq_true_eq]
      rintro rfl; exact h this
  rw [ht, hd]
  simp

theorem splitLast_some {s hrp cs : Str} (h : splitLast s = some (hrp, cs)) : s = hrp ++ '1' :: cs := by
  unfold splitLast at h
  split at h
  · cases h
  · rename_i x before h2
    cases h
    have hx : x = '1' := by
      have := List.head?_dropWhile_not (fun c => decide (c ≠ '1')) s.reverse
      rw [h2] at this
      simpa using this
    have h3 := List.takeWhile_append_dropWhile (p := fun c => decide (c ≠ '1')) (l := s.reverse)
    rw [h2, hx] at h3
    have := congrArg List.reverse h3
    simpa using this.symm

/-- what encoding needs of a prefix: small letters or digits, and not too many -/
structure GoodPrefix (hrp : Str) : Prop where
  letter : ∀ c ∈ hrp, c.toLower = c ∧ c.toUpper.toLower = c ∧ c.toUpper.toUpper = c.toUpper ∧ 33 ≤ c.toNat ∧ c.toNat ≤ 126 ∧
    33 ≤ c.toUpper.toNat ∧ c.toUpper.toNat ≤ 126
  values : ∀ v ∈ hrpExpand hrp, v < 32
  ne : hrp ≠ []
  short : hrp.length ≤ 83

theorem charset_facts : ∀ c ∈ '1' :: charset, c.toLower = c ∧ c.toUpper.toLower = c ∧ c.toUpper.toUpper = c.toUpper ∧ 33 ≤ c.toNat ∧ c.toNat ≤ 126 ∧
    33 ≤ c.toUpper.toNat ∧ c.toUpper.toNat ≤ 126 := by decide +kernel

theorem letters_facts {hrp : Str} (hg : GoodPrefix hrp) : ∀ c ∈ hrp ++ '1' :: charset, c.toLower = c ∧ c.toUpper.toLower = c ∧ c.toUpper.toUpper = c.toUpper ∧
    33 ≤ c.toNat ∧ c.toNat ≤ 126 ∧ 33 ≤ c.toUpper.toNat ∧ c.toUpper.toNat ≤ 126 := fun c hc =>
  (List.mem_append.1 hc).elim (hg.letter c) (charset_facts c)

theorem accPub_good : GoodPrefix accPubPrefix := ⟨by decide +kernel, by decide +kernel, by decide +kernel, by decide +kernel⟩

theorem to5_lt (b : Bytes) : ∀ v ∈ to5 b, v < 32 := by
  obtain ⟨gs, k, h1, h2, -, -⟩ := to5_bits b
  rw [h1]
  intro v hv
  obtain ⟨g, hg, rfl⟩ := List.mem_map.1 hv
  have := valOf_lt g
  rwa [h2 g hg] at this

theorem flatMap_bits_length (b : Bytes) : (b.flatMap fun b => bitsOf 8 b.toNat).length = 8 * b.length := by
  induction b with
  | nil => rfl
  | cons x b ih => rw [List.flatMap_cons, List.length_append, ih, bitsOf_length, List.length_cons]; omega

theorem to5_length (b : Bytes) : 5 * (to5 b).length ≤ 8 * b.length + 4 := by
  obtain ⟨gs, k, h1, h2, h3, h4⟩ := to5_bits b
  have : ∀ gs : List (List Bool), (∀ g ∈ gs, g.length = 5) → gs.flatten.length = 5 * gs.length := by
    intro gs
    induction gs with
    | nil => intro _; rfl
    | cons g gs ih =>
      intro h
      rw [List.flatten_cons, List.length_append, ih fun g' h' => h g' (List.mem_cons_of_mem _ h'), h g (by simp), List.length_cons]; omega
  have h5 := congrArg List.length h3
  rw [this gs h2, List.length_append, flatMap_bits_length, List.length_replicate] at h5
  rw [h1, List.length_map]; omega

/-- a text made of the prefix, '1' and the letters of `to5 b` and its checksum decodes to `b`, in lower and in upper case -/
theorem decode_text_of {hrp : Str} (hg : GoodPrefix hrp) {b : Bytes} {cs : Str} (hb : b.length ≤ 500) (hv : toVals cs = some (to5 b ++ checksum hrp (to5 b))) (s : Str)
    (hs : s = hrp ++ '1' :: cs ∨ s = (hrp ++ '1' :: cs).map Char.toUpper) : decode hrp s = some b := by
  obtain ⟨h1, h2, h3, h4⟩ := toVals_some hv
  have hl : ∀ c ∈ hrp ++ '1' :: cs, c ∈ hrp ++ '1' :: charset := by
    intro c hc
    simp only [List.mem_append, List.mem_cons] at hc ⊢
    rcases hc with hc | hc | hc
    · exact .inl hc
    · exact .inr (.inl hc)
    · exact .inr (.inr (h3 c hc))
  have hlen : cs.length = (to5 b).length + 6 := by rw [h4, List.length_append, checksum_length]
  have hlow : (hrp ++ '1' :: cs).map Char.toLower = hrp ++ '1' :: cs := by
    conv_rhs => rw [← List.map_id (hrp ++ '1' :: cs)]
    exact List.map_congr_left fun c hc => (letters_facts hg c (hl c hc)).1
  have hone : '1' ∉ cs := fun h => absurd (h3 _ h) (by decide +kernel)
  have h5 := to5_length b
  have key : ∀ s : Str, s.length = (hrp ++ '1' :: cs).length → (∀ c ∈ s, 33 ≤ c.toNat ∧ c.toNat ≤ 126) → oneCase s = true →
      s.map Char.toLower = hrp ++ '1' :: cs → decode hrp s = some b := by
    intro s hsl hsa hso hsm
    have hp := hg.short
    have hp0 : 0 < hrp.length := List.length_pos_iff.2 hg.ne
    have hsl' : s.length = hrp.length + (to5 b).length + 7 := by
      rw [hsl, List.length_append, List.length_cons, hlen]; omega
    unfold decode decodeText
    rw [if_neg (by omega), if_neg, if_neg (by simp [hso]), hsm, splitLast_append hone]
    · dsimp only
      rw [if_neg, hv]
      · dsimp only
        rw [(verify_iff hg.values (to5_lt b) (checksum_length _ _) (checksum_lt _ _)).2 rfl]
        simp only [if_true, List.length_append, checksum_length, Nat.add_sub_cancel, List.take_left', to8_to5]
      · rw [hlen]
        intro h
        rcases h with h | h
        · exact hg.ne (by simpa using h)
        · omega
    · rw [List.any_eq_true]
      rintro ⟨c, hc, h⟩
      have := hsa c hc
      simp only [Bool.or_eq_true, decide_eq_true_eq] at h
      omega
  rcases hs with rfl | rfl
  · refine key _ rfl (fun c hc => ?_) ?_ hlow
    · have := letters_facts hg c (hl c hc); exact ⟨this.2.2.2.1, this.2.2.2.2.1⟩
    · unfold oneCase; rw [hlow]; simp
  · refine key _ (by rw [List.length_map]) (fun c hc => ?_) ?_ ?_
    · obtain ⟨c', hc', rfl⟩ := List.mem_map.1 hc
      have := letters_facts hg c' (hl c' hc'); exact ⟨this.2.2.2.2.2.1, this.2.2.2.2.2.2⟩
    · unfold oneCase
      have : ((hrp ++ '1' :: cs).map Char.toUpper).map Char.toUpper = (hrp ++ '1' :: cs).map Char.toUpper := by
        rw [List.map_map]
        exact List.map_congr_left fun c hc => (letters_facts hg c (hl c hc)).2.2.1
      rw [this]; simp
    · rw [List.map_map]
      conv_rhs => rw [← List.map_id (hrp ++ '1' :: cs)]
      exact List.map_congr_left fun c hc => (letters_facts hg c (hl c hc)).2.1

/-- what decodes is, up to case, the text of what it decodes to -/
theorem decode_some_of {hrp : Str} (hg : GoodPrefix hrp) {s : Str} {b : Bytes} (h : decode hrp s = some b) :
    encode hrp b = some (s.map Char.toLower) ∧ (s.map Char.toLower = s ∨ s.map Char.toUpper = s) ∧
      ∃ cs, s.map Char.toLower = hrp ++ '1' :: cs ∧ (∀ c ∈ cs, c ∈ charset) ∧ toVals cs = some (to5 b ++ checksum hrp (to5 b)) := by
  unfold decode at h
  split at h
  · cases h
  · rename_i hrp vs hd
    split at h
    · cases h
    · rename_i b' hb'
      split at h
      · rename_i hpre
        injection h with h
        subst h
        subst hpre
        unfold decodeText at hd
        split at hd
        · cases hd
        · split at hd
          · cases hd
          · split at hd
            · cases hd
            · rename_i hcase
              split at hd
              · cases hd
              · rename_i hrp rest hsp
                split at hd
                · cases hd
                · rename_i hr
                  split at hd
                  · cases hd
                  · rename_i vals hvals
                    split at hd
                    · rename_i hver
                      injection hd with hd
                      injection hd with hd1 hd2
                      subst hd1
                      obtain ⟨g1, g2, g3, g4⟩ := toVals_some hvals
                      have hge : 6 ≤ vals.length := by
                        rw [← g4]
                        by_contra hc
                        exact hr (.inr (by omega))
                      have hsplit : vals = vs ++ vals.drop (vals.length - 6) := by rw [← hd2, List.take_append_drop]
                      have hvs : ∀ v ∈ vs, v < 32 := fun v hv => g1 v (by rw [hsplit]; exact List.mem_append_left _ hv)
                      have hcs : vals.drop (vals.length - 6) = checksum hrp vs := by
                        refine (verify_iff hg.values hvs (by rw [List.length_drop]; omega) fun v hv => g1 v (List.mem_of_mem_drop hv)).1 ?_
                        rw [← hsplit]; exact hver
                      have h5 := to5_to8 hvs hb'
                      have hall : vals = to5 b' ++ checksum hrp (to5 b') := by rw [h5, ← hcs]; exact hsplit
                      refine ⟨?_, ?_, rest, splitLast_some hsp, g3, by rw [hvals, hall]⟩
                      · unfold encode
                        rw [← hall, g2, splitLast_some hsp]
                        rfl
                      · have : oneCase s = true := by simpa using hcase
                        unfold oneCase at this
                        simpa using this
                    · cases hd
      · cases h

theorem encode_some_of (hrp : Str) (b : Bytes) : ∃ cs, encode hrp b = some (hrp ++ '1' :: cs) ∧
    toVals cs = some (to5 b ++ checksum hrp (to5 b)) := by
  obtain ⟨cs, h1, h2, -⟩ := toChars_some (vs := to5 b ++ checksum hrp (to5 b)) (fun v hv => by
    rcases List.mem_append.1 hv with hv | hv
    · exact to5_lt b v hv
    · exact checksum_lt _ _ v hv)
  exact ⟨cs, by simp [encode, h1], h2⟩

/-- a text made of the prefix of keys, '1' and the letters of `to5 b` and its checksum decodes to `b`, in lower and in upper case -/
theorem decode_text {b : Bytes} {cs : Str} (hb : b.length ≤ 500) (hv : toVals cs = some (to5 b ++ checksum accPubPrefix (to5 b))) (s : Str)
    (hs : s = accPubPrefix ++ '1' :: cs ∨ s = (accPubPrefix ++ '1' :: cs).map Char.toUpper) : decode accPubPrefix s = some b :=
  decode_text_of accPub_good hb hv s hs

theorem decode_some {s : Str} {b : Bytes} (h : decode accPubPrefix s = some b) :
    encode accPubPrefix b = some (s.map Char.toLower) ∧ (s.map Char.toLower = s ∨ s.map Char.toUpper = s) ∧
      ∃ cs, s.map Char.toLower = accPubPrefix ++ '1' :: cs ∧ (∀ c ∈ cs, c ∈ charset) ∧ toVals cs = some (to5 b ++ checksum accPubPrefix (to5 b)) :=
  decode_some_of accPub_good h

theorem encode_some (b : Bytes) : ∃ cs, encode accPubPrefix b = some (accPubPrefix ++ '1' :: cs) ∧
    toVals cs = some (to5 b ++ checksum accPubPrefix (to5 b)) := encode_some_of accPubPrefix b

end Verif.Bech32
