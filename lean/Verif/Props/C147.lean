import Verif.Lemmas.Bech32Distance
import Verif.Props.C115_C116
import Verif.Props.C146

set_option linter.unusedSectionVars false

/-!
# C147 Mistyped keys and addresses are not taken for others

Key texts are those of BIP-173. Two texts that are accepted as keys, or as addresses, differ in more than a few letters.
-/
namespace Verif.Props.Typos
open Verif.Bech32

/-! ## the checksum is linear -/

theorem foldl_zip : ∀ (vs vs' : List Nat), vs.length = vs'.length → ∀ a a' : Nat,
    vs.foldl polyStep a ^^^ vs'.foldl polyStep a' = (List.zipWith (· ^^^ ·) vs vs').foldl polyStep (a ^^^ a')
  | [], [], _, a, a' => rfl
  | v :: vs, v' :: vs', h, a, a' => by
    simp only [List.foldl_cons, List.zipWith_cons_cons]
    rw [foldl_zip vs vs' (by simpa using h)]
    congr 1
    rw [polyStep_eq, polyStep_eq, polyStep_eq, lin_xor]
    ac_rfl

/-- a difference between two texts with the right checksum has the checksum zero -/
theorem difference {pre vs vs' : List Nat} (hl : vs.length = vs'.length) (h : polymod (pre ++ vs) = 1) (h' : polymod (pre ++ vs') = 1) :
    (List.zipWith (· ^^^ ·) vs vs').foldl polyStep 0 = 0 := by
  unfold polymod at h h'
  rw [List.foldl_append] at h h'
  have := foldl_zip vs vs' hl (pre.foldl polyStep 1) (pre.foldl polyStep 1)
  rw [h, h', Nat.xor_self, Nat.xor_self] at this
  exact this.symm

theorem lin_zero : lin 0 = 0 := by decide +kernel

theorem zeros_zero : ∀ n, (List.replicate n 0).foldl polyStep 0 = 0
  | 0 => rfl
  | n + 1 => by
    rw [List.replicate_succ, List.foldl_cons, polyStep_eq, lin_zero, Nat.xor_self]
    exact zeros_zero n

theorem zeros_lin (c : Nat) : ∀ n, (List.replicate n 0).foldl polyStep c = lin^[n] c
  | 0 => rfl
  | n + 1 => by
    rw [List.replicate_succ', List.foldl_append, zeros_lin c n, List.foldl_cons, List.foldl_nil, polyStep_eq, Nat.xor_zero, Function.iterate_succ_apply']

theorem select_low : ∀ c < 32, select c % 32 = 0 → c = 0 := by decide +kernel

theorem xor_mod {a b : Nat} : (a ^^^ b) % 32 = (a % 32) ^^^ (b % 32) := by
  have := Nat.xor_mod_two_pow (a := a) (b := b) (n := 5)
  simpa using this

theorem lin_eq_zero {c : Nat} (hc : c < 2 ^ 30) (h : lin c = 0) : c = 0 := by
  have hhi : c >>> 25 < 32 := by rw [Nat.shiftRight_eq_div_pow]; omega
  have h0 : c >>> 25 = 0 := by
    apply select_low _ hhi
    have h1 := congrArg (· % 32) h
    simp only [lin, xor_mod] at h1
    rw [Nat.shiftLeft_eq, show (2 : Nat) ^ 5 = 32 from rfl, Nat.mul_mod_left, Nat.zero_xor] at h1
    exact h1
  rw [Nat.shiftRight_eq_div_pow] at h0
  rw [lin_small (by omega)] at h
  omega

theorem iterate_eq_zero {c : Nat} (hc : c < 2 ^ 30) : ∀ n, lin^[n] c = 0 → c = 0
  | 0, h => h
  | n + 1, h => by
    rw [Function.iterate_succ_apply'] at h
    refine iterate_eq_zero hc n (lin_eq_zero ?_ h)
    cases n with
    | zero => exact hc
    | succ n => rw [Function.iterate_succ_apply']; exact lin_lt _

/-! ## six letters in a row -/

/-- at most six values are packed into the checksum as they are -/
theorem fold_small : ∀ (w : List Nat), (∀ v ∈ w, v < 32) → ∀ c k : Nat, c < 2 ^ (5 * k) → k + w.length ≤ 6 →
    w.foldl polyStep c = w.foldl (fun a v => a * 32 + v) c ∧ w.foldl polyStep c < 2 ^ 30
  | [], _, c, k, hc, hk => ⟨rfl, lt_of_lt_of_le hc (Nat.pow_le_pow_right (by decide) (by simp at hk; omega))⟩
  | v :: w, hv, c, k, hc, hk => by
    have h1 := hv v (by simp)
    have h2 : c < 2 ^ 25 := lt_of_lt_of_le hc (Nat.pow_le_pow_right (by decide) (by simp at hk; omega))
    have e : polyStep c v = c * 32 + v := by rw [polyStep_eq, lin_small h2, mul_xor h1]
    rw [List.foldl_cons, List.foldl_cons, e]
    refine fold_small w (fun v' h' => hv v' (List.mem_cons_of_mem _ h')) _ (k + 1) ?_ (by simp at hk; omega)
    rw [show 5 * (k + 1) = 5 * k + 5 by ring, pow_add]
    omega

theorem pack_zero : ∀ (w : List Nat) (c : Nat), w.foldl (fun a v => a * 32 + v) c = 0 → c = 0 ∧ ∀ v ∈ w, v = 0
  | [], c, h => ⟨h, by simp⟩
  | v :: w, c, h => by
    obtain ⟨h1, h2⟩ := pack_zero w _ h
    have h1 : c * 32 + v = 0 := h1
    refine ⟨by omega, fun v' h' => ?_⟩
    rcases List.mem_cons.1 h' with rfl | h'
    · omega
    · exact h2 v' h'

theorem burst {i j : Nat} {w : List Nat} (hw : ∀ v ∈ w, v < 32) (hl : w.length ≤ 6)
    (h : (List.replicate i 0 ++ w ++ List.replicate j 0).foldl polyStep 0 = 0) : ∀ v ∈ w, v = 0 := by
  rw [List.foldl_append, List.foldl_append, zeros_zero, zeros_lin] at h
  obtain ⟨h1, h2⟩ := fold_small w hw 0 0 (by decide) (by omega)
  have h3 := iterate_eq_zero h2 j h
  rw [h1] at h3
  exact (pack_zero w 0 h3).2

/-! ## texts -/

/-- Specification: the texts have the same length, and the same characters outside of the `n` places from place `i` on -/
def SameOutside (s s' : Str) (i n : Nat) : Prop := s.length = s'.length ∧ ∀ k, (k < i ∨ i + n ≤ k) → s[k]? = s'[k]?

/-- Specification: the texts have the same length, and the same characters except at the places `ps` -/
def SameExceptAt (s s' : Str) (ps : List Nat) : Prop := s.length = s'.length ∧ ∀ k, k ∉ ps → s[k]? = s'[k]?

theorem toVals_get : ∀ {cs : Str} {vs : List Nat}, toVals cs = some vs → ∀ k : Nat, vs[k]? = cs[k]?.bind fun c => charset.idxOf? c
  | [], vs, h, k => by
    cases h
    simp
  | c :: cs, vs, h, k => by
    unfold toVals at h
    split at h
    · rename_i v vs' hv hvs
      injection h with h
      subst h
      cases k with
      | zero => simpa using hv.symm
      | succ k => simpa using toVals_get hvs k
    · cases h

/-- what accepted texts with the same prefix and the same length have to do with each other -/
theorem pair {hrp : Str} (hg : GoodPrefix hrp) {s s' : Str} {b b' : Bytes} (h : decode hrp s = some b) (h' : decode hrp s' = some b') (hl : s.length = s'.length) :
    ∃ es : List Nat, es.length + (hrp.length + 1) = s.length ∧ (∀ e ∈ es, e < 32) ∧ es.foldl polyStep 0 = 0 ∧
      (∀ k, s[k + (hrp.length + 1)]? = s'[k + (hrp.length + 1)]? → k < es.length → es[k]? = some 0) ∧ ((∀ e ∈ es, e = 0) → b = b') := by
  obtain ⟨-, -, cs, h1, h2, h3⟩ := decode_some_of hg h
  obtain ⟨-, -, cs', h1', h2', h3'⟩ := decode_some_of hg h'
  obtain ⟨v1, v2, v3, v4⟩ := toVals_some h3
  obtain ⟨v1', v2', v3', v4'⟩ := toVals_some h3'
  have n1 : s.length = cs.length + (hrp.length + 1) := by
    have := congrArg List.length h1
    simp at this
    omega
  have n1' : s'.length = cs'.length + (hrp.length + 1) := by
    have := congrArg List.length h1'
    simp at this
    omega
  have hlen : (to5 b ++ checksum hrp (to5 b)).length = (to5 b' ++ checksum hrp (to5 b')).length := by rw [← v4, ← v4']; omega
  have ver : ∀ b : Bytes, polymod (hrpExpand hrp ++ (to5 b ++ checksum hrp (to5 b))) = 1 := fun b => by
    have := (verify_iff hg.values (to5_lt b) (checksum_length hrp (to5 b)) (checksum_lt hrp (to5 b))).2 rfl
    unfold verify at this
    rwa [beq_iff_eq] at this
  have char : ∀ (s : Str) (cs : Str), s.map Char.toLower = hrp ++ '1' :: cs → ∀ k, cs[k]? = s[k + (hrp.length + 1)]?.map Char.toLower := by
    intro s cs h k
    rw [← List.getElem?_map, h, List.getElem?_append_right (by omega), show k + (hrp.length + 1) - hrp.length = k + 1 by omega, List.getElem?_cons_succ]
  refine ⟨List.zipWith (· ^^^ ·) (to5 b ++ checksum hrp (to5 b)) (to5 b' ++ checksum hrp (to5 b')), ?_, ?_, difference hlen (ver b) (ver b'), ?_, ?_⟩
  · rw [List.length_zipWith, ← v4, ← v4', n1]
    omega
  · intro e he
    obtain ⟨k, hk, rfl⟩ := List.getElem_of_mem he
    rw [List.getElem_zipWith]
    exact Nat.xor_lt_two_pow (n := 5) (v1 _ (List.getElem_mem _)) (v1' _ (List.getElem_mem _))
  · intro k hk hlt
    have e1 : (to5 b ++ checksum hrp (to5 b))[k]? = (to5 b' ++ checksum hrp (to5 b'))[k]? := by
      rw [toVals_get h3, toVals_get h3', char s cs h1, char s' cs' h1', hk]
    rw [List.length_zipWith] at hlt
    rw [List.getElem?_zipWith, ← e1, List.getElem?_eq_getElem (by omega)]
    simp
  · intro hz
    have hv : to5 b ++ checksum hrp (to5 b) = to5 b' ++ checksum hrp (to5 b') := by
      apply List.ext_getElem hlen
      intro k hk hk'
      have hm : (to5 b ++ checksum hrp (to5 b))[k] ^^^ (to5 b' ++ checksum hrp (to5 b'))[k] = 0 := by
        have hkz : k < (List.zipWith (· ^^^ ·) (to5 b ++ checksum hrp (to5 b)) (to5 b' ++ checksum hrp (to5 b'))).length := by
          rw [List.length_zipWith]; omega
        have := hz _ (List.getElem_mem hkz)
        rwa [List.getElem_zipWith] at this
      exact Nat.xor_eq_zero_iff.1 hm
    have hd := (List.append_inj' hv (by rw [checksum_length, checksum_length])).1
    have := to8_to5 b
    rw [hd, to8_to5 b'] at this
    exact (Option.some.inj this).symm

theorem zeros_of {l : List Nat} (h : ∀ k < l.length, l[k]? = some 0) : l = List.replicate l.length 0 := by
  rw [List.eq_replicate_iff]
  refine ⟨rfl, fun e he => ?_⟩
  obtain ⟨k, hk, rfl⟩ := List.getElem_of_mem he
  have := h k hk
  rw [List.getElem?_eq_getElem hk] at this
  exact Option.some.inj this

theorem window {es : List Nat} (hes : ∀ e ∈ es, e < 32) (h0 : es.foldl polyStep 0 = 0) {i n : Nat} (hn : n ≤ 6)
    (h : ∀ k < es.length, (k < i ∨ i + n ≤ k) → es[k]? = some 0) : ∀ e ∈ es, e = 0 := by
  have hsplit : es = es.take i ++ (es.drop i).take n ++ es.drop (i + n) := by
    rw [List.append_assoc, ← List.drop_drop, List.take_append_drop, List.take_append_drop]
  have z1 : es.take i = List.replicate (es.take i).length 0 := zeros_of fun k hk => by
    rw [List.length_take] at hk
    rw [List.getElem?_take_of_lt (by omega)]
    exact h k (by omega) (.inl (by omega))
  have z2 : es.drop (i + n) = List.replicate (es.drop (i + n)).length 0 := zeros_of fun k hk => by
    rw [List.length_drop] at hk
    rw [List.getElem?_drop]
    exact h _ (by omega) (.inr (by omega))
  have hw : ∀ v ∈ (es.drop i).take n, v = 0 := by
    refine burst (i := (es.take i).length) (j := (es.drop (i + n)).length) (fun v hv => hes v (List.mem_of_mem_drop (List.mem_of_mem_take hv)))
      (by rw [List.length_take]; omega) ?_
    rw [← z1, ← z2, ← hsplit]
    exact h0
  intro e he
  rw [hsplit, List.mem_append, List.mem_append] at he
  rcases he with (he | he) | he
  · rw [z1] at he
    exact List.eq_of_mem_replicate he
  · exact hw e he
  · rw [z2] at he
    exact List.eq_of_mem_replicate he

theorem terms_get : ∀ (vs : List Nat) (t : Nat × Nat), t ∈ Four.terms vs → ∃ k < vs.length, t.1 = vs.length - 1 - k ∧ vs[k]? = some t.2 ∧ t.2 ≠ 0
  | [], t, h => by cases h
  | v :: vs, t, h => by
    unfold Four.terms at h
    split at h
    · obtain ⟨k, h1, h2, h3⟩ := terms_get vs t h
      exact ⟨k + 1, by simp; omega, by rw [h2]; simp; omega, by simpa using h3⟩
    · rename_i hv
      rcases List.mem_cons.1 h with rfl | h
      · exact ⟨0, by simp, by simp, by simp, hv⟩
      · obtain ⟨k, h1, h2, h3⟩ := terms_get vs t h
        exact ⟨k + 1, by simp; omega, by rw [h2]; simp; omega, by simpa using h3⟩

theorem terms_few {es : List Nat} (hes : ∀ e ∈ es, e < 32) {ps : List Nat} (h : ∀ k < es.length, k ∉ ps → es[k]? = some 0) : (Four.terms es).length ≤ ps.length := by
  have hsub : (Four.terms es).map (fun t => es.length - 1 - t.1) ⊆ ps := by
    intro k hk
    obtain ⟨t, ht, rfl⟩ := List.mem_map.1 hk
    obtain ⟨k, h1, h2, h3, h4⟩ := terms_get es t ht
    have e : es.length - 1 - t.1 = k := by omega
    rw [e]
    by_contra hn
    have := h k h1 hn
    rw [h3] at this
    exact h4 (Option.some.inj this)
  have hnd : ((Four.terms es).map fun t => es.length - 1 - t.1).Nodup := by
    obtain ⟨f1, f2⟩ := Four.terms_facts es hes
    rw [List.Nodup, List.pairwise_map]
    refine List.Pairwise.imp_of_mem (fun {a b} ha hb hab => ?_) f2
    have := (f1 a ha).1
    have := (f1 b hb).1
    omega
  have := (List.subperm_of_subset hnd hsub).length_le
  rwa [List.length_map] at this

/-! ## keys and addresses -/

theorem row {hrp : Str} (hg : GoodPrefix hrp) {s s' : Str} {b b' : Bytes} (h : decode hrp s = some b) (h' : decode hrp s' = some b') {i n : Nat} (hn : n ≤ 6)
    (hd : SameOutside s s' i n) : b = b' := by
  obtain ⟨es, -, h1, h2, h3, h4⟩ := pair hg h h' hd.1
  refine h4 (window h1 h2 (i := i - (hrp.length + 1)) hn fun k hk hor => h3 k (hd.2 _ ?_) hk)
  omega

theorem anywhere {hrp : Str} (hg : GoodPrefix hrp) {s s' : Str} {b b' : Bytes} (h : decode hrp s = some b) (h' : decode hrp s' = some b')
    (hl : s.length ≤ hrp.length + 68) {ps : List Nat} (hps : ps.length ≤ 4) (hd : SameExceptAt s s' ps) : b = b' := by
  obtain ⟨es, h0, h1, h2, h3, h4⟩ := pair hg h h' hd.1
  refine h4 (Four.four h1 (by omega) ?_ h2)
  refine le_trans (terms_few h1 (ps := ps.map (· - (hrp.length + 1))) fun k hk hn => h3 k (hd.2 _ fun hm => hn ?_) hk) (by rw [List.length_map]; exact hps)
  exact List.mem_map.2 ⟨_, hm, by omega⟩

theorem to5_size {b : Bytes} : (to5 b).length = (8 * b.length + 4) / 5 := by
  obtain ⟨gs, k, h1, h2, h3, h4⟩ := to5_bits b
  have : ∀ gs : List (List Bool), (∀ g ∈ gs, g.length = 5) → gs.flatten.length = 5 * gs.length := by
    intro gs
    induction gs with
    | nil => intro _; rfl
    | cons g gs ih =>
      intro h
      rw [List.flatten_cons, List.length_append, ih fun g' h' => h g' (List.mem_cons_of_mem _ h'), h g (by simp), List.length_cons]; omega
  have h5 := congrArg List.length h3
  rw [this gs h2, List.length_append, flatMap_bits_length, List.length_replicate] at h5
  rw [h1, List.length_map]; omega

theorem text_length {hrp : Str} (hg : GoodPrefix hrp) {s : Str} {b : Bytes} (h : decode hrp s = some b) : s.length = hrp.length + 7 + (8 * b.length + 4) / 5 := by
  obtain ⟨-, -, cs, h1, -, h3⟩ := decode_some_of hg h
  obtain ⟨-, -, -, h4⟩ := toVals_some h3
  have := congrArg List.length h1
  rw [List.length_append, checksum_length, to5_size] at h4
  simp at this
  omega

theorem key_text {s : Str} {b : Bytes} (h : decodeKey s = some b) : decode accPubPrefix s = some (aminoPrefix ++ b) ∧ s.length = 75 := by
  unfold decodeKey at h
  split at h
  · cases h
  · rename_i c hc
    split at h
    · rename_i ht
      injection h with h
      subst h
      refine ⟨by rw [hc]; conv_lhs => rw [← List.take_append_drop 5 c, ht.1], ?_⟩
      have := text_length accPub_good hc
      rw [ht.2] at this
      exact this
    · cases h

/-- **C147**: the text of a key is the bech32 text, as in BIP-173, of five fixed bytes and the 33 bytes of the key. -/
theorem c147_key_text (b : Bytes) (t : Str) : encodeKey b = some t ↔ b.length = 33 ∧ Spec.Bech32.IsText "thorpub".toList ([0xEB, 0x5A, 0xE9, 0x87, 33] ++ b) t := by
  unfold encodeKey
  split
  · rename_i hb
    rw [encode_iff accPub_good]
    exact ⟨fun h => ⟨hb, h⟩, fun h => h.2⟩
  · rename_i hb
    exact ⟨fun h => (Option.some_ne_none _ h.symm).elim, fun h => absurd h.1 hb⟩

theorem upper_lower (c : Char) (h : c.toUpper = c) : c.toLower.toUpper = c := by
  by_cases hc : c.isUpper = true
  · have h1 : ∀ n : Nat, 65 ≤ n → n ≤ 90 → (Char.ofNat n).toLower.toUpper = Char.ofNat n := by decide +kernel
    have h2 : 65 ≤ c.toNat ∧ c.toNat ≤ 90 := by
      simp only [Char.isUpper, decide_eq_true_eq] at hc
      exact ⟨hc.1, hc.2⟩
    have := h1 c.toNat h2.1 h2.2
    rwa [Char.ofNat_toNat] at this
  · have : c.toLower = c := by
      unfold Char.toLower
      simp only [Char.isUpper, decide_eq_true_eq] at hc
      rw [dif_neg hc]
    rw [this, h]

/-- the same key in two texts: they are equal, or differ in each letter of the prefix -/
theorem same_key {s s' : Str} {b : Bytes} (h : decodeKey s = some b) (h' : decodeKey s' = some b) : s = s' ∨ ∀ k < 7, s[k]? ≠ s'[k]? := by
  obtain ⟨-, h2, h3⟩ := KeyTexts.c115_key_of_text s b h
  obtain ⟨-, h2', h3'⟩ := KeyTexts.c115_key_of_text s' b h'
  obtain ⟨-, -, cs, h4, -, -⟩ := decode_some (key_text h).1
  have hl : s.map Char.toLower = s'.map Char.toLower := Option.some.inj (h2.symm.trans h2')
  have up : ∀ {s : Str}, s.map Char.toUpper = s → (s.map Char.toLower).map Char.toUpper = s := by
    intro s hs
    rw [List.map_map]
    conv_rhs => rw [← List.map_id s]
    refine List.map_congr_left fun c hc => upper_lower c ?_
    obtain ⟨k, hk, rfl⟩ := List.getElem_of_mem hc
    have := congrArg (·[k]?) hs
    simp only [List.getElem?_map, List.getElem?_eq_getElem hk, Option.map_some, Option.some.injEq] at this
    exact this
  have differ : ∀ k < 7, (accPubPrefix ++ '1' :: cs)[k]? ≠ ((accPubPrefix ++ '1' :: cs).map Char.toUpper)[k]? := by
    intro k hk
    have hp : ∀ k < 7, accPubPrefix[k]? ≠ accPubPrefix[k]?.map Char.toUpper := by decide +kernel
    have h7 : accPubPrefix.length = 7 := by decide +kernel
    rw [List.getElem?_map, List.getElem?_append_left (by omega)]
    exact hp k hk
  rcases h3 with h3 | h3 <;> rcases h3' with h3' | h3'
  · exact .inl (by rw [← h3, ← h3', hl])
  · refine .inr fun k hk => ?_
    rw [← h3, ← up h3', ← hl, h4]
    exact differ k hk
  · refine .inr fun k hk => ?_
    rw [← h3', ← up h3, ← hl, h4]
    exact (differ k hk).symm
  · exact .inl (by rw [← up h3, ← up h3', hl])

/-- **C147**: whoever takes the text of a key and mistypes up to six consecutive characters gets a text which is refused. -/
theorem c147_row_refused (s s' : Str) (b : Bytes) (h : decodeKey s = some b) (hne : s' ≠ s) (i n : Nat) (hn : n ≤ 6)
    (hd : ∀ k, (k < i ∨ i + n ≤ k) → s[k]? = s'[k]?) : decodeKey s' = none := by
  by_contra hc
  obtain ⟨b', h'⟩ := Option.ne_none_iff_exists'.1 hc
  have hb : aminoPrefix ++ b = aminoPrefix ++ b' := row accPub_good (key_text h).1 (key_text h').1 hn ⟨by rw [(key_text h).2, (key_text h').2], hd⟩
  rw [← List.append_cancel_left hb] at h'
  rcases same_key h h' with e | e
  · exact hne e.symm
  · by_cases hi : 0 < i
    · exact e 0 (by omega) (hd 0 (.inl hi))
    · exact e 6 (by omega) (hd 6 (.inr (by omega)))

/-- **C147**: whoever takes the text of a key and mistypes up to four characters, wherever they are, gets a text which is refused. -/
theorem c147_four_refused (s s' : Str) (b : Bytes) (h : decodeKey s = some b) (hne : s' ≠ s) (ps : List Nat) (hps : ps.length ≤ 4)
    (hd : ∀ k, k ∉ ps → s[k]? = s'[k]?) : decodeKey s' = none := by
  by_contra hc
  obtain ⟨b', h'⟩ := Option.ne_none_iff_exists'.1 hc
  have hb : aminoPrefix ++ b = aminoPrefix ++ b' :=
    anywhere accPub_good (key_text h).1 (key_text h').1 (by rw [(key_text h).2]; decide +kernel) hps ⟨by rw [(key_text h).2, (key_text h').2], hd⟩
  rw [← List.append_cancel_left hb] at h'
  rcases same_key h h' with e | e
  · exact hne e.symm
  · have hsub : List.range 5 ⊆ ps := by
      intro k hk
      have := List.mem_range.1 hk
      by_contra hn
      exact e k (by omega) (hd k hn)
    have := (List.subperm_of_subset List.nodup_range hsub).length_le
    rw [List.length_range] at this
    omega

/-- C147: the same for the pool addresses that Keygen returns: whoever decodes bech32 takes a mistyped address for no other. -/
theorem c147_address (key : Bytes) (hk : key.length < 2 ^ 61) (t s : Str) (ht : PoolAddress.IsAddress key t) (b : Bytes) (h : decode "bnb".toList s = some b) (hl : t.length = s.length)
    (hd : (∃ i n, n ≤ 6 ∧ ∀ k, (k < i ∨ i + n ≤ k) → t[k]? = s[k]?) ∨ ∃ ps : List Nat, ps.length ≤ 4 ∧ ∀ k, k ∉ ps → t[k]? = s[k]?) : b = Address.ofKey key := by
  have h1 := (PoolAddress.c146_decodes key hk t ht).1
  have hlen := text_length PoolAddress.pre_good h1
  rw [PoolAddress.ofKey_length] at hlen
  rcases hd with ⟨i, n, hn, hd⟩ | ⟨ps, hps, hd⟩
  · exact (row PoolAddress.pre_good h1 h hn ⟨hl, hd⟩).symm
  · refine (anywhere PoolAddress.pre_good h1 h ?_ hps ⟨hl, hd⟩).symm
    rw [hlen]
    decide +kernel

/-- C147: a text which is refused is an error wherever the program is given a key: as one of the keys of a committee, as the key of a peer, as a pool key. -/
theorem c147_refused_everywhere (s : Str) (h : decodeKey s = none) :
    (∀ (keys : List Str) (own : Str), s ∈ keys → ∃ e, Conversion.GetParties decodeKey keys own = .err e) ∧
      (∃ e, Conversion.GetPeerIDFromPubKey RealKeys.codec s = .err e) ∧
      (∀ keys : List Str, s ∈ keys → ∃ e, Conversion.GetPeerIDsFromPubKeys RealKeys.codec keys = .err e) ∧ ∃ e, Curve.CheckKeyOnCurve decodeKey s = .err e := by
  have hp : Conversion.GetPeerIDFromPubKey RealKeys.codec s = .err "fail to parse account pub key" := by
    unfold Conversion.GetPeerIDFromPubKey
    rw [show RealKeys.codec.dec s = none from h]
  refine ⟨fun keys own hs => ?_, ⟨_, hp⟩, fun keys => ?_, ⟨_, by unfold Curve.CheckKeyOnCurve; rw [h]⟩⟩
  · rcases Conversion.GetParties_eq decodeKey keys own with ⟨-, h1⟩ | ⟨-, -, h1⟩ | ⟨h1, -⟩
    · exact ⟨_, h1⟩
    · exact ⟨_, h1⟩
    · exact absurd h (h1 s hs)
  · induction keys with
    | nil => intro hs; cases hs
    | cons k keys ih =>
      intro hs
      unfold Conversion.GetPeerIDsFromPubKeys
      cases hk : Conversion.GetPeerIDFromPubKey RealKeys.codec k with
      | err e => exact ⟨e, rfl⟩
      | panic =>
        unfold Conversion.GetPeerIDFromPubKey at hk
        split at hk
        · cases hk
        · split at hk <;> cases hk
      | ok p =>
        rcases List.mem_cons.1 hs with rfl | hs
        · rw [hp] at hk
          cases hk
        · obtain ⟨e, he⟩ := ih hs
          exact ⟨e, by simp [Go.Res.bind, he]⟩

/-! ## cases -/

/-- C147: the hypotheses hold for the key of the generator with the six characters from place 30 on changed; it is refused. So it is with four changed
characters at different places. -/
example : let s := KeyTexts.textG
    let s' := s.take 30 ++ "qqqqqq".toList ++ s.drop 36
    decodeKey s = some (Curve.serializeCompressed PoolKeys.G) ∧ s' ≠ s ∧ (∀ k < 76, (k < 30 ∨ 36 ≤ k) → s[k]? = s'[k]?) ∧ decodeKey s' = none ∧
      (∀ k < 76, k ∉ [10, 20, 40, 60] → s[k]? = ((((s.set 10 'q').set 20 'q').set 40 'B').set 60 '0')[k]?) ∧
      decodeKey ((((s.set 10 'q').set 20 'q').set 40 'B').set 60 '0') = none := by decide +kernel

/-- C147: four is the best number: these two keys are both points of the curve, and their texts differ in five characters. -/
theorem c147_not_five : let s := KeyTexts.textG
    let s' := "thorpub1addwnpepqfu6uen7l8wthtz45p3ftn58pvrs9xlumvkuu2xet8euzkcklqtesc6g358".toList
    s.length = s'.length ∧ (∀ k < 75, k ∉ [19, 59, 71, 73, 74] → s[k]? = s'[k]?) ∧ decodeKey s ≠ decodeKey s' ∧ Curve.CheckKeyOnCurve decodeKey s = .ok true ∧
      Curve.CheckKeyOnCurve decodeKey s' = .ok true := by decide +kernel

/-- C147: the address of the generator, and with its last character changed -/
example : decode "bnb".toList "bnb1w508d6qejxtdg4y5r3zarvary0c5xw7kcegkwk".toList = some (Address.ofKey (Curve.serializeCompressed PoolKeys.G)) ∧
    decode "bnb".toList "bnb1w508d6qejxtdg4y5r3zarvary0c5xw7kcegkwq".toList = none := by decide +kernel

end Verif.Props.Typos
