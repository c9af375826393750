import Verif.Lemmas.Sha256
import Verif.Model.Digests
import Verif.Props.C08
import Verif.Props.C09_C10
import Verif.Props.C25_C30
import Verif.Props.C131
import Verif.Props.C132

set_option linter.unusedSectionVars false

/-!
# C145 Ids, leaders and digests with the real SHA-256

The model of crypto/sha256 computes FIPS 180-4. Theorems that speak about a digest without collisions (C08, C10, C30) are stated here for SHA-256: what they exclude
is a collision of the compression function of SHA-256 inside of the two texts that are hashed.
-/
namespace Verif.Props.Digest
open Verif.Go Verif.Sha256 Verif.Spec.Sha256

/-! ## the constants -/

theorem primes_eq : primes = [2, 3, 5, 7, 11, 13, 17, 19, 23, 29, 31, 37, 41, 43, 47, 53, 59, 61, 67, 71, 73, 79, 83, 89, 97, 101, 103, 107, 109, 113, 127, 131, 137,
    139, 149, 151, 157, 163, 167, 173, 179, 181, 191, 193, 197, 199, 211, 223, 227, 229, 233, 239, 241, 251, 257, 263, 269, 271, 277, 281, 283, 293, 307, 311] := by
  decide +kernel

/-- the root in units of 2^-32, from its fractional part -/
def rootOf (r p : Nat) (c : Word) : Nat := c.toNat + 2 ^ 32 * ((List.range 8).filter fun m => (m + 1) ^ r ≤ p).length

theorem root_of {r p : Nat} {c : Word} (h : rootOf r p c ^ r ≤ p * 2 ^ (32 * r) ∧ p * 2 ^ (32 * r) < (rootOf r p c + 1) ^ r) : Root r p c := by
  refine ⟨_, h.1, h.2, ?_⟩
  unfold rootOf
  have := c.isLt
  omega

theorem constants : Constants kOf init.vars := by
  refine ⟨?_, ?_, ?_, ?_, ?_, ?_, ?_, ?_, ?_⟩
  · rw [primes_eq]
    intro t ht
    apply root_of
    revert t
    decide +kernel
  all_goals exact root_of (by decide +kernel)

theorem root_unique {r p : Nat} {c c' : Word} (h : Root r p c) (h' : Root r p c') : c = c' := by
  obtain ⟨n, h1, h2, h3⟩ := h
  obtain ⟨m, h1', h2', h3'⟩ := h'
  have hnm : n = m := by
    have a : n < m + 1 := lt_of_pow_lt_pow_left₀ r (by omega) (lt_of_le_of_lt h1 h2')
    have b : m < n + 1 := lt_of_pow_lt_pow_left₀ r (by omega) (lt_of_le_of_lt h1' h2)
    omega
  exact BitVec.eq_of_toNat_eq (by rw [h3, h3', hnm])

theorem turns_congr {k k' w : Nat → Word} (n : Nat) (h : ∀ t < n, k t = k' t) (v : Vars) : turns k w n v = turns k' w n v := by
  induction n with
  | zero => rfl
  | succ n ih => rw [turns, turns, ih (fun t ht => h t (by omega)), h n (by omega)]

theorem hash_congr {k k' : Nat → Word} (h : ∀ t < 64, k t = k' t) (iv : Vars) (p : Bytes) (n : Nat) : Spec.Sha256.hash k iv p n = Spec.Sha256.hash k' iv p n := by
  induction n with
  | zero => rfl
  | succ n ih => rw [Spec.Sha256.hash, Spec.Sha256.hash, ih, turns_congr 64 h]

theorem constants_unique {k k' : Nat → Word} {iv iv' : Vars} (h : Constants k iv) (h' : Constants k' iv') : (∀ t < 64, k t = k' t) ∧ iv = iv' := by
  refine ⟨fun t ht => root_unique (h.k t ht) (h'.k t ht), ?_⟩
  have h1 := root_unique h.a h'.a
  have h2 := root_unique h.b h'.b
  have h3 := root_unique h.c h'.c
  have h4 := root_unique h.d h'.d
  have h5 := root_unique h.e h'.e
  have h6 := root_unique h.f h'.f
  have h7 := root_unique h.g h'.g
  have h8 := root_unique h.h h'.h
  cases iv; cases iv'
  simp only at *
  rw [h1, h2, h3, h4, h5, h6, h7, h8]

/-! ## padding -/

theorem toNat_append (a b : Bytes) : Bytes.toNat (a ++ b) = Bytes.toNat a * 256 ^ b.length + Bytes.toNat b := by
  induction b using List.reverseRecOn with
  | nil => simp [Bytes.toNat]
  | append_singleton b x ih =>
    rw [← List.append_assoc]
    have e : ∀ l : Bytes, Bytes.toNat (l ++ [x]) = Bytes.toNat l * 256 + x.toNat := by intro l; simp [Bytes.toNat]
    rw [e, e, ih, List.length_append]
    simp only [List.length_singleton, pow_succ]
    ring

theorem toNat_injective : ∀ {a b : Bytes}, a.length = b.length → Bytes.toNat a = Bytes.toNat b → a = b := by
  intro a
  induction a using List.reverseRecOn with
  | nil => intro b h _; exact (List.length_eq_zero_iff.1 h.symm).symm
  | append_singleton a x ih =>
    intro b h hn
    rcases List.eq_nil_or_concat b with rfl | ⟨b, y, rfl⟩
    · simp at h
    · rw [List.concat_eq_append] at *
      rw [toNat_append, toNat_append] at hn
      have hx := x.toNat_lt
      have hy := y.toNat_lt
      simp only [List.length_singleton, pow_one] at hn
      have e : ∀ z : UInt8, Bytes.toNat [z] = z.toNat := by intro z; simp [Bytes.toNat]
      rw [e, e] at hn
      rw [ih (by simpa using h) (by omega), UInt8.toNat_inj.1 (by omega : x.toNat = y.toNat)]

theorem padded_unique {x p p' : Bytes} (h : Padded x p) (h' : Padded x p') : p = p' := by
  obtain ⟨k, l, h1, h2, rfl, h3, h4⟩ := h
  obtain ⟨k', l', h1', h2', rfl, h3', h4'⟩ := h'
  rw [show k = k' by omega, toNat_injective (h3.trans h3'.symm) (h4.trans h4'.symm)]

theorem padded_length (x : Bytes) : (x ++ padding x.length).length = 64 * ((x ++ padding x.length).length / 64) := by
  have := (padding_length x.length).1
  rw [List.length_append]
  omega

/-! ## the digest -/

theorem chain_eq (x : Bytes) : (chain x).vars = Spec.Sha256.hash kOf init.vars (x ++ padding x.length) ((x ++ padding x.length).length / 64) := by
  have h := hash_eq (x ++ padding x.length) _ (padded_length x) _ (le_refl _)
  rw [List.take_of_length_le (by rw [blocks_length])] at h
  exact h

theorem read_injective {a b : Bytes} (ha : a.length = 32) (hb : b.length = 32) (h : ∀ i < 8, Spec.Sha256.read a i = Spec.Sha256.read b i) : a = b := by
  have part : ∀ i < 8, (a.drop (4 * i)).take 4 = (b.drop (4 * i)).take 4 := by
    intro i hi
    apply toNat_injective
    · simp; omega
    · have h1 := congrArg BitVec.toNat (h i hi)
      have lt : ∀ l : Bytes, l.length = 4 → Bytes.toNat l < 2 ^ 32 := by
        intro l hl
        obtain ⟨p, q, r, s, rfl⟩ : ∃ p q r s, l = [p, q, r, s] := by
          match l, hl with
          | [p, q, r, s], _ => exact ⟨p, q, r, s, rfl⟩
        rw [← word_toNat]
        exact UInt32.toNat_lt _
      unfold Spec.Sha256.read at h1
      rwa [BitVec.toNat_ofNat, BitVec.toNat_ofNat, Nat.mod_eq_of_lt (lt _ (by simp; omega)), Nat.mod_eq_of_lt (lt _ (by simp; omega))] at h1
  apply List.ext_getElem? fun n => ?_
  by_cases hn : n < 32
  · have h2 := congrArg (fun l => l[n % 4]?) (part (n / 4) (by omega))
    simp only [List.getElem?_take, List.getElem?_drop, if_pos (Nat.mod_lt n (by decide : 4 > 0))] at h2
    rwa [Nat.div_add_mod] at h2
  · rw [List.getElem?_eq_none (by omega), List.getElem?_eq_none (by omega)]

/-- **C145**: what the program computes as digest of bytes (fewer than 2^61) is their SHA-256 digest as FIPS 180-4 defines it. -/
theorem c145_digest (x d : Bytes) (hx : x.length < 2 ^ 61) : IsDigest x d ↔ d = sum256 x := by
  constructor
  · rintro ⟨k, iv, p, hc, hp, hl, h0, h1, h2, h3, h4, h5, h6, h7⟩
    obtain ⟨hk, rfl⟩ := constants_unique hc constants
    have := padded_unique hp (padded x hx)
    subst this
    rw [hash_congr hk, ← chain_eq] at h0 h1 h2 h3 h4 h5 h6 h7
    obtain ⟨r0, r1, r2, r3, r4, r5, r6, r7⟩ := bytes_read (chain x)
    refine read_injective hl (bytes_length _) fun i hi => ?_
    unfold sum256
    match i, hi with
    | 0, _ => rw [h0, r0]
    | 1, _ => rw [h1, r1]
    | 2, _ => rw [h2, r2]
    | 3, _ => rw [h3, r3]
    | 4, _ => rw [h4, r4]
    | 5, _ => rw [h5, r5]
    | 6, _ => rw [h6, r6]
    | 7, _ => rw [h7, r7]
  · rintro rfl
    refine ⟨kOf, init.vars, _, constants, padded x hx, bytes_length _, ?_⟩
    rw [← chain_eq]
    exact bytes_read _

/-- C145: the digests of nothing, of "abc", and of a text of two blocks, as in the examples of the standard -/
example : hashText [] = "e3b0c44298fc1c149afbf4c8996fb92427ae41e4649b934ca495991b7852b855".toList ∧
    hashText "abc".toUTF8.toList = "ba7816bf8f01cfea414140de5dae2223b00361a396177a9cb410ff61f20015ad".toList ∧
    hashText "abcdbcdecdefdefgefghfghighijhijkijkljklmklmnlmnomnopnopq".toUTF8.toList =
      "248d6a61d20638b8e5c026930c3e6039a33ce45964ff2167f6ecedd419db06c1".toList := by decide +kernel

/-! ## texts of digests -/

theorem hexDigit_eq (n : Fin 16) : hexDigit n = "0123456789abcdef".toList.getD n ' ' := by revert n; decide +kernel

theorem hex_length (b : Bytes) : (hex b).length = 2 * b.length := by
  induction b with
  | nil => rfl
  | cons x b ih =>
    have e : hex (x :: b) = hexDigit (x.toNat / 16) :: hexDigit (x.toNat % 16) :: hex b := rfl
    rw [e]; simp [ih]; omega

theorem hex_spec (b : Bytes) : IsHex b (hex b) := by
  refine ⟨hex_length b, ?_⟩
  induction b with
  | nil => intro i hi; simp at hi
  | cons x b ih =>
    intro i hi
    have e : hex (x :: b) = hexDigit (x.toNat / 16) :: hexDigit (x.toNat % 16) :: hex b := rfl
    rw [e]
    rcases i with _ | i
    · have hx := x.toNat_lt
      refine ⟨⟨x.toNat / 16, by omega⟩, ⟨x.toNat % 16, by omega⟩, ?_, ?_, ?_⟩
      · simp only [List.getD_cons_zero]; omega
      · rw [← hexDigit_eq]; rfl
      · rw [← hexDigit_eq]; rfl
    · obtain ⟨hi', lo, h1, h2, h3⟩ := ih i (by simpa using hi)
      exact ⟨hi', lo, by rw [List.getD_cons_succ]; exact h1, by rw [show 2 * (i + 1) = 2 * i + 1 + 1 by ring, List.getD_cons_succ, List.getD_cons_succ]; exact h2,
        by rw [show 2 * (i + 1) + 1 = 2 * i + 1 + 1 + 1 by ring, List.getD_cons_succ, List.getD_cons_succ]; exact h3⟩

theorem digits_inj (a b : Fin 16) (h : "0123456789abcdef".toList.getD a ' ' = "0123456789abcdef".toList.getD b ' ') : a = b := by
  revert a b; decide +kernel

theorem isHex_bytes {b b' : Bytes} {t : List Char} (h : IsHex b t) (h' : IsHex b' t) : b = b' := by
  have hl : b.length = b'.length := by have := h.1; have := h'.1; omega
  apply List.ext_getElem hl
  intro i hi hi'
  obtain ⟨x, y, h1, h2, h3⟩ := h.2 i hi
  obtain ⟨x', y', h1', h2', h3'⟩ := h'.2 i hi'
  have e1 := digits_inj x x' (h2.symm.trans h2')
  have e2 := digits_inj y y' (h3.symm.trans h3')
  have g : ∀ (l : Bytes) (h : i < l.length), l.getD i 0 = l[i] := fun l h => by rw [List.getD_eq_getElem?_getD, List.getElem?_eq_getElem h]; rfl
  rw [g b hi] at h1
  rw [g b' hi'] at h1'
  exact UInt8.toNat_inj.1 (by rw [h1, h1', e1, e2])

/-- **C145**: the text of a digest has 64 characters, two small hexadecimal digits for each byte, so that equal texts mean equal digests. -/
theorem c145_text (x y : Bytes) :
    IsHex (sum256 x) (hashText x) ∧ (hashText x).length = 64 ∧ (hashText x = hashText y ↔ sum256 x = sum256 y) := by
  refine ⟨hex_spec _, hex_length _, fun h => ?_, fun h => by unfold hashText; rw [h]⟩
  refine isHex_bytes (hex_spec _) (t := hashText x) ?_ 
  rw [h]
  exact hex_spec _

/-! ## collisions -/

theorem fold_inj (init : State) : ∀ (n : Nat) (l l' : List Bytes), l.length = n → l'.length = n → l.foldl block init = l'.foldl block init →
    (∀ (a a' r r' : List Bytes) (p p' : Bytes), l = a ++ p :: r → l' = a' ++ p' :: r' → a.length = a'.length →
      block (a.foldl block init) p = block (a'.foldl block init) p' → (a.foldl block init, p) = (a'.foldl block init, p')) → l = l' := by
  intro n
  induction n with
  | zero => intro l l' h h' _ _; rw [List.length_eq_zero_iff.1 h, List.length_eq_zero_iff.1 h']
  | succ n ih =>
    intro l l' h h' he hc
    rcases List.eq_nil_or_concat l with rfl | ⟨a, p, rfl⟩
    · simp at h
    rcases List.eq_nil_or_concat l' with rfl | ⟨a', p', rfl⟩
    · simp at h'
    rw [List.concat_eq_append] at *
    rw [List.concat_eq_append] at *
    rw [List.foldl_append, List.foldl_append] at he
    have hl : a.length = a'.length := by simp at h h'; omega
    have h1 := hc a a' [] [] p p' rfl rfl hl he
    injection h1 with h2 h3
    rw [h3, ih a a' (by simpa using h) (by simpa using h') h2 fun b b' r r' q q' e e' hbl hq =>
      hc b b' (r ++ [p]) (r' ++ [p']) q q' (by rw [e]; simp) (by rw [e']; simp) hbl hq]

theorem tail_eight {x : Bytes} (hx : x.length < 2 ^ 61) {a : List Bytes} {p : Bytes}
    (h : blocks ((x ++ padding x.length).length / 64) (x ++ padding x.length) = a ++ [p]) : Bytes.toNat (p.drop 56) = 8 * x.length := by
  have hf := blocks_flatten _ _ (padded_length x)
  have hal : a.length + 1 = (x ++ padding x.length).length / 64 := by
    have := congrArg List.length h
    rw [blocks_length] at this
    simp at this ⊢
    omega
  have hp : p = ((x ++ padding x.length).drop (64 * a.length)).take 64 := by
    have := blocks_get _ (x ++ padding x.length) a.length (by omega : a.length < (x ++ padding x.length).length / 64)
    rw [h] at this
    simpa using this
  have hlen := padded_length x
  rw [hp, List.drop_take, List.drop_drop, List.take_of_length_le (by simp only [List.length_drop]; omega)]
  have hpl := padding_length x.length
  have e : (x ++ padding x.length).drop (64 * a.length + 56) = be64 (UInt64.ofNat x.length <<< 3) := by
    have e2 : x ++ padding x.length = (x ++ (0x80 : UInt8) :: List.replicate (if x.length % 64 < 56 then 55 - x.length % 64 else 119 - x.length % 64) 0) ++
        be64 (UInt64.ofNat x.length <<< 3) := by simp [padding]
    have e3 : 64 * a.length + 56 = (x ++ (0x80 : UInt8) :: List.replicate (if x.length % 64 < 56 then 55 - x.length % 64 else 119 - x.length % 64) 0).length := by
      have := congrArg List.length e2
      rw [List.length_append (bs := be64 _), be64_length] at this
      omega
    rw [e2, e3, List.drop_left]
  rw [e, be64_toNat, len_toNat _ hx]

/-- **C145**: two different byte strings (each with fewer than 2^61 bytes) have the same digest only if the compression function of SHA-256 has a collision inside
of them. -/
theorem c145_collision (x y : Bytes) (hx : x.length < 2 ^ 61) (hy : y.length < 2 ^ 61) (hne : x ≠ y) (h : sum256 x = sum256 y) : Collide x y := by
  have hc : chain x = chain y := bytes_injective h
  unfold chain at hc
  have npos : ∀ z : Bytes, 0 < (z ++ padding z.length).length / 64 := by
    intro z
    have := (padding_length z.length)
    rw [List.length_append]
    omega
  obtain ⟨a, p, ha⟩ : ∃ a p, blocks ((x ++ padding x.length).length / 64) (x ++ padding x.length) = a ++ [p] := by
    rcases List.eq_nil_or_concat (blocks ((x ++ padding x.length).length / 64) (x ++ padding x.length)) with e | ⟨a, p, e⟩
    · have := congrArg List.length e
      rw [blocks_length] at this
      exact absurd this (npos x).ne'
    · exact ⟨a, p, by rw [e, List.concat_eq_append]⟩
  obtain ⟨a', p', ha'⟩ : ∃ a p, blocks ((y ++ padding y.length).length / 64) (y ++ padding y.length) = a ++ [p] := by
    rcases List.eq_nil_or_concat (blocks ((y ++ padding y.length).length / 64) (y ++ padding y.length)) with e | ⟨a, p, e⟩
    · have := congrArg List.length e
      rw [blocks_length] at this
      exact absurd this (npos y).ne'
    · exact ⟨a, p, by rw [e, List.concat_eq_append]⟩
  by_cases hl : x.length = y.length
  · by_contra hn
    apply hne
    have hN : (y ++ padding y.length).length / 64 = (x ++ padding x.length).length / 64 := by rw [List.length_append, List.length_append, hl]
    have hb := fold_inj init ((x ++ padding x.length).length / 64) _ _ (blocks_length _ _) (by rw [blocks_length, hN]) hc (by
      intro b b' r r' q q' e e' _ hq
      by_contra hne
      exact hn ⟨b.length, b'.length, _, _, q, q', ⟨b, r, e, rfl, rfl⟩, ⟨b', r', e', rfl, rfl⟩, hne, hq⟩)
    have hf := congrArg List.flatten hb
    rw [blocks_flatten _ _ (padded_length x), blocks_flatten _ _ (padded_length y)] at hf
    exact List.append_inj_left hf hl
  · refine ⟨a.length, a'.length, _, _, p, p', ⟨a, [], ha, rfl, rfl⟩, ⟨a', [], ha', rfl, rfl⟩, ?_, ?_⟩
    · intro he
      injection he with _ hp
      have h1 := tail_eight hx ha
      have h2 := tail_eight hy ha'
      rw [hp, h2] at h1
      omega
    · rw [ha, ha', List.foldl_append, List.foldl_append] at hc
      exact hc

/-! ## the uses of the digest -/

open Verif.Digests
open Verif.MsgId (Request msgData)

theorem utf8_injective {s t : MsgId.Str} (h : Json.utf8 s = Json.utf8 t) : s = t := by
  rw [← JsonTexts.c132_written s, ← JsonTexts.c132_written t, h]

theorem idHash_collision {s t : MsgId.Str} (hs : (Json.utf8 s).length < 2 ^ 61) (ht : (Json.utf8 t).length < 2 ^ 61) (h : idHash s = idHash t) (hne : s ≠ t) :
    Collide (Json.utf8 s) (Json.utf8 t) :=
  c145_collision _ _ hs ht (fun e => hne (utf8_injective e)) ((c145_text _ _).2.2.1 h)

theorem id_blank (k : List MsgId.Str) (b : Int) (v : MsgId.Str) (h : k ≠ []) (L : Nat) (hL : 0 < L) (hk : ∀ x ∈ k, x.length = L) :
    ∃ d, Digests.requestToMsgId (.keygen k b v) = .ok d := by
  by_contra hn
  have h1 := (MsgId.c09_no_id_iff_blank idHash (.keygen k b v)).1 fun d hd => hn ⟨d, hd⟩
  obtain ⟨x, xs, rfl⟩ := List.exists_cons_of_ne_nil h
  have hx := hk x (by simp)
  simp [MsgId.Blank] at h1
  rw [h1.1] at hx
  simp at hx
  omega

/-- **C145**: requests to generate keys of different committees (keys of one length) have different ids, unless the compression function of SHA-256 has a collision
inside of the texts of the two requests. -/
theorem c145_keygen_ids (L : Nat) (hL : 0 < L) (k k' : List MsgId.Str) (b b' : Int) (v v' : MsgId.Str) (hk : ∀ x ∈ k, x.length = L) (hk' : ∀ x ∈ k', x.length = L)
    (hs : (Json.utf8 (msgData (.keygen k b v))).length < 2 ^ 61) (hs' : (Json.utf8 (msgData (.keygen k' b' v'))).length < 2 ^ 61)
    (h : Digests.requestToMsgId (.keygen k b v) = Digests.requestToMsgId (.keygen k' b' v')) :
    k.Perm k' ∨ Collide (Json.utf8 (msgData (.keygen k b v))) (Json.utf8 (msgData (.keygen k' b' v'))) := by
  have herr : ∀ (b : Int) (v : MsgId.Str) d, Digests.requestToMsgId (.keygen [] b v) ≠ .ok d := by
    intro b v d hd
    have := MsgId.c09_empty_refused idHash b v
    unfold Digests.requestToMsgId at hd
    rw [this] at hd
    cases hd
  by_cases hn : k = []
  · left
    by_cases hn' : k' = []
    · rw [hn, hn']
    · obtain ⟨d, hd⟩ := id_blank k' b' v' hn' L hL hk'
      subst hn
      exact absurd (h.trans hd) (herr _ _ _)
  · obtain ⟨d, hd⟩ := id_blank k b v hn L hL hk
    by_cases hc : msgData (.keygen k b v) = msgData (.keygen k' b' v')
    · exact Or.inl (MsgId.c10_keygen_ids_separate_partial idHash L hL k k' b b' v v' hk hk' (fun _ => hc) d hd (h.symm.trans hd))
    · by_cases hi : idHash (msgData (.keygen k b v)) = idHash (msgData (.keygen k' b' v'))
      · exact Or.inr (idHash_collision hs hs' hi hc)
      · exact Or.inl (MsgId.c10_keygen_ids_separate_partial idHash L hL k k' b b' v v' hk hk' (fun e => absurd e hi) d hd (h.symm.trans hd))

/-- **C145**: the same for requests to sign different messages, or by different signers, with the same number of signers, at least one of each, and no comma in a
message. -/
theorem c145_keysign_ids (L : Nat) (hL : 0 < L) (p p' : MsgId.Str) (m m' k k' : List MsgId.Str) (b b' : Int) (v v' : MsgId.Str) (hk : ∀ x ∈ k, x.length = L)
    (hk' : ∀ x ∈ k', x.length = L) (hlen : k.length = k'.length) (hk0 : k ≠ []) (hm : m ≠ []) (hm' : m' ≠ []) (hc : ∀ x ∈ m, ',' ∉ x) (hc' : ∀ x ∈ m', ',' ∉ x)
    (hs : (Json.utf8 (msgData (.keysign p m k b v))).length < 2 ^ 61) (hs' : (Json.utf8 (msgData (.keysign p' m' k' b' v'))).length < 2 ^ 61)
    (h : Digests.requestToMsgId (.keysign p m k b v) = Digests.requestToMsgId (.keysign p' m' k' b' v')) :
    (m.Perm m' ∧ k.Perm k') ∨ Collide (Json.utf8 (msgData (.keysign p m k b v))) (Json.utf8 (msgData (.keysign p' m' k' b' v'))) := by
  obtain ⟨d, hd⟩ : ∃ d, Digests.requestToMsgId (.keysign p m k b v) = .ok d := by
    by_contra hn
    have h1 := (MsgId.c09_no_id_iff_blank idHash (.keysign p m k b v)).1 fun d hd => hn ⟨d, hd⟩
    obtain ⟨x, xs, rfl⟩ := List.exists_cons_of_ne_nil hk0
    have hx := hk x (by simp)
    simp [MsgId.Blank] at h1
    obtain ⟨-, h2⟩ := h1
    rw [h2.1] at hx
    simp at hx
    omega
  by_cases hi : idHash (msgData (.keysign p m k b v)) = idHash (msgData (.keysign p' m' k' b' v'))
  · by_cases he : msgData (.keysign p m k b v) = msgData (.keysign p' m' k' b' v')
    · exact Or.inl (MsgId.c10_keysign_ids_separate_partial idHash L hL p p' m m' k k' b b' v v' hk hk' hlen hm hm' hc hc' (fun _ => he) d hd (h.symm.trans hd))
    · exact Or.inr (idHash_collision hs hs' hi he)
  · exact Or.inl (MsgId.c10_keysign_ids_separate_partial idHash L hL p p' m m' k k' b b' v v' hk hk' hlen hm hm' hc hc' (fun e => absurd e hi) d hd (h.symm.trans hd))

/-- **C145**: nodes elect the same leader, whatever the order of their lists of peers, unless the compression function of SHA-256 has a collision inside of the texts
hashed for two of the peers. -/
theorem c145_leader (m : String) (b : Int) (l l' : List String) (hp : l.Perm l')
    (hs : ∀ p ∈ l, (Json.utf8 (m ++ toString b ++ p).toList).length < 2 ^ 61) :
    Digests.LeaderNode m b l = Digests.LeaderNode m b l' ∨
    ∃ p ∈ l, ∃ q ∈ l, p ≠ q ∧ Collide (Json.utf8 (m ++ toString b ++ p).toList) (Json.utf8 (m ++ toString b ++ q).toList) := by
  by_cases hc : ∃ p ∈ l, ∃ q ∈ l, p ≠ q ∧ Collide (Json.utf8 (m ++ toString b ++ p).toList) (Json.utf8 (m ++ toString b ++ q).toList)
  · exact Or.inr hc
  · left
    refine C08.c08_leader_order_independent leaderHash m b l l' hp fun p hpl q hql h => ?_
    by_contra hne
    refine hc ⟨p, hpl, q, hql, hne, c145_collision _ _ (hs p hpl) (hs q hql) (fun e => hne ?_) ((c145_text _ _).2.2.1 ?_)⟩
    · have e1 := utf8_injective e
      simp only [String.toList_append] at e1
      exact String.toList_inj.1 (List.append_cancel_left e1)
    · have := congrArg String.toList h
      simpa only [leaderHash, String.toList_ofList] using this

/-- **C145**: two nodes of one committee that apply a broadcast message of the same member and round apply the same message (under the conditions of C30), unless
the compression function of SHA-256 has a collision inside of the two messages. -/
theorem c145_broadcast {K P : Type} [DecidableEq K] [DecidableEq P] (a b : TssCommon.Env K P) (ma mb : Blame.Manager K P) (ha hb : List (TssCommon.Event P))
    (hc : Spec.Committee a.codec ma) (hids : mb.partyIDMap = ma.partyIDMap) (hpeers : ∀ i, Map.get mb.partyIDtoP2PID i = Map.get ma.partyIDtoP2PID i)
    (ea eb : TssCommon.Entry) (hea : ea ∈ (TssCommon.run a (TssCommon.newTssCommon ma) ha).log) (heb : eb ∈ (TssCommon.run b (TssCommon.newTssCommon mb) hb).log)
    (hba : ea.carrier.isBroadcast = true) (hbb : eb.carrier.isBroadcast = true)
    (hsame : ea.carrier.sender = eb.carrier.sender) (hround : ea.carrier.roundInfo = eb.carrier.roundInfo)
    (hmem : ∀ p key d, Spec.Voted a ma.partyIDMap ha p key d ∨ Spec.Voted b mb.partyIDMap hb p key d → ∃ i, Map.get ma.partyIDtoP2PID i = some p)
    (liars : Finset P)
    (hliars : ∀ p key d d', p ∉ liars → Spec.Voted a ma.partyIDMap ha p key d → Spec.Voted b mb.partyIDMap hb p key d' → d = d')
    (t : Int) (ht : Threshold.GetThreshold ma.partyIDMap.length = .ok t) (hbig : 2 * (t - 1) > (ma.partyIDMap.length : Int) - 1 + liars.card)
    (hha : a.hash = BytesToHashString) (hhb : b.hash = BytesToHashString)
    (hs : ea.carrier.message.length < 2 ^ 61) (hs' : eb.carrier.message.length < 2 ^ 61) :
    ea.carrier.message = eb.carrier.message ∨ Collide ea.carrier.message eb.carrier.message := by
  by_cases he : ea.carrier.message = eb.carrier.message
  · exact Or.inl he
  by_cases hi : BytesToHashString ea.carrier.message = BytesToHashString eb.carrier.message
  · refine Or.inr (c145_collision _ _ hs hs' he ((c145_text _ _).2.2.1 ?_))
    have := congrArg String.toList hi
    simpa only [BytesToHashString, String.toList_ofList] using this
  · exact Or.inl (Session.c30_agreement_partial a b ma mb ha hb hc hids hpeers ea eb hea heb hba hbb hsame hround hmem liars hliars t ht hbig
      fun h => absurd (by rwa [hha, hhb] at h) hi)

/-- **C145**: with the real digest too, two texts of one message lead nodes to different ceremonies (C131). -/
theorem c145_other_ceremony : Digests.requestToMsgId (.keysign [] ["YQ==".toList] ["k".toList] 0 []) ≠ Digests.requestToMsgId (.keysign [] ["YR==".toList] ["k".toList] 0 []) ∧
    ¬ MessageTexts.SameCeremony idHash :=
  have h := MessageTexts.c131_other_ceremony idHash (by decide +kernel)
  ⟨h.2.2.2.1, h.2.2.2.2⟩

/-- C145: the id of a request, and an election -/
example : Digests.requestToMsgId (.keygen ["k2".toList, "k1".toList] 1 []) =
      .ok "00c5a46e66d3dda326ad0a2d2b3a1cebb02d954a38ceee6a289342c4c7fc27da".toList ∧
    hashText (Json.utf8 "id7a".toList) = "0e62d587ade1565c99dfc78dd5636ec61655602f8b8c9fa1230a17b1ada05fe8".toList ∧
    hashText (Json.utf8 "id7b".toList) = "088528416b2a5c8b72542ce46111bde9b56c418dab87ef515436a66318994433".toList := by decide +kernel

/-- C145: the hypotheses of the theorems on ids are met -/
example : ∀ x ∈ ["k2".toList, "k1".toList], x.length = 2 := by decide

/-- C145: in a committee of thirteen which uses the real digest, a broadcast message confirmed by members 2 to 8 is applied; with the digest of another message it
is not -/
example : (TssCommon.run { Spec.demoEnv { Session.net2 with confirms := [⟨none, "1-R", BytesToHashString [5]⟩] } 10 with hash := BytesToHashString }
      (TssCommon.newTssCommon (Spec.demoManagerN 13 0)) Session.votes13).log.length = 1 ∧
    (TssCommon.run { Spec.demoEnv { Session.net2 with confirms := [⟨none, "1-R", BytesToHashString [6]⟩] } 10 with hash := BytesToHashString }
      (TssCommon.newTssCommon (Spec.demoManagerN 13 0)) Session.votes13).log.length = 0 := by decide +kernel

end Verif.Props.Digest
