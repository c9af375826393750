import Verif.Lemmas.Ripemd160
import Verif.Lemmas.Bech32Spec
import Verif.Model.Address
import Verif.Props.C140
import Verif.Props.C145

set_option linter.unusedSectionVars false

/-!
# C146 The pool address is the address of the pool key

The model of RIPEMD-160 computes it as its authors define it. The address that Keygen returns is the bech32 text of RIPEMD-160 of SHA-256 of the 33 bytes of the pool key.
-/
namespace Verif.Props.PoolAddress
open Verif.Go Verif.Curve Verif.Bech32 Verif.Keygen Verif.JsonState
open Verif.Props.PoolLife (Delivers ask made)
open Verif.Props.PoolKeys (OnCurve Compressed serialize_compressed)

/-! ## RIPEMD-160 -/

section ripemd
open Verif.Ripemd160 Verif.Spec.Ripemd160

theorem constants : Constants kL kR := by
  refine ⟨rfl, ?_, ?_, ?_, ?_, ?_, ?_, ?_, ?_, rfl⟩ <;> (unfold Root; decide +kernel)

theorem root_unique {r p : Nat} {c c' : Word} (h : Root r p c) (h' : Root r p c') : c = c' := by
  obtain ⟨h1, h2⟩ := h
  obtain ⟨h1', h2'⟩ := h'
  have a : c.toNat < c'.toNat + 1 := lt_of_pow_lt_pow_left₀ r (by omega) (lt_of_le_of_lt h1 h2')
  have b : c'.toNat < c.toNat + 1 := lt_of_pow_lt_pow_left₀ r (by omega) (lt_of_le_of_lt h1' h2)
  exact BitVec.eq_of_toNat_eq (by omega)

theorem constants_unique {k k' l l' : Nat → Word} (h : Constants k k') (h' : Constants l l') : (∀ t < 5, k t = l t) ∧ ∀ t < 5, k' t = l' t := by
  constructor
  · intro t ht
    match t, ht with
    | 0, _ => exact h.left1.trans h'.left1.symm
    | 1, _ => exact root_unique h.left2 h'.left2
    | 2, _ => exact root_unique h.left3 h'.left3
    | 3, _ => exact root_unique h.left4 h'.left4
    | 4, _ => exact root_unique h.left5 h'.left5
  · intro t ht
    match t, ht with
    | 0, _ => exact root_unique h.right1 h'.right1
    | 1, _ => exact root_unique h.right2 h'.right2
    | 2, _ => exact root_unique h.right3 h'.right3
    | 3, _ => exact root_unique h.right4 h'.right4
    | 4, _ => exact h.right5.trans h'.right5.symm

theorem left_congr {k l X : Nat → Word} (h : ∀ t < 5, k t = l t) (n : Nat) (hn : n ≤ 80) (v : Vars) : left k X n v = left l X n v := by
  induction n with
  | zero => rfl
  | succ n ih => rw [left, left, ih (by omega), h (n / 16) (by omega)]

theorem right_congr {k l X : Nat → Word} (h : ∀ t < 5, k t = l t) (n : Nat) (hn : n ≤ 80) (v : Vars) : right k X n v = right l X n v := by
  induction n with
  | zero => rfl
  | succ n ih => rw [right, right, ih (by omega), h (n / 16) (by omega)]

theorem hash_congr {k k' l l' : Nat → Word} (h : ∀ t < 5, k t = l t) (h' : ∀ t < 5, k' t = l' t) (p : Bytes) (n : Nat) :
    Spec.Ripemd160.hash k k' p n = Spec.Ripemd160.hash l l' p n := by
  induction n with
  | zero => rfl
  | succ n ih => rw [Spec.Ripemd160.hash, Spec.Ripemd160.hash, ih, left_congr h 80 (le_refl _), right_congr h' 80 (le_refl _)]

theorem padded_unique {x p p' : Bytes} (h : Padded x p) (h' : Padded x p') : p = p' := by
  obtain ⟨k, l, h1, h2, rfl, h3, h4⟩ := h
  obtain ⟨k', l', h1', h2', rfl, h3', h4'⟩ := h'
  have := Digest.toNat_injective (a := l.reverse) (b := l'.reverse) (by simp [h3, h3']) (h4.trans h4'.symm)
  rw [show k = k' by omega, List.reverse_injective this]

theorem padded_length (x : Bytes) : (x ++ padding x.length).length = 64 * ((x ++ padding x.length).length / 64) := by
  have := (padding_length x.length).1
  rw [List.length_append]
  omega

theorem chain_eq (x : Bytes) : (chain x).vars = Spec.Ripemd160.hash kL kR (x ++ padding x.length) ((x ++ padding x.length).length / 64) := by
  have h := hash_eq (x ++ padding x.length) _ (padded_length x) _ (le_refl _)
  rw [List.take_of_length_le (by rw [Sha256.blocks_length])] at h
  exact h

theorem read_injective {a b : Bytes} (ha : a.length = 20) (hb : b.length = 20) (h : ∀ i < 5, Spec.Ripemd160.read a i = Spec.Ripemd160.read b i) : a = b := by
  have part : ∀ i < 5, (a.drop (4 * i)).take 4 = (b.drop (4 * i)).take 4 := by
    intro i hi
    apply List.reverse_injective
    apply Digest.toNat_injective
    · simp; omega
    · have h1 := congrArg BitVec.toNat (h i hi)
      have lt : ∀ l : Bytes, l.length = 4 → Bytes.toNat l.reverse < 2 ^ 32 := by
        intro l hl
        obtain ⟨p, q, r, s, rfl⟩ : ∃ p q r s, l = [p, q, r, s] := by
          match l, hl with
          | [p, q, r, s], _ => exact ⟨p, q, r, s, rfl⟩
        show Bytes.toNat [s, r, q, p] < _
        rw [← Sha256.word_toNat]
        exact UInt32.toNat_lt _
      unfold Spec.Ripemd160.read at h1
      rwa [BitVec.toNat_ofNat, BitVec.toNat_ofNat, Nat.mod_eq_of_lt (lt _ (by simp; omega)), Nat.mod_eq_of_lt (lt _ (by simp; omega))] at h1
  apply List.ext_getElem? fun n => ?_
  by_cases hn : n < 20
  · have h2 := congrArg (fun l => l[n % 4]?) (part (n / 4) (by omega))
    simp only [List.getElem?_take, List.getElem?_drop, if_pos (Nat.mod_lt n (by decide : 4 > 0))] at h2
    rwa [Nat.div_add_mod] at h2
  · rw [List.getElem?_eq_none (by omega), List.getElem?_eq_none (by omega)]

/-- C146: what the program computes as RIPEMD-160 digest of bytes (fewer than 2^61) is their digest as the authors of RIPEMD-160 define it. -/
theorem c146_ripemd (x d : Bytes) (hx : x.length < 2 ^ 61) : IsDigest x d ↔ d = Ripemd160.sum x := by
  constructor
  · rintro ⟨k, k', p, hc, hp, hl, h0, h1, h2, h3, h4⟩
    obtain ⟨hk, hk'⟩ := constants_unique hc constants
    have := padded_unique hp (padded x hx)
    subst this
    rw [hash_congr hk hk', ← chain_eq] at h0 h1 h2 h3 h4
    obtain ⟨r0, r1, r2, r3, r4⟩ := bytes_read (chain x)
    refine read_injective hl (bytes_length _) fun i hi => ?_
    unfold Ripemd160.sum
    match i, hi with
    | 0, _ => rw [h0, r0]
    | 1, _ => rw [h1, r1]
    | 2, _ => rw [h2, r2]
    | 3, _ => rw [h3, r3]
    | 4, _ => rw [h4, r4]
  · rintro rfl
    refine ⟨kL, kR, _, constants, padded x hx, bytes_length _, ?_⟩
    rw [← chain_eq]
    exact bytes_read _

/-- C146: digests of nothing, of "abc", and of a text of two blocks, as the authors give them -/
example : Sha256.hex (Ripemd160.sum []) = "9c1185a5c5e9fc54612808977ee8f548b2258d31".toList ∧
    Sha256.hex (Ripemd160.sum "abc".toUTF8.toList) = "8eb208f7e05d987a9b044a8e98c6b087f15a0bfc".toList ∧
    Sha256.hex (Ripemd160.sum "abcdbcdecdefdefgefghfghighijhijkijkljklmklmnlmnomnopnopq".toUTF8.toList) = "12a053384a9c0c88e405a06c27dcf49ada62eb2b".toList := by
  decide +kernel

end ripemd

/-! ## addresses -/

/-- Specification: `t` is the address on Binance Chain of the compressed key `b`. -/
def IsAddress (b : Bytes) (t : Str) : Prop :=
  ∃ s a, Spec.Sha256.IsDigest b s ∧ Spec.Ripemd160.IsDigest s a ∧ Spec.Bech32.IsText "bnb".toList a t

theorem pre_good : GoodPrefix Address.pre := ⟨by decide +kernel, by decide +kernel, by decide +kernel, by decide +kernel⟩

theorem sha_length (b : Bytes) : (Sha256.sum256 b).length = 32 := Sha256.bytes_length _

theorem ofKey_length (b : Bytes) : (Address.ofKey b).length = 20 := Ripemd160.bytes_length _

theorem address_iff (b : Bytes) (hb : b.length < 2 ^ 61) (t : Str) : IsAddress b t ↔ Address.text (Address.ofKey b) = some t := by
  have hs := sha_length b
  constructor
  · rintro ⟨s, a, h1, h2, h3⟩
    rw [Digest.c145_digest _ _ hb] at h1
    subst h1
    rw [c146_ripemd _ _ (by omega)] at h2
    subst h2
    exact (encode_iff pre_good _ _).2 h3
  · intro h
    exact ⟨_, _, (Digest.c145_digest _ _ hb).2 rfl, (c146_ripemd _ _ (by omega)).2 rfl, (encode_iff pre_good _ _).1 h⟩

/-- C146: every key has exactly one address; computing its text never fails. -/
theorem c146_one_address (b : Bytes) (hb : b.length < 2 ^ 61) : ∃! t, IsAddress b t := by
  obtain ⟨cs, h, -⟩ := encode_some_of Address.pre (Address.ofKey b)
  refine ⟨_, (address_iff b hb _).2 h, fun t ht => ?_⟩
  have := (address_iff b hb t).1 ht
  unfold Address.text at this
  rw [h] at this
  exact (Option.some.inj this).symm

/-- C146: the text of an address decodes to the 20 bytes of the address, and to nothing with another prefix. -/
theorem c146_decodes (b : Bytes) (hb : b.length < 2 ^ 61) (t : Str) (h : IsAddress b t) :
    decode Address.pre t = some (Address.ofKey b) ∧ ∀ q, q ≠ Address.pre → decode q t = none := by
  have h1 := (address_iff b hb t).1 h
  obtain ⟨cs, h2, h3⟩ := encode_some_of Address.pre (Address.ofKey b)
  unfold Address.text at h1
  rw [h2] at h1
  injection h1 with h1
  have hd := decode_text_of pre_good (by rw [ofKey_length]; omega) h3 t (.inl h1.symm)
  refine ⟨hd, fun q hq => ?_⟩
  unfold decode at hd ⊢
  split at hd
  · cases hd
  · rename_i hrp vs he
    split at hd
    · cases hd
    · rename_i b' hb'
      split at hd
      · rename_i hp
        rw [if_neg (by rw [hp]; exact fun e => hq e.symm)]
      · cases hd

/-- C146: two different keys have the same address only if SHA-256 has a collision in the two keys or RIPEMD-160 gives the same digest for their different SHA-256
digests. -/
theorem c146_two_keys (b b' : Bytes) (hb : b.length < 2 ^ 61) (hb' : b'.length < 2 ^ 61) (t : Str) (h : IsAddress b t) (h' : IsAddress b' t) (hne : b ≠ b') :
    Spec.Sha256.Collide b b' ∨ ∃ s s' d, s ≠ s' ∧ Spec.Sha256.IsDigest b s ∧ Spec.Sha256.IsDigest b' s' ∧ Spec.Ripemd160.IsDigest s d ∧ Spec.Ripemd160.IsDigest s' d := by
  by_cases hs : Sha256.sum256 b = Sha256.sum256 b'
  · exact .inl (Digest.c145_collision b b' hb hb' hne hs)
  · have h1 := (c146_decodes b hb t h).1
    rw [(c146_decodes b' hb' t h').1] at h1
    injection h1 with h1
    refine .inr ⟨_, _, Address.ofKey b, hs, (Digest.c145_digest _ _ hb).2 rfl, (Digest.c145_digest _ _ hb').2 rfl, ?_, ?_⟩
    · exact (c146_ripemd _ _ (by rw [sha_length]; omega)).2 rfl
    · rw [← h1]
      exact (c146_ripemd _ _ (by rw [sha_length]; omega)).2 rfl

/-! ## Keygen -/

section keygen
variable {P S H A Q : Type} [DecidableEq P] [LinearOrder S] [LinearOrder H]

/-- a node whose keys and addresses are those of the program -/
structure RealNode (env : KEnv P S H SaveData Point A Q) : Prop extends PoolLife.RealNode env where
  address : ∀ pt, Address.ofPoint pt = some (env.address pt)

/-- **C146**: if Keygen returns Success, then the text of the key that it returns carries the 33 bytes of a point, and the address that it returns is the Binance address of
these bytes: everybody who knows the key can compute it. -/
theorem c146_pool_address (env : KEnv P S H SaveData Point A Q) (hreal : RealNode env) (disk : Storage.Disk) (req : Request) (h : List (Event P SaveData A Q))
    (hcurve : ∀ pt, Delivers env h pt → OnCurve pt) (resp : Response) (err : Option Err) (hr : (run env disk req h).ret = some (resp, err))
    (hs : resp.status = .success) :
    ∃ b pt, decodeKey resp.pubKey = some b ∧ OnCurve pt ∧ Compressed b pt ∧ IsAddress b resp.poolAddress := by
  have g : Storage.Good env.base.storage Bech32.accPubPrefix := by rw [hreal.storage]; exact JsonStorage.c136_good
  obtain ⟨-, e, he, hp, ha, -⟩ := KeyGeneration.c52_success_is_stored g h resp err hr hs
  have hpt : OnCurve (env.pubOf e.share) := hcurve _ ⟨e, he, rfl⟩
  have h1 := hp.2
  rw [hreal.bech32] at h1
  refine ⟨_, _, KeyTexts.c115_law _ _ h1, hpt, serialize_compressed hpt, ?_⟩
  rw [address_iff _ (by rw [KeyTexts.serialize_length hpt]; omega), ha]
  exact hreal.address _

/-- C146: two nodes that return the same key return the same address. -/
theorem c146_agree {P' S' H' A' Q' : Type} [DecidableEq P'] [LinearOrder S'] [LinearOrder H'] (env : KEnv P S H SaveData Point A Q)
    (env' : KEnv P' S' H' SaveData Point A' Q') (hreal : RealNode env) (hreal' : RealNode env') (disk disk' : Storage.Disk) (req req' : Request)
    (h : List (Event P SaveData A Q)) (h' : List (Event P' SaveData A' Q')) (hcurve : ∀ pt, Delivers env h pt → OnCurve pt)
    (hcurve' : ∀ pt, Delivers env' h' pt → OnCurve pt) (resp resp' : Response) (err err' : Option Err) (hr : (run env disk req h).ret = some (resp, err))
    (hr' : (run env' disk' req' h').ret = some (resp', err')) (hs : resp.status = .success) (hs' : resp'.status = .success) (hk : resp.pubKey = resp'.pubKey) :
    resp.poolAddress = resp'.poolAddress := by
  obtain ⟨b, pt, h1, h2, h3, h4⟩ := c146_pool_address env hreal disk req h hcurve resp err hr hs
  obtain ⟨b', pt', h1', h2', h3', h4'⟩ := c146_pool_address env' hreal' disk' req' h' hcurve' resp' err' hr' hs'
  rw [hk, h1'] at h1
  injection h1 with h1
  subst h1
  have hl : b'.length < 2 ^ 61 := by
    rw [KeyTexts.compressed_unique h2 h3, KeyTexts.serialize_length h2]
    omega
  exact (c146_one_address b' hl).unique h4 h4'

end keygen

/-! ## a case -/

/-- the point of conversion/conversion_test.go:223 -/
def testPoint : Point := ⟨70074650318631491136896111706876206496089700125696166275258483716815143842813, 72125378038650252881868972131323661098816214918201601489154946637636730727892⟩

/-- C146: key and address which conversion/conversion_test.go:226-227 expects -/
example : OnCurve testPoint ∧ encodeKey (serializeCompressed testPoint) = some "thorpub1addwnpepq2dwek9hkrlxjxadrlmy9fr42gqyq6029q0hked46l3u6a9fxqel6tma5eu".toList ∧
    Address.ofPoint testPoint = some "bnb17l7cyxqzg4xymnl0alrhqwja276s3rns4256c2".toList := by
  refine ⟨(PoolKeys.onCurve_iff _).2 (by decide +kernel), by decide +kernel, by decide +kernel⟩

/-- node 1 of the example of C140 with the program's addresses -/
def node : KEnv Nat Nat Nat SaveData Point Unit Nat := { PoolLife.node with address := fun pt => (Address.ofPoint pt).getD [] }

theorem node_real : RealNode node := by
  refine ⟨⟨rfl, fun _ => rfl, fun _ => rfl⟩, fun pt => ?_⟩
  obtain ⟨cs, h, -⟩ := encode_some_of Address.pre (Address.ofKey (serializeCompressed pt))
  show Address.ofPoint pt = some ((Address.ofPoint pt).getD [])
  unfold Address.ofPoint Address.text
  rw [h]
  rfl

theorem made_points {pt : Point} (h : Delivers node (made 77) pt) : pt = PoolKeys.G := by
  obtain ⟨e, he, h⟩ := h
  exact PoolLife.made_points (x := 77) ⟨e, he, h⟩

/-- C146: the node makes the generator as pool key; `c146_pool_address` applies. -/
example : ((run node [] ask (made 77)).ret.map fun a => (a.1.status, a.1.pubKey, a.1.poolAddress)) =
    some (.success, KeyTexts.textG, "bnb1w508d6qejxtdg4y5r3zarvary0c5xw7kcegkwk".toList) ∧ ∀ pt, Delivers node (made 77) pt → OnCurve pt := by
  refine ⟨by decide +kernel, fun pt h => ?_⟩
  rw [made_points h]
  exact PoolKeys.onCurve_G

end Verif.Props.PoolAddress
