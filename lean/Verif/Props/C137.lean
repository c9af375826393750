import Verif.Lemmas.Secp
import Verif.Props.C115_C116
import Verif.Props.C112
import Verif.Props.C130
import Verif.Props.C47_C48
import Verif.Props.C133

/-! # C137: signatures and public keys on the curve -/
set_option linter.unusedSectionVars false
namespace Verif.Props.Ecdsa
open Verif.Go Verif.Curve Verif.Conversion Verif.Secp Verif.Spec.Secp
open Verif.Props.PoolKeys (OnCurve onCurve_iff serialize_compressed)

/-! ## points and elements of the group -/

/-- the element of the group for a point of the curve -/
def elem (q : Point) (h : OnCurve q) : E := .some (q.x : ZMod fieldP) (q.y : ZMod fieldP) (on_curve ((onCurve_iff q).1 h).2.2)

theorem is_elem (q : Point) (h : OnCurve q) : Is (some q) (elem q h) := .some ((onCurve_iff q).1 h).1 ((onCurve_iff q).1 h).2.1 _

theorem is_onCurve {q : Point} {Q : E} (h : Is (some q) Q) : OnCurve q ∧ Q ≠ 0 := by
  generalize hp : some q = p at h
  cases h with
  | zero => cases hp
  | @some x y hx hy h =>
    cases hp
    refine ⟨(onCurve_iff _).2 ⟨hx, hy, ?_⟩, WeierstrassCurve.Affine.Point.some_ne_zero _⟩
    have h' := (nonsingular_iff _ _).1 h
    refine decide_eq_true ?_
    have : ((y * y : Nat) : ZMod fieldP) = ((x * x * x + 7 : Nat) : ZMod fieldP) := by
      push_cast; rw [← pow_two, h']; ring
    exact (ZMod.natCast_eq_natCast_iff _ _ _).1 this

/-- every element of the group has coordinates -/
theorem exists_is (P : E) : ∃ p, Is p P := by
  cases P with
  | zero => exact ⟨none, .zero⟩
  | some x y h =>
    have key : ∀ (u v : ZMod fieldP) (hu : curve.Nonsingular u v), (x.val : ZMod fieldP) = u → (y.val : ZMod fieldP) = v →
        Is (some ⟨x.val, y.val⟩) (.some u v hu) := by
      intro u v hu e1 e2; subst e1; subst e2; exact .some (ZMod.val_lt x) (ZMod.val_lt y) hu
    exact ⟨_, key x y h (ZMod.natCast_zmod_val x) (ZMod.natCast_zmod_val y)⟩

/-- C137: adding points is adding in the group -/
theorem c137_add {p q : Option Point} {P Q : E} (hp : Is p P) (hq : Is q Q) : Is (add p q) (P + Q) := is_add hp hq

/-- C137: multiplying a point -/
theorem c137_mul {k : Nat} {p : Option Point} {P : E} (hk : k < 2 ^ 256) (hp : Is p P) : Is (mul k p) (k • P) := is_mul hk hp

theorem N_lt : secp256k1N < 2 ^ 256 := by decide +kernel
theorem N_pos : 0 < secp256k1N := by decide +kernel
theorem N_two : 2 < secp256k1N := by decide +kernel

theorem is_baseMul {k : Nat} (hk : k < 2 ^ 256) : Is (baseMul k) (k • gen) := is_mul hk is_G

/-- C137: the private key determines the public key and the other way round: the public keys of numbers below the order of the curve are different,
and only that of 0 is no point. -/
theorem c137_public_key {a b : Nat} (ha : a < secp256k1N) (hb : b < secp256k1N) :
    (baseMul a = baseMul b ↔ a = b) ∧ (baseMul a = none ↔ a = 0) := by
  have h : ∀ {a b : Nat}, a < secp256k1N → b < secp256k1N → (baseMul a = baseMul b ↔ a = b) := by
    intro a b ha hb
    refine ⟨fun h => ?_, fun h => by rw [h]⟩
    have h1 := is_baseMul (ha.trans N_lt)
    rw [h] at h1
    have := is_unique h1 (is_baseMul (hb.trans N_lt))
    rwa [smul_gen, Nat.mod_eq_of_lt ha, Nat.mod_eq_of_lt hb] at this
  refine ⟨h ha hb, ?_⟩
  have e : baseMul 0 = none := by decide +kernel
  rw [← e]; exact h ha N_pos

/-! ## inverses -/

theorem invN_spec {s : Nat} (h0 : 0 < s) (h : s < secp256k1N) : s * invN s % secp256k1N = 1 := by
  have hne : (s : ZMod secp256k1N) ≠ 0 := by
    rw [Ne, ZMod.natCast_eq_zero_iff]; intro hd; exact absurd (Nat.le_of_dvd h0 hd) (by omega)
  have hc : ((s * invN s : Nat) : ZMod secp256k1N) = ((1 : Nat) : ZMod secp256k1N) := by
    unfold invN
    rw [powMod_eq _ _ _ _ (by decide +kernel)]
    push_cast
    rw [ZMod.natCast_mod, Nat.cast_pow, ← pow_succ']
    have : secp256k1N - 2 + 1 = secp256k1N - 1 := by have := N_two; omega
    rw [this, ZMod.pow_card_sub_one_eq_one hne]
  have := (ZMod.natCast_eq_natCast_iff _ _ _).1 hc
  unfold Nat.ModEq at this
  rwa [Nat.mod_eq_of_lt (a := 1) (by have := N_two; omega)] at this

theorem invN_lt (s : Nat) : invN s < secp256k1N := by
  unfold invN
  rw [powMod_eq _ _ _ _ (by decide +kernel)]
  exact Nat.mod_lt _ N_pos

/-- numbers as elements of the field of the order -/
theorem cast_one {a b : Nat} (h : a * b % secp256k1N = 1) : (a : ZMod secp256k1N) * b = 1 := by
  have : ((a * b : Nat) : ZMod secp256k1N) = ((1 : Nat) : ZMod secp256k1N) := by
    rw [ZMod.natCast_eq_natCast_iff]; unfold Nat.ModEq
    rw [h, Nat.mod_eq_of_lt (by have := N_two; omega)]
  simpa using this

theorem of_cast_one {a b : Nat} (h : (a : ZMod secp256k1N) * b = 1) : a * b % secp256k1N = 1 := by
  have : ((a * b : Nat) : ZMod secp256k1N) = ((1 : Nat) : ZMod secp256k1N) := by simpa using h
  have := (ZMod.natCast_eq_natCast_iff _ _ _).1 this
  unfold Nat.ModEq at this
  rwa [Nat.mod_eq_of_lt (a := 1) (by have := N_two; omega)] at this

theorem cast_eq {a b : Nat} : (a : ZMod secp256k1N) = b ↔ a % secp256k1N = b % secp256k1N := ZMod.natCast_eq_natCast_iff _ _ _

theorem inv_unique {s w w' : Nat} (h : s * w % secp256k1N = 1) (h' : s * w' % secp256k1N = 1) : (w : ZMod secp256k1N) = w' := by
  have h1 := cast_one h
  have h2 := cast_one h'
  calc (w : ZMod secp256k1N) = w * (s * w') := by rw [h2, mul_one]
    _ = (s * w) * w' := by ring
    _ = w' := by rw [h1, one_mul]

theorem mul_mod_cast {z w w' : Nat} (h : (w : ZMod secp256k1N) = w') : z * w % secp256k1N = z * w' % secp256k1N := by
  rw [← cast_eq]; push_cast; rw [h]

/-! ## verification -/

/-- C137: the check of a signature accepts exactly the ECDSA signatures. -/
theorem c137_verify (q : Point) (Q : E) (hq : Is (some q) Q) (hash : Bytes) (r s : Nat) :
    verify q hash r s = true ↔ Signs Q (hashToInt hash secp256k1N) r s := by
  generalize hz : hashToInt hash secp256k1N = z
  unfold verify
  by_cases h0 : r = 0 ∨ s = 0
  · rw [if_pos h0]
    refine ⟨fun h => (Bool.false_ne_true h).elim, fun h => ?_⟩
    obtain ⟨h1, -, h2, -⟩ := h; omega
  rw [if_neg h0]
  by_cases h1 : r ≥ secp256k1N ∨ s ≥ secp256k1N
  · rw [if_pos h1]
    refine ⟨fun h => (Bool.false_ne_true h).elim, fun h => ?_⟩
    obtain ⟨-, h2, -, h3, -⟩ := h; omega
  rw [if_neg h1]
  push Not at h0 h1
  have hi := invN_spec (Nat.pos_of_ne_zero h0.2) h1.2
  have hlt : ∀ a, a % secp256k1N < 2 ^ 256 := fun a => (Nat.mod_lt a N_pos).trans N_lt
  have hsum : Is (add (baseMul (z * invN s % secp256k1N)) (mul (r * invN s % secp256k1N) (some q)))
      ((z * invN s % secp256k1N) • gen + (r * invN s % secp256k1N) • Q) := is_add (is_baseMul (hlt _)) (is_mul (hlt _) hq)
  dsimp only
  rw [hz]
  generalize add (baseMul (z * invN s % secp256k1N)) (mul (r * invN s % secp256k1N) (some q)) = p at hsum ⊢
  generalize hR : (z * invN s % secp256k1N) • gen + (r * invN s % secp256k1N) • Q = R at hsum
  constructor
  · intro h
    refine ⟨Nat.pos_of_ne_zero h0.1, h1.1, Nat.pos_of_ne_zero h0.2, h1.2, invN s, hi, ?_⟩
    rw [hR]
    cases hsum with
    | zero => cases h
    | @some x y hx hy hn =>
      refine ⟨_, _, hn, rfl, ?_⟩
      rw [ZMod.val_natCast_of_lt hx]
      exact of_decide_eq_true h
  · rintro ⟨-, -, -, -, w, hw, x, y, hn, he, hx⟩
    have hww := inv_unique hw hi
    rw [mul_mod_cast hww, mul_mod_cast hww, hR] at he
    cases hsum with
    | zero => cases he
    | @some x' y' hx' hy' hn' =>
      have e1 : x = (x' : ZMod fieldP) := (WeierstrassCurve.Affine.Point.some.inj he).1.symm
      rw [e1, ZMod.val_natCast_of_lt hx'] at hx
      exact decide_eq_true hx

/-! ## signing -/

theorem smul_cast {a b : Nat} (h : (a : ZMod secp256k1N) = b) : a • gen = b • gen := smul_gen.2 (cast_eq.1 h)

/-- C137: with a private key `d` and any `k`, the numbers r = x(kG) mod N and s = (z + r·d)/k, or -s, are a signature of `z`. -/
theorem c137_equation (d k z r s w : Nat) (hr : 0 < r) (hr' : r < secp256k1N) (hs : 0 < s) (hs' : s < secp256k1N)
    (hw : k * w % secp256k1N = 1)
    (heq : (s : ZMod secp256k1N) = (z + r * d) * w ∨ (s : ZMod secp256k1N) = -((z + r * d) * w))
    (x y : ZMod fieldP) (h : curve.Nonsingular x y) (hk : k • gen = .some x y h) (hx : x.val % secp256k1N = r) : Signs (d • gen) z r s := by
  refine ⟨hr, hr', hs, hs', invN s, invN_spec hs hs', ?_⟩
  have hv := cast_one (invN_spec hs hs')
  have hw' := cast_one hw
  generalize invN s = v at hv ⊢
  have hsum : (z * v % secp256k1N) • gen + (r * v % secp256k1N) • d • gen = ((z + r * d) * v) • gen := by
    rw [smul_mod, ← mul_nsmul', ← add_nsmul]
    refine smul_cast ?_
    push_cast
    rw [ZMod.natCast_mod]
    push_cast; ring
  rw [hsum]
  rcases heq with he | he
  · have e1 : ((z + r * d) * v) • gen = k • gen := by
      refine smul_cast ?_
      push_cast
      calc ((z : ZMod secp256k1N) + r * d) * v = (z + r * d) * v * (k * w) := by rw [hw', mul_one]
        _ = ((z + r * d) * w) * v * k := by ring
        _ = (s * v) * k := by rw [he]
        _ = k := by rw [hv, one_mul]
    rw [e1, hk]
    exact ⟨x, y, h, rfl, hx⟩
  · have e0 : ((z + r * d) * v + k) • gen = 0 := by
      rw [show (0 : E) = 0 • gen from (zero_nsmul _).symm]
      refine smul_cast ?_
      push_cast
      calc ((z : ZMod secp256k1N) + r * d) * v + k = (z + r * d) * v * (k * w) + k := by rw [hw', mul_one]
        _ = -(-((z + r * d) * w)) * v * k + k := by ring
        _ = -(s * v) * k + k := by rw [he]; ring
        _ = 0 := by rw [hv]; ring
    rw [add_nsmul] at e0
    have e1 : ((z + r * d) * v) • gen = -(k • gen) := eq_neg_of_add_eq_zero_left e0
    rw [e1, hk, WeierstrassCurve.Affine.Point.neg_some]
    exact ⟨x, _, _, rfl, hx⟩

/-- C137: what a node signs with its key is a signature for the public key of that key, whatever the way nonces are chosen. -/
theorem c137_sign (nonce : Nat → Bytes → Nat) (d : Nat) (hash : Bytes) (hn : 0 < nonce d hash ∧ nonce d hash < secp256k1N) (r s : Nat)
    (h : sign nonce d hash = some (r, s)) : Signs (d • gen) (hashToInt hash secp256k1N) r s ∧ s ≤ secp256k1N / 2 := by
  unfold sign at h
  generalize hashToInt hash secp256k1N = z at h ⊢
  generalize nonce d hash = k at h hn
  have hk := is_baseMul (hn.2.trans N_lt)
  generalize baseMul k = p at h hk
  generalize hK : k • gen = K at hk
  cases hk with
  | zero => cases h
  | @some x y hx hy hns =>
    dsimp only at h
    split at h
    · cases h
    rename_i hr
    generalize hs0 : (d * (x % secp256k1N) + z) * invN k % secp256k1N = s0 at h
    have hs0lt : s0 < secp256k1N := by rw [← hs0]; exact Nat.mod_lt _ N_pos
    have hs0eq : (s0 : ZMod secp256k1N) = (z + (x % secp256k1N : Nat) * d) * invN k := by
      rw [← hs0, ZMod.natCast_mod]; push_cast; ring
    generalize hs : (if s0 > secp256k1N / 2 then secp256k1N - s0 else s0) = s' at h
    split at h
    · cases h
    rename_i hs'
    injection h with h; injection h with h1 h2
    subst h2
    have hrlt : x % secp256k1N < secp256k1N := Nat.mod_lt _ N_pos
    rw [← h1]
    have hle : s' ≤ secp256k1N / 2 ∧ s' < secp256k1N := by
      have := N_two
      split at hs <;> omega
    refine ⟨?_, hle.1⟩
    refine c137_equation d k z _ s' (invN k) (Nat.pos_of_ne_zero hr) hrlt (Nat.pos_of_ne_zero hs') hle.2 (invN_spec hn.1 hn.2) ?_ _ _ hns hK
      (by rw [ZMod.val_natCast_of_lt hx])
    split at hs
    · right
      rw [← hs, Nat.cast_sub hs0lt.le, hs0eq, ZMod.natCast_self, zero_sub]
    · left
      rw [← hs, hs0eq]

theorem N_field : secp256k1N < fieldP := by decide +kernel

/-- the 33 bytes of a public key are read as the key -/
theorem parse_pubKeyOf {d : Nat} (h0 : 0 < d) (h : d < secp256k1N) : ∃ q, parsePubKey (pubKeyOf d) = some q ∧ Is (some q) (d • gen) := by
  have hq := is_baseMul (h.trans N_lt)
  unfold pubKeyOf
  rcases hb : baseMul d with _ | q
  · exact absurd ((c137_public_key h N_pos).2.1 hb) (by omega)
  rw [hb] at hq
  exact ⟨q, KeyTexts.serialize_parse (is_onCurve hq).1, hq⟩

/-- C137: a share signed by a node is accepted under the node's public key. -/
theorem c137_node (sha : Bytes → Bytes) (nonce : Nat → Bytes → Nat) (d : Nat) (h0 : 0 < d) (h : d < secp256k1N) (msg sig : Bytes)
    (hn : 0 < nonce d (sha msg) ∧ nonce d (sha msg) < secp256k1N) (hs : signBytes sha nonce d msg = some sig) :
    verifyBytes sha (pubKeyOf d) msg sig = true := by
  unfold signBytes at hs
  rcases he : sign nonce d (sha msg) with _ | ⟨r, s⟩
  · rw [he] at hs; cases hs
  rw [he] at hs
  injection hs with hs
  subst hs
  obtain ⟨h1, h2⟩ := c137_sign nonce d _ hn r s he
  obtain ⟨q, hq, hq'⟩ := parse_pubKeyOf h0 h
  have hr := length_padded (h1.2.1.trans N_field)
  have hs := length_padded (h1.2.2.2.1.trans N_field)
  have e1 : (padded (Bytes.ofNat r) ++ padded (Bytes.ofNat s)).take 32 = padded (Bytes.ofNat r) := by rw [← hr]; simp
  have e2 : (padded (Bytes.ofNat r) ++ padded (Bytes.ofNat s)).drop 32 = padded (Bytes.ofNat s) := by rw [← hr]; simp
  unfold verifyBytes
  dsimp only
  rw [if_pos (by rw [List.length_append, hr, hs]), hq, e1, e2, toNat_padded, toNat_padded, Bytes.toNat_ofNat, Bytes.toNat_ofNat]
  dsimp only
  rw [if_neg (by omega)]
  exact (c137_verify q _ hq' _ r s).2 h1

/-- C137: what is accepted of a node's shares: 64 bytes with r and s, s in the lower half, a signature of the hash for the point of the key. -/
theorem c137_accepted (sha : Bytes → Bytes) (key msg sig : Bytes) :
    verifyBytes sha key msg sig = true ↔ ∃ q Q rb sb, parsePubKey key = some q ∧ Is (some q) Q ∧ sig = rb ++ sb ∧ rb.length = 32 ∧ sb.length = 32 ∧
      Signs Q (hashToInt (sha msg) secp256k1N) (Bytes.toNat rb) (Bytes.toNat sb) ∧ Bytes.toNat sb ≤ secp256k1N / 2 := by
  unfold verifyBytes
  constructor
  · intro h
    split at h
    · rename_i hl
      split at h
      · cases h
      · rename_i q hq
        dsimp only at h
        split at h
        · cases h
        · rename_i hs
          have ho := parse_onCurve hq
          have hQ := is_elem q ((onCurve_iff q).2 ho)
          refine ⟨q, _, sig.take 32, sig.drop 32, hq, hQ, (List.take_append_drop 32 sig).symm, by simp [hl], by simp [hl], ?_, by omega⟩
          exact (c137_verify q _ hQ _ _ _).1 h
    · cases h
  · rintro ⟨q, Q, rb, sb, hq, hQ, rfl, h1, h2, hs, hle⟩
    have e1 : (rb ++ sb).take 32 = rb := by rw [← h1]; simp
    have e2 : (rb ++ sb).drop 32 = sb := by rw [← h1]; simp
    rw [if_pos (by rw [List.length_append, h1, h2]), hq, e1, e2]
    dsimp only
    rw [if_neg (by omega)]
    exact (c137_verify q _ hQ _ _ _).2 hs

/-! ## the signatures of a session -/
section
open Verif.RealKeys Verif.Bech32 Verif.Spec Verif.Props.Agreed

/-- C137: in a session, the signatures that a node makes with its private key are valid for the node's key text: with the program's key encoding and
signature scheme nothing has to be assumed about signatures. -/
theorem c137_session {P : Type} [DecidableEq P] (prog : TssCommon.Env Str P) (peerOf : Bytes → Option P) (rawOf : P → Option Bytes) (id : String) (sha : Bytes → Bytes) (nonce : Nat → Bytes → Nat)
    (hn : ∀ d h, 0 < nonce d h ∧ nonce d h < secp256k1N) (hv : prog.verify = verifyBytes sha) (d : Nat) (h0 : 0 < d) (hd : d < secp256k1N) (k : Str)
    (hk : encodeKey (pubKeyOf d) = some k) (sign : Bytes → Bytes)
    (hs : ∀ b, signBytes sha nonce d (b ++ id.toUTF8.data.toList) = some (sign b)) : SignsFor prog ⟨decodeKey, encodeKey, peerOf, rawOf⟩ id k sign := by
  intro kb hkb b
  have e1 := KeyTexts.c115_law _ _ hk
  have e2 := KeyTexts.c115_law _ _ (show encodeKey kb = some k from hkb)
  rw [e1] at e2
  injection e2 with e2
  rw [← e2, hv]
  exact c137_node sha nonce d h0 hd _ _ (hn _ _) (hs b)

end

/-! ## the pool's signatures -/
section
open Verif.Bech32 (Str decodeKey)
open Verif.SigNotifier Verif.Session Verif.Protobuf

/-- the point that a key text carries, as an element of the group -/
def Names (key : Str) (Q : E) : Prop := ∃ b q, decodeKey key = some b ∧ parsePubKey b = some q ∧ Is (some q) Q

/-- C137: the check of a pool's signature accepts exactly the ECDSA signatures of the message for the point that the pool's key carries. -/
theorem c137_pool (key : Str) (msg : Bytes) (r s : Nat) :
    verifyPool decodeKey key msg r s = some true ↔ ∃ Q, Names key Q ∧ Signs Q (hashToInt msg secp256k1N) r s := by
  unfold verifyPool
  constructor
  · intro h
    split at h
    · cases h
    rename_i b hb
    split at h
    · cases h
    rename_i q hq
    have hQ := is_elem q ((onCurve_iff q).2 (parse_onCurve hq))
    injection h with h
    exact ⟨_, ⟨b, q, hb, hq, hQ⟩, (c137_verify q _ hQ _ _ _).1 h⟩
  · rintro ⟨Q, ⟨b, q, hb, hq, hQ⟩, h⟩
    rw [hb]; dsimp only
    rw [hq]; dsimp only
    rw [(c137_verify q _ hQ _ _ _).2 h]

/-- the notifier with the program's keys, signatures and messages -/
def notifierEnv : SigNotifier.Env := ⟨fun k => verifyPool decodeKey k.toList, decNotice, decSig⟩

/-- C137: whatever notifications arrive, the signatures that a waiting request is served with are ECDSA signatures of its messages, in order, for the
pool key it was made with. -/
theorem c137_waiting (h : List Event) (w : Nat) (d : List Sig) (hr : (run notifierEnv h).result w = some (.ok d)) :
    ∃ id msgs key, (Notified.waitsOf h)[w]? = some (id, msgs, key) ∧ d ≠ [] ∧ ∀ (i : Nat) (sig : Sig), d[i]? = some sig →
      ∃ m Q, msgs[i]? = some m ∧ Names key.toList Q ∧ Signs Q (hashToInt m secp256k1N) (Bytes.toNat sig.r) (Bytes.toNat sig.s) := by
  obtain ⟨id, msgs, key, h1, h2, -, h3, -⟩ := Notified.c47_verified_partial notifierEnv h w d hr
  refine ⟨id, msgs, key, h1, h2, fun i sig hi => ?_⟩
  obtain ⟨m, hm, -, hv⟩ := h3 i sig hi
  obtain ⟨Q, hQ, hs⟩ := (c137_pool _ _ _ _).1 hv
  exact ⟨m, Q, hm, hQ, hs⟩

/-- C137: a signature is not the only one: with -s for s it is accepted as well. A node that announces signatures can make the waiting nodes answer with
other signatures than the signers did. -/
theorem c137_malleable (Q : E) (z r s : Nat) (h : Signs Q z r s) : Signs Q z r (secp256k1N - s) ∧ secp256k1N - s ≠ s := by
  obtain ⟨h1, h2, h3, h4, w, hw, x, y, hn, he, hx⟩ := h
  have hodd : secp256k1N % 2 = 1 := by decide +kernel
  refine ⟨⟨h1, h2, by omega, by omega, invN (secp256k1N - s), invN_spec (by omega) (by omega), ?_⟩, by omega⟩
  have hv := cast_one (invN_spec (s := secp256k1N - s) (by omega) (by omega))
  rw [Nat.cast_sub h4.le, ZMod.natCast_self, zero_sub] at hv
  generalize invN (secp256k1N - s) = v at hv ⊢
  have hw' := cast_one hw
  have hvw : (v : ZMod secp256k1N) = -w := by
    calc (v : ZMod secp256k1N) = v * (s * w) := by rw [hw', mul_one]
      _ = -((-s) * v) * w := by ring
      _ = -w := by rw [hv]; ring
  have hneg : ∀ (n : Nat) (P : E), (n * v % secp256k1N) • P = -((n * w % secp256k1N) • P) := by
    intro n P
    obtain ⟨d, -, rfl⟩ := exists_smul P
    rw [eq_neg_iff_add_eq_zero, ← add_nsmul, ← mul_nsmul', show (0 : E) = 0 • gen from (zero_nsmul _).symm]
    refine smul_cast ?_
    push_cast
    rw [ZMod.natCast_mod, ZMod.natCast_mod]
    push_cast; rw [hvw]; ring
  rw [hneg, hneg, ← neg_add, he, WeierstrassCurve.Affine.Point.neg_some]
  exact ⟨x, _, _, rfl, hx⟩

/-- C137: messages are not hashed before they are signed, so for every key there are messages with a valid signature that nobody has made: any
combination aG + bQ of the base point and the key gives one. -/
theorem c137_forged (Q : E) (a b : Nat) (hb : 0 < b) (hb' : b < secp256k1N) (x y : ZMod fieldP) (h : curve.Nonsingular x y)
    (hR : a • gen + b • Q = .some x y h) (hx : x.val % secp256k1N ≠ 0) :
    ∃ msg s, msg.length = 32 ∧ Signs Q (hashToInt msg secp256k1N) (x.val % secp256k1N) s := by
  generalize hr : x.val % secp256k1N = r at hx
  have hr' : r < secp256k1N := by rw [← hr]; exact Nat.mod_lt _ N_pos
  generalize hs : r * invN b % secp256k1N = s
  generalize hz : a * s % secp256k1N = z
  have hz' : z < secp256k1N := by rw [← hz]; exact Nat.mod_lt _ N_pos
  have hsb : (s : ZMod secp256k1N) * b = r := by
    rw [← hs, ZMod.natCast_mod]; push_cast
    rw [mul_assoc, mul_comm (invN b : ZMod secp256k1N), cast_one (invN_spec hb hb'), mul_one]
  have hr0 : (r : ZMod secp256k1N) ≠ 0 := by
    rw [Ne, ZMod.natCast_eq_zero_iff]; intro hd; exact absurd (Nat.le_of_dvd (Nat.pos_of_ne_zero hx) hd) (by omega)
  have hs0 : 0 < s := by
    rcases Nat.eq_zero_or_pos s with h | h
    · rw [h] at hsb; simp at hsb; exact absurd hsb.symm hr0
    · exact h
  have hs' : s < secp256k1N := by rw [← hs]; exact Nat.mod_lt _ N_pos
  have hlen := length_padded (hz'.trans N_field)
  refine ⟨padded (Bytes.ofNat z), s, hlen, Nat.pos_of_ne_zero hx, hr', hs0, hs', invN s, invN_spec hs0 hs', x, y, h, ?_, hr⟩
  have hzz : hashToInt (padded (Bytes.ofNat z)) secp256k1N = z := by
    have hbit : bitLen secp256k1N = 256 := by decide +kernel
    unfold hashToInt
    simp only [hbit, hlen]
    simp [toNat_padded, Bytes.toNat_ofNat, hlen]
  rw [hzz, ← hR]
  have hi := cast_one (invN_spec hs0 hs')
  generalize invN s = v at hi ⊢
  obtain ⟨d, -, rfl⟩ := exists_smul Q
  rw [← mul_nsmul', ← mul_nsmul', ← add_nsmul, ← add_nsmul]
  refine smul_cast ?_
  push_cast
  rw [ZMod.natCast_mod, ZMod.natCast_mod, ← hz]
  push_cast
  rw [ZMod.natCast_mod]
  push_cast
  calc (a : ZMod secp256k1N) * s * v + r * v * d = a * (s * v) + (s * b) * v * d := by rw [hsb]; ring
    _ = a * (s * v) + b * (s * v) * d := by ring
    _ = a + b * d := by rw [hi]; ring

/-- C137: every key on the curve has exactly one private key. -/
theorem c137_every_key (q : Point) (hq : OnCurve q) : ∃! d, 0 < d ∧ d < secp256k1N ∧ baseMul d = some q := by
  have hQ := is_elem q hq
  obtain ⟨d, hd, he⟩ := exists_smul (elem q hq)
  have hb := is_baseMul (hd.trans N_lt)
  rw [← he] at hb
  have e := is_unique' hb hQ
  refine ⟨d, ⟨?_, hd, e⟩, ?_⟩
  · rcases Nat.eq_zero_or_pos d with h | h
    · have := (c137_public_key hd N_pos).2.2 h
      rw [e] at this; cases this
    · exact h
  · rintro d' ⟨-, hd', e'⟩
    exact (c137_public_key hd' hd).1.1 (e'.trans e.symm)

end

/-! ## cases -/

/-- the private key 5 -/
def five : Point :=
  ⟨0x2F8BDE4D1A07209355B4A7250A5C5128E88B84BDDC619AB7CBA8D569B240EFE4, 0xD8AC222636E5E3D6D4DBA9DDA6C9C426F788271BAB0D6840DCA87D3AA6AC62D6⟩

theorem five_eq : baseMul 5 = some five := by decide +kernel

theorem any_some {α : Type} {o : Option α} {p : α → Bool} (h : o.any p = true) : ∃ a, o = some a ∧ p a = true := by
  cases o with
  | none => cases h
  | some a => exact ⟨a, rfl, h⟩

theorem two_false {a b : Bool} (h : (!a && !b) = true) : a = false ∧ b = false := by
  cases a <;> cases b <;> first | exact ⟨rfl, rfl⟩ | cases h

/-- a nonce -/
def three (_ : Nat) (_ : Bytes) : Nat := 3

theorem three_ok (d : Nat) (h : Bytes) : 0 < three d h ∧ three d h < secp256k1N := by
  show 0 < 3 ∧ 3 < secp256k1N
  decide +kernel

theorem signed : ((sign three 5 [1, 2, 3]).any fun p => !verify five [1, 2, 4] p.1 p.2 && !verify five [1, 2, 3] p.1 (p.2 + 1)) = true := by
  decide +kernel

/-- the key 5 signs a message, and the signature is accepted -/
example : ∃ r s, sign three 5 [1, 2, 3] = some (r, s) ∧ verify five [1, 2, 3] r s = true ∧ verify five [1, 2, 4] r s = false ∧
    verify five [1, 2, 3] r (secp256k1N - s) = true ∧ verify five [1, 2, 3] r (s + 1) = false := by
  obtain ⟨⟨r, s⟩, he, h⟩ := any_some signed
  have h := two_false h
  have h5 : Is (some five) (5 • gen) := by rw [← five_eq]; exact is_baseMul (by decide)
  have hs := (c137_sign three 5 _ (three_ok _ _) r s he).1
  exact ⟨r, s, he, (c137_verify _ _ h5 _ _ _).2 hs, h.1, (c137_verify _ _ h5 _ _ _).2 (c137_malleable _ _ _ _ hs).1, h.2⟩

/-- a node with the key 5 signs a share -/
example : ∃ sig, signBytes id three 5 [1, 2, 3] = some sig ∧ sig.length = 64 ∧ verifyBytes id (pubKeyOf 5) [1, 2, 3] sig = true := by
  have h : ((signBytes id three 5 [1, 2, 3]).any fun sig => sig.length = 64) = true := by decide +kernel
  obtain ⟨sig, he, h⟩ := any_some h
  exact ⟨sig, he, of_decide_eq_true h, c137_node id three 5 (by decide) (by decide +kernel) _ _ (three_ok _ _) he⟩

/-- a forged message for the key 5 -/
example : ∃ msg r s, msg.length = 32 ∧ verify five msg r s = true := by
  have h5 : Is (some five) (5 • gen) := by rw [← five_eq]; exact is_baseMul (by decide)
  have h6 : Is (baseMul 6) (6 • gen) := is_baseMul (by decide)
  have hx : ((baseMul 6).any fun q => q.x % secp256k1N ≠ 0) = true := by decide +kernel
  generalize baseMul 6 = q at h6 hx
  generalize hR : 6 • gen = R at h6
  cases h6 with
  | zero => cases hx
  | @some x y hx' hy hn =>
    have e : 1 • gen + 1 • (5 • gen) = .some (x : ZMod fieldP) (y : ZMod fieldP) hn := by
      rw [← hR, one_nsmul, one_nsmul, ← succ_nsmul']
    have hv : (x : ZMod fieldP).val = x := ZMod.val_natCast_of_lt hx'
    obtain ⟨msg, s, h1, h2⟩ := c137_forged (5 • gen) 1 1 (by decide) (by decide +kernel) _ _ hn e (by rw [hv]; exact of_decide_eq_true hx)
    exact ⟨msg, _, s, h1, (c137_verify _ _ h5 _ _ _).2 h2⟩

end Verif.Props.Ecdsa
