import Verif.Lemmas.Base58
import Verif.Spec.PeerId
import Verif.Props.C115_C116

/-!
# C127: peer ids and their texts

The program prints peer ids, keeps and compares the texts, sends them to others and reads them back.  A text stands for exactly one peer id, and the
peer id of a key is the one every other libp2p node computes.
-/
set_option linter.unusedSectionVars false
namespace Verif.Props.PeerTexts
open Verif.Go Verif.Curve Verif.RealKeys Verif.Conversion Verif.Base58 Verif.Spec.PeerId Verif.Props.KeyTexts Verif.Props.PoolKeys
open Verif.Bech32 (Str decodeKey)

/-! ## digits, as Mathlib has them -/

theorem ofDigits_value (B : Nat) (ds : List Nat) : Nat.ofDigits B ds.reverse = value B ds := by
  induction ds using List.reverseRecOn with
  | nil => rfl
  | append_singleton ds d ih =>
    rw [List.reverse_append, List.reverse_singleton, List.singleton_append, Nat.ofDigits_cons, ih, value_snoc]
    simp [Nat.mul_comm, Nat.add_comm]

theorem ofDigits_bytes (b : Bytes) : Nat.ofDigits 256 (b.reverse.map UInt8.toNat) = value 256 (b.map UInt8.toNat) := by
  rw [← ofDigits_value, List.map_reverse]

theorem zeros_bytes (b : Bytes) : ((b.map UInt8.toNat).takeWhile (· == 0)).length = (b.takeWhile (· == 0)).length := by
  rw [List.takeWhile_map, List.length_map]
  congr 2
  funext x
  rw [Bool.eq_iff_iff]
  simp only [Function.comp, beq_iff_eq]
  exact ⟨fun h => UInt8.toNat_inj.1 h, fun h => by rw [h]; rfl⟩

theorem letters_eq : ∀ d < 58, letters.getD d '?' = alphabet.getD d '1' := by decide +kernel

theorem convert_unique {A B : Nat} (hB : 2 ≤ B) {xs ds : List Nat} (hd : ∀ d ∈ ds, d < B) (hv : value B ds = value A xs)
    (hz : (ds.takeWhile (· == 0)).length = (xs.takeWhile (· == 0)).length) : ds = convert A B xs := by
  rw [convert, ← hz, ← hv, digits_value hB ds hd, zeros_drop]

/-- C127: a byte string has exactly one base58 text, the one that is printed. -/
theorem c127_text (s : Str) (b : Bytes) : IsBase58 s b ↔ s = encode b := by
  constructor
  · rintro ⟨ds, h1, h2, h3, h4⟩
    rw [ofDigits_value, ofDigits_bytes] at h3
    rw [← zeros_bytes] at h4
    rw [h2, encode, ← convert_unique (by omega) h1 h3 h4]
    exact List.map_congr_left fun d hd => letters_eq d (h1 d hd)
  · rintro rfl
    have hl := convert_lt (A := 256) (B := 58) (by omega) (b.map UInt8.toNat)
    refine ⟨_, hl, ?_, ?_, ?_⟩
    · exact List.map_congr_left fun d hd => (letters_eq d (hl d hd)).symm
    · rw [ofDigits_value, ofDigits_bytes, convert, value_zeros, value_digits (by omega)]
    · rw [takeWhile_convert (by omega), List.length_replicate, zeros_bytes]

/-- C127: different byte strings have different texts. -/
theorem c127_injective (b b' : Bytes) (h : encode b = encode b') : b = b' := by
  have h1 : convert 256 58 (b.map UInt8.toNat) = convert 256 58 (b'.map UInt8.toNat) := by
    have := congrArg values h
    rw [encode, encode, values_letters _ (convert_lt (by omega) _), values_letters _ (convert_lt (by omega) _)] at this
    injection this
  have h2 := congrArg (convert 58 256) h1
  rw [convert_convert (by omega) (by omega) _ (bytes_lt b), convert_convert (by omega) (by omega) _ (bytes_lt b')] at h2
  rw [← bytes_bytes b, h2, bytes_bytes]

/-! ## first letters -/

theorem encode_zero (b : Bytes) : encode (0 :: b) = '1' :: encode b := by
  simp only [encode, convert, List.map_cons, UInt8.toNat_zero]
  rw [List.takeWhile_cons_of_pos (by simp), List.length_cons, List.replicate_succ, List.cons_append, List.map_cons]
  rfl

theorem encode_top (a : Nat) (ha : a ≠ 0) (k : Nat) (b : Bytes) (h0 : ∀ x ∈ b.head?, x ≠ 0) (h1 : a * 58 ^ k ≤ value 256 (b.map UInt8.toNat))
    (h2 : value 256 (b.map UInt8.toNat) < (a + 1) * 58 ^ k) :
    ∃ s, encode b = (digits 58 a).map (fun d => alphabet.getD d '1') ++ s ∧ s.length = k := by
  obtain ⟨ds, g1, g2⟩ := digits_top (by omega : 2 ≤ 58) ha k _ h1 h2
  refine ⟨ds.map fun d => alphabet.getD d '1', ?_, by simpa using g2⟩
  have hz : (b.map UInt8.toNat).takeWhile (· == 0) = [] := by
    cases b with
    | nil => rfl
    | cons x b =>
      have := h0 x (by simp)
      rw [List.map_cons, List.takeWhile_cons_of_neg]
      simp only [beq_iff_eq]
      exact fun h => this (UInt8.toNat_inj.1 h)
  rw [encode, convert, hz, g1]
  simp

/-- the number of bytes `pre ++ b` lies between those with only zeros and only ones after `pre` -/
theorem value_range (pre : List Nat) (b : Bytes) : value 256 pre * 256 ^ b.length ≤ value 256 (pre ++ b.map UInt8.toNat) ∧
    value 256 (pre ++ b.map UInt8.toNat) < (value 256 pre + 1) * 256 ^ b.length := by
  have := value_lt (by omega : 2 ≤ 256) _ (bytes_lt b)
  rw [List.length_map] at this
  rw [value_append, List.length_map, Nat.add_mul, Nat.one_mul]
  omega

theorem sha_text {h : Bytes} (hh : h.length = 32) : ∃ s, encode ([0x12, 0x20] ++ h) = 'Q' :: 'm' :: s ∧ s.length = 44 := by
  obtain ⟨h1, h2⟩ := value_range [0x12, 0x20] h
  rw [hh] at h1 h2
  have e : ([0x12, 0x20] ++ h : Bytes).map UInt8.toNat = [0x12, 0x20] ++ h.map UInt8.toNat := rfl
  have a1 : 1378 * 58 ^ 44 ≤ value 256 [0x12, 0x20] * 256 ^ 32 := by decide +kernel
  have a2 : (value 256 [0x12, 0x20] + 1) * 256 ^ 32 ≤ (1378 + 1) * 58 ^ 44 := by decide +kernel
  exact encode_top 1378 (by decide) 44 ([0x12, 0x20] ++ h) (by simp) (by rw [e]; exact le_trans a1 h1) (by rw [e]; exact lt_of_lt_of_le h2 a2)

theorem key_text {x : UInt8} (hx : x = 2 ∨ x = 3) {b : Bytes} (hb : b.length = 32) :
    ∃ s, encode ([0x00, 0x25, 0x08, 0x02, 0x12, 0x21, x] ++ b) = "16Uiu2HA".toList ++ s ∧ s.length = 45 := by
  obtain ⟨h1, h2⟩ := value_range [0x25, 0x08, 0x02, 0x12, 0x21, x.toNat] b
  rw [hb] at h1 h2
  have e : ([0x25, 0x08, 0x02, 0x12, 0x21, x] ++ b : Bytes).map UInt8.toNat = [0x25, 0x08, 0x02, 0x12, 0x21, x.toNat] ++ b.map UInt8.toNat := rfl
  obtain ⟨s, g1, g2⟩ := encode_top (value 58 [5, 27, 41, 52, 1, 16, 9]) (by decide) 45 ([0x25, 0x08, 0x02, 0x12, 0x21, x] ++ b) (by simp)
    (by
      rw [e]
      refine le_trans ?_ h1
      rcases hx with rfl | rfl <;> decide +kernel)
    (by
      rw [e]
      refine lt_of_lt_of_le h2 ?_
      rcases hx with rfl | rfl <;> decide +kernel)
  refine ⟨s, ?_, g2⟩
  rw [show ([0x00, 0x25, 0x08, 0x02, 0x12, 0x21, x] ++ b : Bytes) = 0 :: ([0x25, 0x08, 0x02, 0x12, 0x21, x] ++ b) from rfl, encode_zero, g1]
  rfl

/-! ## reading texts -/

theorem peerId_ne {p : Bytes} (h : IsPeerId p) : p ≠ [] ∧ isMultihash p = true := by
  rcases h with ⟨b, hb, rfl⟩ | ⟨h, hh, rfl⟩
  · refine ⟨by simp [identityHash], ?_⟩
    have : (UInt8.ofNat b.length).toNat = b.length := by simp; omega
    simp [identityHash, isMultihash, this]
    omega
  · exact ⟨by simp, by simp [isMultihash, hh]⟩

/-- C127: the text of a peer id is read back as this peer id. -/
theorem c127_read_back (cid : Str → Option Bytes) (p : Bytes) (h : IsPeerId p) : peerDecode cid (encode p) = some p := by
  obtain ⟨h1, h2⟩ := peerId_ne h
  rw [peerDecode, if_pos, decode_encode h1]
  · simp [h2]
  · rcases h with ⟨b, hb, rfl⟩ | ⟨h, hh, rfl⟩
    · right
      rw [identityHash, show ([0, UInt8.ofNat b.length] ++ b : Bytes) = 0 :: (UInt8.ofNat b.length :: b) from rfl, encode_zero]
      rfl
    · left
      obtain ⟨s, hs, -⟩ := sha_text hh
      rw [hs]
      rfl

/-- C127: a text that is read as base58 (it begins with `1` or `Qm`) is the text of the peer id: no two such texts stand for the same peer. -/
theorem c127_read (cid : Str → Option Bytes) (s : Str) (p : Bytes) (hs : "1".toList <+: s ∨ "Qm".toList <+: s) (h : peerDecode cid s = some p) :
    s = encode p := by
  have : s.take 2 = "Qm".toList ∨ s.take 1 = "1".toList := by
    rcases hs with ⟨t, rfl⟩ | ⟨t, rfl⟩
    · right; rfl
    · left; rfl
  rw [peerDecode, if_pos this] at h
  cases hd : decode s with
  | none => rw [hd] at h; cases h
  | some b =>
    rw [hd] at h
    dsimp only at h
    split at h
    · cases h
      exact (encode_decode hd).2.symm
    · cases h

/-! ## keys -/

theorem ofKey_eq {b : Bytes} (hb : b.length = 33) : ofKey b = peerPrefix ++ b := by
  simp only [ofKey, identityHash, publicKey, numberField, bytesField, List.length_append, hb]
  rfl

/-- C127: the peer id of a key on the curve is the one that libp2p defines for it; its text begins with `16Uiu2HA` and has 53 letters; from the text
the node gets the key back. -/
theorem c127_key (cid : Str → Option Bytes) (k : Str) (h : CheckKeyOnCurve decodeKey k = .ok true) :
    ∃ b, decodeKey k = some b ∧ GetPeerIDFromPubKey codec k = .ok (ofKey b) ∧ IsPeerId (ofKey b) ∧
      "16Uiu2HA".toList <+: encode (ofKey b) ∧ (encode (ofKey b)).length = 53 ∧
      Base58.GetPubKeyFromPeerID cid (encode (ofKey b)) = .ok (k.map Char.toLower) := by
  obtain ⟨b, pt, h1, h2, h3⟩ := (c114_check decodeKey k).1.1 h
  have hl := (Props.KeyTexts.decodeKey_some h1).1
  have hpb : parsePubKey b = some pt := (parse_iff b pt).2 ⟨h2, h3⟩
  obtain ⟨-, rfl⟩ := parse_short hl hpb
  obtain ⟨p, g1, g2⟩ := c115_peer_of_key k h
  have hp : p = ofKey (serializeCompressed pt) := by
    unfold GetPeerIDFromPubKey at g1
    rw [codec_dec, codec_peerOf, h1] at g1
    dsimp only at g1
    unfold peerOf at g1
    rw [hpb] at g1
    injection g1 with g1
    rw [ofKey_eq hl, ← g1]
  subst hp
  have hid : IsPeerId (ofKey (serializeCompressed pt)) := .inl ⟨_, by simp [publicKey, numberField, bytesField, hl], rfl⟩
  refine ⟨_, h1, g1, hid, ?_⟩
  have ht : ∃ s, encode (ofKey (serializeCompressed pt)) = "16Uiu2HA".toList ++ s ∧ s.length = 45 := by
    rw [ofKey_eq hl]
    obtain ⟨x, t, hx, ht, ht'⟩ : ∃ x t, (x = 2 ∨ x = 3) ∧ serializeCompressed pt = x :: t ∧ t.length = 32 := by
      refine ⟨_, _, ?_, rfl, ?_⟩
      · split <;> simp
      · have := hl
        simpa [serializeCompressed] using this
    rw [ht]
    exact key_text hx ht'
  obtain ⟨s, hs, hs'⟩ := ht
  refine ⟨⟨s, hs.symm⟩, by rw [hs]; simp [hs'], ?_⟩
  rw [Base58.GetPubKeyFromPeerID, c127_read_back cid _ hid]
  exact g2

/-- C127: two keys have the same peer text only if they are the same key. -/
theorem c127_keys (k k' : Str) (p p' : Bytes) (h : CheckKeyOnCurve decodeKey k = .ok true) (h' : CheckKeyOnCurve decodeKey k' = .ok true)
    (hp : GetPeerIDFromPubKey codec k = .ok p) (hp' : GetPeerIDFromPubKey codec k' = .ok p') (he : encode p = encode p') :
    decodeKey k = decodeKey k' := by
  obtain ⟨b, h1, h2, -⟩ := c127_key (fun _ => none) k h
  obtain ⟨b', h1', h2', -⟩ := c127_key (fun _ => none) k' h'
  have e := c127_injective _ _ he
  rw [h2] at hp
  rw [h2'] at hp'
  injection hp with hp
  injection hp' with hp'
  rw [← hp, ← hp', ofKey_eq (Props.KeyTexts.decodeKey_some h1').1, ofKey_eq (Props.KeyTexts.decodeKey_some h1).1] at e
  rw [h1, h1', List.append_cancel_left e]

/-- C127: what is taken out of a text as a key is a key on the curve, and a text in base58 is the text of this key's peer id: other texts are refused. -/
theorem c127_only_keys (cid : Str → Option Bytes) (s k : Str) (h : Base58.GetPubKeyFromPeerID cid s = .ok k) :
    CheckKeyOnCurve decodeKey k = .ok true ∧
    ("1".toList <+: s ∨ "Qm".toList <+: s → ∃ p, GetPeerIDFromPubKey codec k = .ok p ∧ s = encode p) := by
  unfold Base58.GetPubKeyFromPeerID at h
  cases hp : peerDecode cid s with
  | none => rw [hp] at h; cases h
  | some p =>
    rw [hp] at h
    obtain ⟨b, hc, hb⟩ := c115_codec_lawful p k h
    have hb' := hb
    rw [codec_peerOf] at hb'
    unfold peerOf at hb'
    cases hpt : parsePubKey b with
    | none => rw [hpt] at hb'; cases hb'
    | some pt =>
      obtain ⟨g1, g2⟩ := (parse_iff b pt).1 hpt
      refine ⟨(c114_check decodeKey k).1.2 ⟨b, pt, hc.dec, g1, g2⟩, fun hs => ⟨p, ?_, c127_read cid s p hs hp⟩⟩
      unfold GetPeerIDFromPubKey
      rw [hc.dec]
      dsimp only
      rw [hb]

/-! ## examples -/

/-- the keys and peer ids noted in keysign/keysign_test.go:40-43 -/
def known : List (Str × Str) := [
  ("thorpub1addwnpepq2ryyje5zr09lq7gqptjwnxqsy2vcdngvwd6z7yt5yjcnyj8c8cn559xe69".toList, "16Uiu2HAm4TmEzUqy3q3Dv7HvdoSboHk5sFj2FH3npiN5vDbJC6gh".toList),
  ("thorpub1addwnpepqfjcw5l4ay5t00c32mmlky7qrppepxzdlkcwfs2fd5u73qrwna0vzag3y4j".toList, "16Uiu2HAm2FzqoUdS6Y9Esg2EaGcAG5rVe1r6BFNnmmQr2H3bqafa".toList),
  ("thorpub1addwnpepqtdklw8tf3anjz7nn5fly3uvq2e67w2apn560s4smmrt9e3x52nt2svmmu3".toList, "16Uiu2HAmACG5DtqmQsHtXg4G2sLS65ttv84e7MrL4kapkjfmhxAp".toList),
  ("thorpub1addwnpepqtspqyy6gk22u37ztra4hq3hdakc0w0k60sfy849mlml2vrpfr0wvm6uz09".toList, "16Uiu2HAmAWKWf5vnpiAhfdSQebTbbB3Bg35qtyG7Hr4ce23VFA8V".toList)]

/-- the model computes the peer ids noted in the repository, and the keys from them -/
example : ∀ x ∈ known, CheckKeyOnCurve decodeKey x.1 = .ok true ∧
    (match GetPeerIDFromPubKey codec x.1 with | .ok p => encode p | _ => []) = x.2 ∧
    (match Base58.GetPubKeyFromPeerID (fun _ => none) x.2 with | .ok k => k | _ => []) = x.1 := by decide +kernel

/-- a text with a wrong letter, or a letter which is not in the alphabet, is another peer id or none -/
example : decode "16Uiu2HAl".toList = none ∧ decode [] = none ∧ decode "11".toList = some [0, 0] ∧ peerDecode (fun _ => none) "11".toList = some [0, 0] ∧
    peerDecode (fun _ => none) "12".toList = none := by decide +kernel

/-- a peer id of a long key -/
example : IsPeerId ([0x12, 0x20] ++ List.replicate 32 7) ∧
    encode ([0x12, 0x20] ++ List.replicate 32 7) = "QmNp5n7FFav5ZDaHAj6HzuhJ8LDbL1N6NRzAgT6piWS2Kx".toList :=
  ⟨.inr ⟨_, rfl, rfl⟩, by decide +kernel⟩

end Verif.Props.PeerTexts
