import Verif.Lemmas.Bech32
import Verif.Model.RealKeys
import Verif.Props.C114
import Verif.Spec.Server

/-!
# C115, C116: keys, their texts and peer ids

The parameters of the other modules (key texts, peer ids, the check of a key) filled in with bech32, secp256k1 and libp2p's peer ids.
-/
set_option linter.unusedSectionVars false
namespace Verif.Props.KeyTexts
open Verif.Go Verif.Curve Verif.Bech32 Verif.RealKeys Verif.Conversion Verif.Props.PoolKeys

/-- Specification: the text is in lower case -/
def Lower (s : Str) : Prop := s.map Char.toLower = s

/-- Specification: two texts that differ at most in the case of their letters -/
def SameUpToCase (s s' : Str) : Prop := s.map Char.toLower = s'.map Char.toLower

/-! ## texts -/

theorem encodeKey_some {b : Bytes} (hb : b.length = 33) : ∃ cs, encodeKey b = some (accPubPrefix ++ '1' :: cs) ∧
    ∀ s, s = accPubPrefix ++ '1' :: cs ∨ s = (accPubPrefix ++ '1' :: cs).map Char.toUpper → decodeKey s = some b := by
  obtain ⟨cs, h1, h2⟩ := encode_some (aminoPrefix ++ b)
  refine ⟨cs, by rw [encodeKey, if_pos hb]; exact h1, fun s hs => ?_⟩
  have hp : aminoPrefix.length = 5 := rfl
  have := decode_text (b := aminoPrefix ++ b) (by rw [List.length_append, hb, hp]; omega) h2 s hs
  unfold decodeKey
  rw [this]
  dsimp only
  have e1 : (aminoPrefix ++ b).take 5 = aminoPrefix := by rw [← hp]; simp
  have e2 : (aminoPrefix ++ b).drop 5 = b := by rw [← hp]; simp
  rw [if_pos ⟨e1, by rw [List.length_append, hb, hp]⟩, e2]

theorem decodeKey_some {s : Str} {b : Bytes} (h : decodeKey s = some b) :
    b.length = 33 ∧ encodeKey b = some (s.map Char.toLower) ∧ (s.map Char.toLower = s ∨ s.map Char.toUpper = s) ∧
      ∃ cs, s.map Char.toLower = accPubPrefix ++ '1' :: cs ∧ ∀ c ∈ cs, c ∈ charset := by
  unfold decodeKey at h
  split at h
  · cases h
  · rename_i b' hd
    split at h
    · rename_i hc
      injection h with h
      obtain ⟨g1, g2, cs, g3, g4, -⟩ := decode_some hd
      have hl : b.length = 33 := by rw [← h, List.length_drop, hc.2]
      refine ⟨hl, ?_, g2, cs, g3, g4⟩
      rw [encodeKey, if_pos hl, ← g1, ← h]
      congr 1
      rw [← hc.1, List.take_append_drop]
    · cases h

/-- C115: every key of 33 bytes has a text in lower case, which decodes to the key. -/
theorem c115_text_of_key (b : Bytes) (hb : b.length = 33) : ∃ s, encodeKey b = some s ∧ Lower s ∧ decodeKey s = some b := by
  obtain ⟨cs, h1, h2⟩ := encodeKey_some hb
  have hd := h2 _ (.inl rfl)
  have := (decodeKey_some hd).2.1
  rw [h1] at this
  injection this with this
  exact ⟨_, h1, this.symm, hd⟩

/-- C115: a text that decodes is the text of the key, all in lower case or all in capitals. -/
theorem c115_key_of_text (s : Str) (b : Bytes) (h : decodeKey s = some b) :
    b.length = 33 ∧ encodeKey b = some (s.map Char.toLower) ∧ (s.map Char.toLower = s ∨ s.map Char.toUpper = s) :=
  ⟨(decodeKey_some h).1, (decodeKey_some h).2.1, (decodeKey_some h).2.2.1⟩

/-- C115: two texts decode to the same key exactly if they agree up to the case of the letters. -/
theorem c115_same_key (s s' : Str) (b b' : Bytes) (h : decodeKey s = some b) (h' : decodeKey s' = some b') : b = b' ↔ SameUpToCase s s' := by
  obtain ⟨h1, h2, -⟩ := decodeKey_some h
  obtain ⟨h1', h2', -⟩ := decodeKey_some h'
  constructor
  · rintro rfl
    rw [h2] at h2'
    injection h2'
  · intro hs
    unfold SameUpToCase at hs
    obtain ⟨cs, g1, g2⟩ := encodeKey_some h1
    obtain ⟨cs', g1', g2'⟩ := encodeKey_some h1'
    rw [h2] at g1
    rw [h2', ← hs] at g1'
    injection g1 with g1
    injection g1' with g1'
    have e1 := g2 _ (.inl rfl)
    have e2 := g2' _ (.inl rfl)
    rw [← g1] at e1
    rw [← g1', e1] at e2
    injection e2

/-! ## peer ids -/

/-- a compressed form is the one that is written -/
theorem compressed_unique {b : Bytes} {pt : Point} (hpt : OnCurve pt) (h : Compressed b pt) : b = serializeCompressed pt := by
  obtain ⟨f, rest, rfl, hf, hl, hx⟩ := h
  obtain ⟨f', rest', h', hf', hl', hx'⟩ := serialize_compressed hpt
  rw [h', Bytes.toNat_inj (by rw [hl, hl']) (hx.trans hx'.symm), UInt8.toNat_inj.1 (hf.trans hf'.symm)]

theorem parse_short {b : Bytes} {pt : Point} (hb : b.length = 33) (h : parsePubKey b = some pt) : OnCurve pt ∧ b = serializeCompressed pt := by
  obtain ⟨h1, h2 | h2⟩ := (parse_iff b pt).1 h
  · exact ⟨h1, compressed_unique h1 h2⟩
  · obtain ⟨f, xs, ys, rfl, -, hx, hy, -⟩ := h2
    simp [hx, hy] at hb

theorem serialize_length {pt : Point} (h : OnCurve pt) : (serializeCompressed pt).length = 33 := by
  simp [serializeCompressed, length_padded h.1]

theorem serialize_parse {pt : Point} (h : OnCurve pt) : parsePubKey (serializeCompressed pt) = some pt := by
  obtain ⟨h1, h2, h3⟩ := (onCurve_iff pt).1 h
  exact parse_serialize pt h1 h2 h3

theorem rawOf_peer {pt : Point} (h : OnCurve pt) : rawOf (peerPrefix ++ serializeCompressed pt) = some (serializeCompressed pt) := by
  have hp : peerPrefix.length = 6 := rfl
  have e1 : (peerPrefix ++ serializeCompressed pt).take 6 = peerPrefix := by rw [← hp]; simp
  have e2 : (peerPrefix ++ serializeCompressed pt).drop 6 = serializeCompressed pt := by rw [← hp]; simp
  unfold rawOf
  rw [if_pos ⟨e1, by rw [List.length_append, hp, serialize_length h]⟩, e2, serialize_parse h]
  rfl

theorem codec_dec : codec.dec = decodeKey := rfl
theorem codec_enc : codec.enc = encodeKey := rfl
theorem codec_peerOf : codec.peerOf = peerOf := rfl
theorem codec_rawOf : codec.rawOf = rawOf := rfl

/-- C115: a text in lower case that carries a point of the curve is canonical in the sense of C04: it decodes to a key which encodes to it, and
the peer id of that key gives the key back. -/
theorem c115_canonical (k : Str) (hk : Lower k) (h : CheckKeyOnCurve decodeKey k = .ok true) :
    ∃ b p, Conv.Canonical codec k b ∧ codec.peerOf b = some p := by
  obtain ⟨b, pt, h1, h2, h3⟩ := (c114_check decodeKey k).1.1 h
  have hl := (decodeKey_some h1).1
  have hpb : parsePubKey b = some pt := (parse_iff b pt).2 ⟨h2, h3⟩
  obtain ⟨-, rfl⟩ := parse_short hl hpb
  refine ⟨serializeCompressed pt, peerPrefix ++ serializeCompressed pt, ⟨h1, ?_, ?_, ?_⟩, ?_⟩
  · have := (decodeKey_some h1).2.1
    rwa [hk] at this
  · refine ⟨_, _, rfl, ?_⟩
    split <;> decide
  · intro p hp
    change peerOf _ = _ at hp
    unfold peerOf at hp
    rw [hpb] at hp
    injection hp with hp
    rw [← hp]
    exact rawOf_peer h2
  · change peerOf _ = _
    unfold peerOf
    rw [hpb]
    rfl

/-- C115: keys taken out of peer ids are canonical and lead back to the peer id: what the theorems about joining and signing assume of the
encodings. -/
theorem c115_codec_lawful : Spec.Server.LawfulKeys codec := by
  intro p k h
  unfold GetPubKeyFromPeerID at h
  rw [codec_rawOf, codec_enc] at h
  unfold rawOf at h
  split at h
  · cases h
  · rename_i b hb
    split at hb
    · rename_i hc
      cases hp : parsePubKey (p.drop 6) with
      | none => rw [hp] at hb; cases hb
      | some pt =>
        rw [hp] at hb
        injection hb with hb
        obtain ⟨h2, h3⟩ := parse_short (by rw [List.length_drop, hc.2]) hp
        obtain ⟨s, g1, g2, g3⟩ := c115_text_of_key b (by rw [← hb]; exact serialize_length h2)
        rw [g1] at h
        injection h with h
        subst h
        subst hb
        have hck : CheckKeyOnCurve decodeKey s = .ok true :=
          (c114_check decodeKey s).1.2 ⟨_, pt, g3, h2, .inl (serialize_compressed h2)⟩
        obtain ⟨b', p', hcan, -⟩ := c115_canonical s g2 hck
        have : b' = serializeCompressed pt := by
          have := hcan.dec
          change decodeKey s = _ at this
          rw [g3] at this
          injection this with this
          exact this.symm
        subst this
        refine ⟨_, hcan, ?_⟩
        change peerOf _ = _
        unfold peerOf
        rw [serialize_parse h2]
        change some (peerPrefix ++ serializeCompressed pt) = _
        rw [← h3, ← hc.1, List.take_append_drop]
    · cases hb

/-- C115: the peer id of a key text gives back the text, in lower case; every text of a point of the curve has a peer id. -/
theorem c115_peer_of_key (k : Str) (h : CheckKeyOnCurve decodeKey k = .ok true) :
    ∃ p, GetPeerIDFromPubKey codec k = .ok p ∧ GetPubKeyFromPeerID codec p = .ok (k.map Char.toLower) := by
  obtain ⟨b, pt, h1, h2, h3⟩ := (c114_check decodeKey k).1.1 h
  have hl := (decodeKey_some h1).1
  have hpb : parsePubKey b = some pt := (parse_iff b pt).2 ⟨h2, h3⟩
  obtain ⟨-, rfl⟩ := parse_short hl hpb
  refine ⟨peerPrefix ++ serializeCompressed pt, ?_, ?_⟩
  · unfold GetPeerIDFromPubKey
    rw [codec_dec, codec_peerOf, h1]
    dsimp only
    unfold peerOf
    rw [hpb]
    rfl
  · unfold GetPubKeyFromPeerID
    rw [codec_rawOf, codec_enc, rawOf_peer h2]
    dsimp only
    rw [(decodeKey_some h1).2.1]

/-- C115: what the theorems about storage assume of the check of a key. -/
theorem c115_storage_good {S : Type} (env : Storage.Env S) (hcheck : ∀ k, env.checkKey k = CheckKeyOnCurve decodeKey k.toList)
    (hjson : ∀ s b, env.enc s = some b → env.dec b = some s) : Storage.Good env accPubPrefix where
  slash := by decide +kernel
  key k h := by
    rw [hcheck] at h
    obtain ⟨b, pt, h1, -⟩ := (c114_check decodeKey _).1.1 h
    obtain ⟨-, -, -, cs, h2, h3⟩ := decodeKey_some h1
    exact ⟨cs, h2, h3⟩
  json := hjson

/-- C115: a node whose keys are these has what C114 assumes. -/
theorem c115_law (b : Bytes) (k : Str) (h : encodeKey b = some k) : decodeKey k = some b := by
  unfold encodeKey at h
  split at h
  · rename_i hb
    obtain ⟨s, h1, -, h3⟩ := c115_text_of_key b hb
    unfold encodeKey at h1
    rw [if_pos hb] at h1
    rw [h] at h1
    injection h1 with h1
    rw [h1]; exact h3
  · cases h

/-! ## examples -/

/-- the text of the generator -/
def textG : Str := "thorpub1addwnpepqfumuen7l8wthtz45p3ftn58pvrs9xlumvkuu2xet8egzkcklqtesc6p3ea".toList

example : encodeKey (serializeCompressed G) = some textG ∧ decodeKey textG = some (serializeCompressed G) ∧
    decodeKey (textG.map Char.toUpper) = some (serializeCompressed G) ∧ Lower textG ∧ textG.map Char.toUpper ≠ textG := by
  unfold Lower
  decide +kernel

/-- a text with a wrong letter is refused -/
example : decodeKey (textG.set 20 'q') = none ∧ decodeKey "thorpub1".toList = none := by decide +kernel

/-! ## C116: other spellings -/

/-- C116 (partial): a node that is given texts in lower case, as it prints them itself, treats equal keys equally: accepted lower-case texts of the
same point are the same text. Missing: texts in capitals, see `c116_capitals_not_found`. -/
theorem c116_lower_partial (k k' : Str) (hk : Lower k) (hk' : Lower k') (b : Bytes) (h : decodeKey k = some b) (h' : decodeKey k' = some b) : k = k' := by
  have := (c115_same_key k k' b b h h').1 rfl
  unfold SameUpToCase at this
  rwa [hk, hk'] at this

/-- a storage of states that are just their key, with the check of keys as it is -/
def textStorage : Storage.Env Str := ⟨fun k => CheckKeyOnCurve decodeKey k.toList, fun s => some (s.map fun c => UInt8.ofNat c.toNat),
  fun b => some (b.map fun x => Char.ofNat x.toNat)⟩

/-- C116 is false: the share of a pool key is stored; the same key in capitals passes the check of keys, but its share is not found. -/
theorem c116_capitals_not_found :
    let disk := (Storage.SaveLocalState textStorage String.ofList ["home"] textG none []).1
    let capitals := textG.map Char.toUpper
    CheckKeyOnCurve decodeKey capitals = .ok true ∧ decodeKey capitals = decodeKey textG ∧
      Storage.GetLocalState textStorage ["home"] (String.ofList textG) disk = .ok textG ∧
      Storage.GetLocalState textStorage ["home"] (String.ofList capitals) disk = .err "not exist" := by decide +kernel

/-- C116 is false: a node whose key stands in capitals in a request is told that it is not in the list. -/
theorem c116_capitals_not_party :
    GetPeerIDFromPubKey codec (textG.map Char.toUpper) = GetPeerIDFromPubKey codec textG ∧
      (match GetParties decodeKey [textG] textG with | .ok (ps, _) => ps.length | _ => 0) = 1 ∧
      (match GetParties decodeKey [textG.map Char.toUpper] textG with | .err e => e | _ => "") = "local party is not in the list" := by
  decide +kernel

/-! ## Keygen with these keys -/
section demo
open Verif.Keygen Verif.Server Verif.Session
open Verif.Spec.DemoServer (key)

/-- the share of node 1 -/
def shareG : LocalState Unit := ⟨textG, (), [key 0, key 1, key 2, key 3], key 1⟩

/-- node 1 of the example of C52, with the curve and the key texts as they are; the new key is the generator -/
def nodeG : KEnv Nat Nat Nat Unit Point Unit Nat where
  base := { Spec.DemoServer.env 1 with
    storage := ⟨fun k => CheckKeyOnCurve decodeKey k.toList, fun s => if s = shareG then some [1, 2] else none,
      fun b => if b = [1, 2] then some shareG else none⟩ }
  ownKey := key 1
  preParams := true
  pubOf _ := G
  onCurve pt := isOnCurve pt.x pt.y
  bech32 pt := encodeKey (serializeCompressed pt)
  address _ := "addr".toList
  addr := ⟨fun _ => ['a'], fun _ => ['q'], fun _ => none, fun _ => [], fun _ => []⟩

/-- the hypotheses of `c114_keygen_key` and `c114_keygen_errors` -/
example : RealKeys nodeG encodeKey decodeKey ∧ (∀ l, OnCurve (nodeG.pubOf l)) ∧ Storage.Good nodeG.base.storage accPubPrefix := by
  refine ⟨⟨fun _ => rfl, fun _ => rfl, fun _ => rfl, c115_law⟩, fun _ => onCurve_G, c115_storage_good _ (fun _ => rfl) ?_⟩
  intro s b h
  change (if s = shareG then some [1, 2] else none) = some b at h
  change (if b = [1, 2] then some shareG else none) = some s
  split at h
  · rename_i hs
    injection h with h
    rw [if_pos h.symm, hs]
  · cases h

/-- a run of Keygen that returns the text of the generator -/
example : ((Keygen.run nodeG [] (KeyGeneration.request ['n']) (KeyGeneration.answer [10, 11, 12, 13] .success ++
    [KeyGeneration.delivers none, .finish])).ret.map fun a => (a.1.status, a.1.pubKey)) = some (.success, textG) := by decide +kernel
end demo
end Verif.Props.KeyTexts
