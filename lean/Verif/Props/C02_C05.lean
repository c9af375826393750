import Verif.Lemmas.Conversion

/-! # C02 - C05, C07: conversions -/
namespace Verif.Props.Conv
open Verif.Go Verif.Conversion

/-! ## C02 -/

theorem bitLen_N : bitLen secp256k1N = 256 := by decide

/-- C02: the integer is the big-endian value of the leftmost 32 bytes. -/
theorem c02_hashint_value (msg : Bytes) : MsgToHashInt msg = .ok (Bytes.toNat (msg.take 32)) := by
  unfold MsgToHashInt hashToInt
  rw [bitLen_N]
  simp only [Nat.reduceAdd, Nat.reduceDiv]
  by_cases h : msg.length > 32
  · rw [if_pos h]
    have : (msg.take 32).length = 32 := by simp; omega
    rw [this]
    rw [if_neg (by norm_num)]
  · rw [if_neg h]
    have : ¬ ((msg.length * 8 : Int) - (256 : Nat) > 0) := by push_cast; omega
    rw [if_neg (by exact_mod_cast this), List.take_of_length_le (by omega)]

/-- C02: the result is below 2^256. -/
theorem c02_hashint_bounded (msg : Bytes) : ∃ n, MsgToHashInt msg = .ok n ∧ n < 2 ^ 256 := by
  refine ⟨_, c02_hashint_value msg, lt_of_lt_of_le (Bytes.toNat_lt _) ?_⟩
  have : (msg.take 32).length ≤ 32 := by simp
  calc 256 ^ (msg.take 32).length ≤ 256 ^ 32 := Nat.pow_le_pow_right (by norm_num) this
    _ = 2 ^ 256 := by norm_num

/-- C02: distinct 32-byte digests give distinct integers. -/
theorem c02_hashint_injective (a b : Bytes) (ha : a.length = 32) (hb : b.length = 32)
    (h : MsgToHashInt a = MsgToHashInt b) : a = b := by
  rw [c02_hashint_value, c02_hashint_value, List.take_of_length_le ha.le, List.take_of_length_le hb.le] at h
  injection h with h
  exact Bytes.toNat_inj (by rw [ha, hb]) h

/-- C02: bytes after the 32nd do not influence the integer. -/
theorem c02_hashint_prefix (a b c : Bytes) (ha : a.length = 32) : MsgToHashInt (a ++ b) = MsgToHashInt (a ++ c) := by
  rw [c02_hashint_value, c02_hashint_value, List.take_append_of_le_length ha.ge, List.take_append_of_le_length ha.ge]

example : MsgToHashInt [1, 2] = .ok 258 := by rw [c02_hashint_value]; rfl
example : ∃ a b : Bytes, a.length = 32 ∧ b.length = 32 ∧ a ≠ b ∧ MsgToHashInt a ≠ MsgToHashInt b :=
  ⟨List.replicate 32 1, List.replicate 32 2, by simp, by simp, by decide, by
    intro h; exact absurd (c02_hashint_injective _ _ (by simp) (by simp) h) (by decide)⟩

/-! ## C03 -/
section
variable {K P : Type}

/-- C03: the party list and the local party do not depend on the order in which the keys are given. -/
theorem c03_parties_order_independent [LinearOrder K] (dec : K → Option Bytes) (keys keys' : List K) (loc : K)
    (h : keys.Perm keys') : GetParties dec keys loc = GetParties dec keys' loc := by
  have : keys.insertionSort (· ≤ ·) = keys'.insertionSort (· ≤ ·) :=
    List.Perm.eq_of_pairwise (fun a b _ _ h1 h2 => le_antisymm h1 h2) (List.pairwise_insertionSort (· ≤ ·) keys)
      (List.pairwise_insertionSort (· ≤ ·) keys')
      (((List.perm_insertionSort _ _).trans h).trans (List.perm_insertionSort _ _).symm)
  unfold GetParties
  rw [this]

/-- C03: it fails exactly when some key is undecodable or the local key is missing, and never panics. -/
theorem c03_parties_fails_iff [LinearOrder K] (dec : K → Option Bytes) (keys : List K) (loc : K) :
    ((∃ e, GetParties dec keys loc = .err e) ↔ (∃ k ∈ keys, dec k = none) ∨ loc ∉ keys) ∧
    GetParties dec keys loc ≠ .panic := by
  rcases GetParties_eq dec keys loc with ⟨h, e⟩ | ⟨h, h2, e⟩ | ⟨h, h2, lp, i, _, _, _, _, e⟩
  · rw [e]; exact ⟨⟨fun _ => Or.inl h, fun _ => ⟨_, rfl⟩⟩, by simp⟩
  · rw [e]; exact ⟨⟨fun _ => Or.inr h2, fun _ => ⟨_, rfl⟩⟩, by simp⟩
  · rw [e]
    refine ⟨⟨fun ⟨_, he⟩ => by simp at he, ?_⟩, by simp⟩
    rintro (⟨k, hk, hn⟩ | hn)
    · exact absurd hn (h k hk)
    · exact absurd h2 hn

/-- C03: description of the result. `s` is the key list in sorted order; party `i` (its id) is the `i`-th key of `s`,
the parties are listed in order of their key value, numbered consecutively, and the local party is the one of the local key. -/
theorem c03_parties_describe [LinearOrder K] (dec : K → Option Bytes) (keys s : List K) (loc : K)
    (hs : s.Perm keys) (hsort : s.Pairwise (· ≤ ·)) (ps : List Party) (lp : Party)
    (h : GetParties dec keys loc = .ok (ps, lp)) :
    ps.Pairwise (fun a b => a.keyInt ≤ b.keyInt) ∧
    (∀ (i : Nat) (p : Party), ps[i]? = some p → p.index = i) ∧
    (ps.map (fun p => (p.id, p.keyInt))).Perm (s.zipIdx.map (fun q => (q.2, Bytes.toNat ((dec q.1).getD [])))) ∧
    lp ∈ ps ∧ s[lp.id]? = some loc ∧ lp.keyInt = Bytes.toNat ((dec loc).getD []) := by
  have hs' : s = keys.insertionSort (· ≤ ·) :=
    List.Perm.eq_of_pairwise (fun a b _ _ h1 h2 => le_antisymm h1 h2) hsort (List.pairwise_insertionSort (· ≤ ·) keys)
      (hs.trans (List.perm_insertionSort _ _).symm)
  rcases GetParties_eq dec keys loc with ⟨_, e⟩ | ⟨_, _, e⟩ | ⟨hall, _, lp', i, hm, hid, hi, hk, e⟩
  · rw [e] at h; cases h
  · rw [e] at h; cases h
  · rw [e] at h
    injection h with h
    injection h with h1 h2
    subst h1 h2
    refine ⟨?_, sortPartyIDs_index _, ?_, hm, by rw [hs', hid]; exact hi, ?_⟩
    · have := List.pairwise_insertionSort (fun a b : Party => a.keyInt ≤ b.keyInt) (rawParties dec keys)
      have e2 := sortPartyIDs_map Party.keyInt (fun _ _ => rfl) (rawParties dec keys)
      rw [← List.pairwise_map (f := Party.keyInt) (R := (· ≤ ·))] at this ⊢
      rw [e2]; exact this
    · rw [sortPartyIDs_map (fun p => (p.id, p.keyInt)) (fun _ _ => rfl)]
      refine ((List.perm_insertionSort _ _).map _).trans ?_
      unfold rawParties
      rw [List.map_map, hs']
      have e3 : (fun p : Party => (p.id, p.keyInt)) ∘ (fun p : K × Nat => newParty p.2 ((dec p.1).getD [])) =
          fun q => (q.2, Bytes.toNat ((dec q.1).getD [])) := by
        funext q; simp [newParty, Party.keyInt, Bytes.toNat_ofNat]
      rw [e3]
    · unfold Party.keyInt; rw [hk]; simp [newParty, Bytes.toNat_ofNat]

/-- Witness for C03: three keys, given unsorted. -/
example : ∃ ps lp, GetParties (K := Nat) (fun k => some [2, UInt8.ofNat (10 - k)]) [3, 1, 2] 2 = .ok (ps, lp) ∧
    ps.map Party.id = [2, 1, 0] ∧ lp.id = 1 := by
  refine ⟨_, _, rfl, ?_, ?_⟩ <;> decide

/-! ## C04 -/

/-- A canonical key of the committee: it decodes to a compressed key (non-zero prefix byte 02/03), re-encodes to itself,
and its peer id carries the key. -/
structure Canonical (c : Codec K P) (k : K) (b : Bytes) : Prop where
  dec : c.dec k = some b
  enc : c.enc b = some k
  prefix_nonzero : ∃ x t, b = x :: t ∧ x ≠ 0
  peer : ∀ p, c.peerOf b = some p → c.rawOf p = some b

/-- C04: every party of a committee of canonical keys converts back to the pub key it was made from, its peer id is the
peer id of that pub key, and the peer id converts back to the pub key. -/
theorem c04_conversions_inverse [LinearOrder K] (c : Codec K P) (keys s : List K) (loc : K)
    (hs : s.Perm keys) (hsort : s.Pairwise (· ≤ ·))
    (hc : ∀ k ∈ keys, ∃ b, Canonical c k b) (ps : List Party) (lp : Party)
    (h : GetParties c.dec keys loc = .ok (ps, lp)) (p : Party) (hp : p ∈ ps) :
    ∃ k, s[p.id]? = some k ∧ PartyIDtoPubKey c p = .ok k ∧
      GetPeerIDFromPartyID c p = GetPeerIDFromPubKey c k ∧
      ∀ pid, GetPeerIDFromPubKey c k = .ok pid → GetPubKeyFromPeerID c pid = .ok k := by
  have hs' : s = keys.insertionSort (· ≤ ·) :=
    List.Perm.eq_of_pairwise (fun a b _ _ h1 h2 => le_antisymm h1 h2) hsort (List.pairwise_insertionSort (· ≤ ·) keys)
      (hs.trans (List.perm_insertionSort _ _).symm)
  rcases GetParties_eq c.dec keys loc with ⟨_, e⟩ | ⟨_, _, e⟩ | ⟨hall, _, lp', i, hm, hid, hi, hk, e⟩
  · rw [e] at h; cases h
  · rw [e] at h; cases h
  · rw [e] at h
    injection h with h
    injection h with h1 h2
    subst h1
    obtain ⟨q, hq, hqid, hqk, hidx⟩ := mem_sortPartyIDs hp
    obtain ⟨k, j, hj, rfl⟩ := (mem_rawParties c.dec keys q).1 hq
    have hkm : k ∈ keys := (List.perm_insertionSort (· ≤ ·) keys).mem_iff.1 (List.mem_of_getElem? hj)
    obtain ⟨b, hb⟩ := hc k hkm
    have hpk : p.key = b := by
      rw [hqk]; simp only [newParty, hb.dec, Option.getD_some]
      exact Bytes.ofNat_toNat b hb.prefix_nonzero
    have hv : p.valid = true := by simp [Party.valid, hidx]
    have hne : b.length ≠ 0 := by
      obtain ⟨x, t, rfl, _⟩ := hb.prefix_nonzero; simp
    refine ⟨k, ?_, ?_, ?_, ?_⟩
    · rw [hs', hqid]; exact hj
    · simp [PartyIDtoPubKey, hv, hpk, hb.enc]
    · simp only [GetPeerIDFromPartyID, hv, if_true, Party.keyInt, hpk, Bytes.ofNat_toNat b hb.prefix_nonzero,
        GetPeerIDFromPubKey, hb.dec, GetPeerIDFromSecp256PubKey, hne, if_false]
    · intro pid hpid
      simp only [GetPeerIDFromPubKey, hb.dec] at hpid
      rcases hpe : c.peerOf b with _ | p'
      · rw [hpe] at hpid; cases hpid
      · rw [hpe] at hpid
        cases hpid
        simp [GetPubKeyFromPeerID, hb.peer _ hpe, hb.enc]

/-- C04 needs the non-zero prefix byte: a key encoding with a leading zero byte would not survive the big.Int detour. -/
theorem c04_leading_zero_lost :
    ∃ (c : Codec Nat Nat) (k : Nat) (ps : List Party) (lp : Party),
      (∀ b, c.enc b ≠ none) ∧ GetParties c.dec [k] k = .ok (ps, lp) ∧ PartyIDtoPubKey c lp ≠ .ok k ∧
      c.enc ((c.dec k).getD []) = some k :=
  ⟨{ dec := fun _ => some [0, 5], enc := fun b => some b.length, peerOf := fun _ => none, rawOf := fun _ => none }, 2,
    _, _, by simp, rfl, by decide, by decide⟩

/-- Witness for C04: a codec with canonical keys 1..255. -/
example : ∃ (c : Codec Nat Bytes) (ps : List Party) (lp : Party), (∀ k ∈ [7, 3], ∃ b, Canonical c k b) ∧
    GetParties c.dec [7, 3] 7 = .ok (ps, lp) ∧ ps.length = 2 := by
  refine ⟨{ dec := fun k => some [2, UInt8.ofNat k], enc := fun b => (b.getLast?).map (·.toNat), peerOf := some,
            rawOf := some }, _, _, ?_, rfl, ?_⟩
  · intro k hk
    simp at hk
    rcases hk with rfl | rfl
    · exact ⟨[2, 7], rfl, rfl, ⟨2, [7], rfl, by decide⟩, fun p h => h.symm⟩
    · exact ⟨[2, 3], rfl, rfl, ⟨2, [3], rfl, by decide⟩, fun p h => h.symm⟩
  · decide

/-! ## C05 -/

theorem partyIDtoPubKey_iff (c : Codec K P) (p : Party) (k : K) :
    PartyIDtoPubKey c p = .ok k ↔ 0 ≤ p.index ∧ c.enc p.key = some k := by
  unfold PartyIDtoPubKey Party.valid
  by_cases h : 0 ≤ p.index
  · rcases he : c.enc p.key with _ | k' <;> simp [h]
  · simp [h]

/-- C05: on success the result has exactly one pub key per requested id, in order, each the encoding of the key of the map's party, and every
one of these parties has been numbered by the sort. -/
theorem c05_accpubkeys_exact (c : Codec K P) (m : Map Nat Party) (ids : List Nat) (ks : List K) :
    AccPubKeysFromPartyIDs c m ids = .ok ks ↔
      List.Forall₂ (fun i k => ∃ p, Map.get m i = some p ∧ 0 ≤ p.index ∧ c.enc p.key = some k) ids ks := by
  simp only [← partyIDtoPubKey_iff]
  induction ids generalizing ks with
  | nil => cases ks <;> simp [AccPubKeysFromPartyIDs]
  | cons i is ih =>
    rcases hg : Map.get m i with _ | p
    · simp only [AccPubKeysFromPartyIDs, hg]
      constructor
      · intro h; cases h
      · intro h
        cases h with
        | cons h1 _ => obtain ⟨p, hp, _⟩ := h1; rw [hg] at hp; cases hp
    · simp only [AccPubKeysFromPartyIDs, hg, Res.bind_eq_ok]
      constructor
      · rintro ⟨k, hk, ks', hks, h⟩
        cases h
        exact List.Forall₂.cons ⟨p, hg, hk⟩ ((ih _).1 hks)
      · intro h
        cases h with
        | cons h1 h2 =>
          obtain ⟨p', hp', hk⟩ := h1
          rw [hg] at hp'
          cases hp'
          exact ⟨_, hk, _, (ih _).2 h2, rfl⟩

/-- C05: an id which is not in the party map makes the whole translation fail (nothing is silently dropped). -/
theorem c05_accpubkeys_unknown (c : Codec K P) (m : Map Nat Party) (ids : List Nat) (i : Nat) (hi : i ∈ ids)
    (hm : Map.get m i = none) (ks : List K) : AccPubKeysFromPartyIDs c m ids ≠ .ok ks := by
  intro h
  rw [c05_accpubkeys_exact] at h
  induction h with
  | nil => simp at hi
  | cons h1 h2 ih =>
    rcases List.mem_cons.1 hi with rfl | hi
    · obtain ⟨p, hp, _⟩ := h1; rw [hm] at hp; cases hp
    · exact ih hi

theorem get_foldl_set (ps : List Party) (m : Map Nat Party) (hnd : (ps.map Party.id).Nodup) (i : Nat) :
    Map.get (ps.foldl (fun m p => Map.set m p.id p) m) i =
      match ps.find? (fun p => p.id = i) with
      | some p => some p
      | none => Map.get m i := by
  induction ps generalizing m with
  | nil => rfl
  | cons p ps ih =>
    rw [List.map_cons, List.nodup_cons] at hnd
    rw [List.foldl_cons, ih _ hnd.2]
    by_cases h : p.id = i
    · have hn : ps.find? (fun p => p.id = i) = none := by
        rw [List.find?_eq_none]
        intro q hq hqi
        apply hnd.1
        rw [List.mem_map]
        exact ⟨q, hq, by rw [h]; simpa using hqi⟩
      rw [hn]
      simp [h]
    · rw [List.find?_cons_of_neg (by simpa using h)]
      rw [Map.get_set_ne _ _ (Ne.symm h)]

/-- C05: the party map of a list with distinct ids gives back every party under its id, and nothing else. -/
theorem c05_partymap (ps : List Party) (hnd : (ps.map Party.id).Nodup) (i : Nat) (p : Party) :
    Map.get (SetupPartyIDMap ps) i = some p ↔ p ∈ ps ∧ p.id = i := by
  have h0 := get_foldl_set ps [] hnd i
  unfold SetupPartyIDMap
  rcases hf : ps.find? (fun p => p.id = i) with _ | q
  · rw [hf] at h0
    rw [h0]
    rw [List.find?_eq_none] at hf
    constructor
    · intro h; simp at h
    · rintro ⟨h1, h2⟩; exact absurd (by simpa using h2) (hf p h1)
  · rw [hf] at h0
    rw [h0]
    have hq := List.mem_of_find?_eq_some hf
    have hqi : q.id = i := by simpa using List.find?_some hf
    simp only [Option.some.injEq]
    constructor
    · rintro rfl; exact ⟨hq, hqi⟩
    · rintro ⟨h1, h2⟩
      exact List.inj_on_of_nodup_map hnd hq h1 (by rw [hqi, h2])

theorem setupIDMaps_ok (c : Codec K P) (order : List (Nat × Party)) (target : Map Nat P) :
    ((SetupIDMaps c order target).2 = .ok () ↔ ∀ e ∈ order, ∃ p, GetPeerIDFromPartyID c e.2 = .ok p) := by
  induction order generalizing target with
  | nil => simp [SetupIDMaps]
  | cons e rest ih =>
    obtain ⟨id, party⟩ := e
    simp only [SetupIDMaps]
    rcases h : GetPeerIDFromPartyID c party with p | e | _
    · simp [ih, h]
    · simp [h]
    · simp [h]

/-- C05: SetupIDMaps succeeds exactly if every party has a peer id, for whatever visiting order. -/
theorem c05_setup_success_iff (c : Codec K P) (m order : Map Nat Party) (ho : Map.Order m order) (target : Map Nat P) :
    (SetupIDMaps c order target).2 = .ok () ↔ ∀ i p, (i, p) ∈ m → ∃ pid, GetPeerIDFromPartyID c p = .ok pid := by
  rw [setupIDMaps_ok]
  constructor
  · intro h i p hm; exact h _ (ho.mem_iff.2 hm)
  · intro h e he; exact h e.1 e.2 (ho.mem_iff.1 he)

theorem setupIDMaps_get (c : Codec K P) (order : Map Nat Party) (hwf : Map.WF order) (target : Map Nat P)
    (hok : (SetupIDMaps c order target).2 = .ok ()) (i : Nat) :
    Map.get (SetupIDMaps c order target).1 i =
      match Map.get order i with
      | some p => (match GetPeerIDFromPartyID c p with | .ok pid => some pid | _ => none)
      | none => Map.get target i := by
  induction order generalizing target with
  | nil => simp [SetupIDMaps]
  | cons e rest ih =>
    obtain ⟨id, party⟩ := e
    rw [Map.WF_cons] at hwf
    simp only [SetupIDMaps] at hok ⊢
    rcases h : GetPeerIDFromPartyID c party with p | e | _
    · rw [h] at hok
      simp only at hok ⊢
      rw [ih hwf.2 _ hok]
      by_cases hi : id = i
      · subst hi
        have : Map.get rest id = none := (Map.get_eq_none_iff _ _).2 hwf.1
        rw [this]; simp [Map.get, h]
      · simp only [Map.get, hi, if_false]
        rw [Map.get_set_ne _ _ (Ne.symm hi)]
    · rw [h] at hok; simp at hok
    · rw [h] at hok; simp at hok

/-- C05: after a successful SetupIDMaps every party id maps to its own peer id, whatever the visiting order. -/
theorem c05_setup_values (c : Codec K P) (m order : Map Nat Party) (hwf : Map.WF m) (ho : Map.Order m order)
    (target : Map Nat P) (hok : (SetupIDMaps c order target).2 = .ok ()) (i : Nat) (p : Party)
    (hp : Map.get m i = some p) :
    ∃ pid, GetPeerIDFromPartyID c p = .ok pid ∧ Map.get (SetupIDMaps c order target).1 i = some pid := by
  have hwf' : Map.WF order := (Map.WF_perm ho).2 hwf
  have hp' : Map.get order i = some p := by rw [← Map.get_perm hwf ho.symm]; exact hp
  have h1 := (setupIDMaps_ok c order target).1 hok _ (Map.mem_of_get hp')
  obtain ⟨pid, hpid⟩ := h1
  refine ⟨pid, hpid, ?_⟩
  rw [setupIDMaps_get c order hwf' target hok i, hp']
  simp only [hpid]

/-- C05: GetPeersID lists, for every visiting order, exactly the members' peer ids except the local one. -/
theorem c05_peers_mem [DecidableEq P] (m order : Map Nat P) (ho : Map.Order m order) (loc q : P) :
    q ∈ GetPeersID order loc ↔ q ≠ loc ∧ ∃ i, (i, q) ∈ m := by
  unfold GetPeersID
  simp only [List.mem_filter, List.mem_map, Prod.exists, exists_eq_right, ne_eq, decide_eq_true_eq]
  constructor
  · rintro ⟨⟨i, hi⟩, hne⟩; exact ⟨hne, i, ho.mem_iff.1 hi⟩
  · rintro ⟨hne, i, hi⟩; exact ⟨⟨i, ho.mem_iff.2 hi⟩, hne⟩

/-- C05: ... each exactly once when the members have different peer ids, and one less than the committee when the local
node is a member. -/
theorem c05_peers_once [DecidableEq P] (m order : Map Nat P) (ho : Map.Order m order) (loc : P)
    (hnd : (m.map Prod.snd).Nodup) :
    (GetPeersID order loc).Nodup ∧
    (loc ∈ m.map Prod.snd → (GetPeersID order loc).length = m.length - 1) := by
  have hp : (order.map Prod.snd).Perm (m.map Prod.snd) := ho.map _
  have hnd' := hp.nodup_iff.2 hnd
  refine ⟨hnd'.filter _, fun hl => ?_⟩
  have hl' := hp.mem_iff.2 hl
  have : (GetPeersID order loc) = (order.map Prod.snd).erase loc := by
    unfold GetPeersID
    rw [hnd'.erase_eq_filter]
    congr 1
    funext x
    by_cases h : x = loc <;> simp [h]
  rw [this, List.length_erase_of_mem hl', List.length_map, ho.length_eq]

/-- Witness for C05. -/
example : GetPeersID [(2, "b"), (1, "a"), (3, "c")] "a" = ["b", "c"] := by decide
example : AccPubKeysFromPartyIDs (K := Nat) (P := Nat)
    { dec := fun _ => none, enc := fun b => some b.length, peerOf := fun _ => none, rawOf := fun _ => none }
    [(1, ⟨1, [2], 0⟩), (2, ⟨2, [2, 3], 1⟩)] [2, 1] = .ok [2, 1] := by decide

end

/-! ## C07 -/

/-- Specification: `c` is a hexadecimal digit of value `v`, in lower or upper case. -/
def Digit (c : UInt8) (v : Nat) : Prop :=
  ("0123456789abcdef".toList.map fun x => UInt8.ofNat x.toNat)[v]? = some c ∨
  ("0123456789ABCDEF".toList.map fun x => UInt8.ofNat x.toNat)[v]? = some c

/-- Specification: the text writes the bytes in hexadecimal, two digits for every byte, the high one first. -/
inductive Hex : Bytes → Bytes → Prop
  | nil : Hex [] []
  | cons (a b : UInt8) (x y : Nat) (s d : Bytes) : Digit a x → Digit b y → Hex s d → Hex (a :: b :: s) (UInt8.ofNat (16 * x + y) :: d)

theorem hexVal_iff (c : UInt8) (v : Nat) : hexVal c = some v ↔ Digit c v := by
  have hv : ∀ v, Digit c v → v < 16 := by
    intro v h
    rcases h with h | h <;> exact (List.getElem?_eq_some_iff.1 h).1
  have key : ∀ n < 256, ∀ v < 16, (hexVal (UInt8.ofNat n) = some v ↔
      ("0123456789abcdef".toList.map fun x => UInt8.ofNat x.toNat)[v]? = some (UInt8.ofNat n) ∨
      ("0123456789ABCDEF".toList.map fun x => UInt8.ofNat x.toNat)[v]? = some (UInt8.ofNat n)) := by decide +kernel
  have bound : ∀ n < 256, ∀ w ∈ hexVal (UInt8.ofNat n), w < 16 := by
    intro n _ w hw
    rw [Option.mem_def] at hw
    unfold hexVal at hw
    dsimp only at hw
    split_ifs at hw <;> · cases hw; omega
  have hc : UInt8.ofNat c.toNat = c := UInt8.ofNat_toNat
  have hlt : c.toNat < 256 := c.toNat_lt
  constructor
  · intro h
    have hw : v < 16 := bound _ hlt v (by rw [hc]; exact h)
    have := (key _ hlt v hw).1 (by rw [hc]; exact h)
    rw [hc] at this
    exact this
  · intro h
    have := (key _ hlt v (hv v h)).2 (by rw [hc]; exact h)
    rw [hc] at this
    exact this

theorem hexDecode_iff : ∀ (s d : Bytes), hexDecode s = some d ↔ Hex s d
  | [], d => by
    constructor
    · intro h; cases h; exact .nil
    · intro h; cases h; rfl
  | [_], d => by
    constructor
    · intro h; cases h
    · intro h; cases h
  | a :: b :: rest, d => by
    simp only [hexDecode, Option.bind_eq_bind, Option.bind_eq_some_iff]
    constructor
    · rintro ⟨x, hx, y, hy, r, hr, he⟩
      cases he
      rw [Nat.mul_comm x 16]
      exact .cons a b x y rest r ((hexVal_iff _ _).1 hx) ((hexVal_iff _ _).1 hy) ((hexDecode_iff rest r).1 hr)
    · intro h
      cases h with
      | cons _ _ x y _ r hx hy hr =>
        exact ⟨x, (hexVal_iff _ _).2 hx, y, (hexVal_iff _ _).2 hy, r, (hexDecode_iff rest r).2 hr, by rw [Nat.mul_comm x 16]⟩

/-- C07: a text which is not base64, or whose decoding is not hexadecimal, is refused with an error. -/
theorem c07_prikey_refused (pad : Nat) (t : Option Bytes) (h : ∀ s d, t = some s → ¬ Hex s d) : ∃ e, GetPriKey pad t = .err e := by
  rcases t with _ | s
  · exact ⟨_, rfl⟩
  · rcases hd : hexDecode s with _ | d
    · exact ⟨"fail to hex decode private key", by simp [GetPriKey, hexDecodeString, hd]⟩
    · exact absurd ((hexDecode_iff s d).1 hd) (h s d rfl)

example : ∃ e, GetPriKey 0 (some [48, 71]) = .err e := c07_prikey_refused 0 _ (by
  intro s d hs hh
  cases hs
  rw [← hexDecode_iff] at hh
  revert hh
  rw [show hexDecode [48, 71] = none by decide]
  simp)

/-- C07 (partial): an input of exactly 64 hex digits (32 bytes) gives exactly those bytes, whatever the allocator's
capacity rounding, and the raw-bytes accessor returns them. Missing: the same for other lengths, which is false, see the
refutations below. -/
theorem c07_prikey_exact_partial (pad : Nat) (s d : Bytes) (h : Hex s d) (hd : d.length = 32) :
    GetPriKey pad (some s) = .ok d ∧ GetPriKeyRawBytes d = d := by
  rw [← hexDecode_iff] at h
  constructor
  · simp only [GetPriKey, hexDecodeString, h, Option.map_some, Slice.upTo, hd]
    rw [if_pos (by omega), List.take_append_of_le_length (by omega), List.take_of_length_le (by omega)]
  · simp [GetPriKeyRawBytes, hd, List.take_of_length_le hd.le]

/-- C07 (partial): more than 32 decoded bytes are silently cut to the first 32. -/
theorem c07_prikey_long_partial (pad : Nat) (s d : Bytes) (h : Hex s d) (hd : 32 ≤ d.length) :
    GetPriKey pad (some s) = .ok (d.take 32) := by
  rw [← hexDecode_iff] at h
  simp only [GetPriKey, hexDecodeString, h, Option.map_some, Slice.upTo]
  rw [if_pos (by omega), List.take_append_of_le_length (by omega)]

theorem hexDecode_length : ∀ {s d : Bytes}, hexDecode s = some d → s.length = 2 * d.length
  | [], d, h => by simp [hexDecode] at h; subst h; rfl
  | [_], d, h => by simp [hexDecode] at h
  | a :: b :: rest, d, h => by
    simp only [hexDecode, Option.bind_eq_bind, Option.bind_eq_some_iff] at h
    obtain ⟨x, _, y, _, r, hr, he⟩ := h
    cases he
    have := hexDecode_length hr
    simp [this]; omega

/-- C07: exactly which hex texts are accepted: those whose slice capacity (text length plus allocator padding) reaches 32 -
not those which decode to at least 32 bytes. A shorter capacity panics. -/
theorem c07_prikey_accepts_iff (pad : Nat) (s d : Bytes) (h : Hex s d) :
    ((∃ k, GetPriKey pad (some s) = .ok k) ↔ 32 ≤ s.length + pad) ∧
    (GetPriKey pad (some s) = .panic ↔ s.length + pad < 32) := by
  rw [← hexDecode_iff] at h
  have hl := hexDecode_length h
  simp only [GetPriKey, hexDecodeString, h, Option.map_some, Slice.upTo, List.length_append, List.length_drop,
    List.length_replicate]
  have e : d.length + (s.length - d.length + pad) = s.length + pad := by omega
  rw [e]
  by_cases h2 : 32 ≤ s.length + pad
  · simp [h2]
  · simp [h2]; omega

/-- C07 is false as stated: a 16-byte key (32 hex digits "00..") is accepted, padded with the left-over hex text. -/
theorem c07_short_key_accepted : ∃ (s d k : Bytes), Hex s d ∧ d.length = 16 ∧
    GetPriKey 0 (some s) = .ok k ∧ k ≠ d ∧ k = d ++ List.replicate 16 48 :=
  ⟨List.replicate 32 48, List.replicate 16 0, List.replicate 16 0 ++ List.replicate 16 48,
    (hexDecode_iff _ _).1 (by decide), by decide, by decide, by decide, by decide⟩

/-- C07: ... and a hex text of 2 digits makes GetPriKey panic. -/
theorem c07_tiny_key_panics : GetPriKey 0 (some [48, 49]) = .panic := by decide

end Verif.Props.Conv
