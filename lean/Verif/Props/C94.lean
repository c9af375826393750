import Verif.Props.C92_C93
import Verif.Props.C02_C05
import Verif.Props.C52_C53
import Verif.Props.C49_C51

/-! # C94: every session is set up for the committee that was asked for -/
set_option linter.unusedSectionVars false
namespace Verif.Props.SetUp
open Verif.Go Verif.Conversion Verif.Blame Verif.Server Verif.Session Verif.Spec
open scoped List

/-! ## specification -/

/-- keys for which a session can be set up: no key twice, every key in canonical form -/
structure Proper {K P : Type} (c : Codec K P) (keys : List K) : Prop where
  nodup : keys.Nodup
  canonical : ∀ k ∈ keys, ∃ b, Conv.Canonical c k b

/-- The session is that of the committee `keys`, on the node with the key `own` and the peer id `me`. -/
structure SetUpFor {K P : Type} (c : Codec K P) (keys : List K) (own : K) (me : P) (env : LoopEnv K P) (mgr : Manager K P) : Prop where
  /-- the maps from party ids to parties and to peers are those of a committee -/
  committee : Committee c mgr
  distinct : DistinctKeys c mgr.partyIDMap
  /-- the members are the keys asked for ... -/
  members : ∀ k, k ∈ keys ↔ ∃ i, Named c mgr.partyIDMap i k
  size : mgr.partyIDMap.length = keys.length
  /-- ... this node is the member with its key ... -/
  own : Named c mgr.partyIDMap mgr.localPartyID own
  /-- ... and a member's peer is the peer of its key, both for sending and for blaming -/
  peers : ∀ i k p, Named c mgr.partyIDMap i k → (Map.get mgr.partyIDtoP2PID i = some p ↔ GetPeerIDFromPubKey c k = .ok p)
  send : ∀ i, Map.get env.out.partyIDtoP2PID i = Map.get mgr.partyIDtoP2PID i
  /-- messages go to the peers of the other members, each once -/
  others : ∀ p, p ∈ env.ses.p2pPeers ↔ p ≠ me ∧ ∃ k ∈ keys, GetPeerIDFromPubKey c k = .ok p
  once : env.ses.p2pPeers.Nodup
  broadcast : env.out.p2pPeers = env.ses.p2pPeers
  /-- nothing is left over from an earlier session -/
  fresh : mgr.blame = NewBlame "" [] ∧ mgr.lastUnicastPeer = [] ∧ mgr.requested = [] ∧ mgr.storedMsg = [] ∧ mgr.lastMsg = none ∧
    mgr.acceptedShares = []

/-! ## lemmas -/

section
variable {K P : Type} [LinearOrder K] [DecidableEq P]

theorem parties_ids (dec : K → Option Bytes) (keys : List K) (loc : K) (ps : List Party) (lp : Party)
    (h : GetParties dec keys loc = .ok (ps, lp)) : (ps.map Party.id).Nodup ∧ ps.length = keys.length ∧
      ∀ i, i < keys.length → ∃ p ∈ ps, p.id = i := by
  obtain ⟨_, _, hp, _⟩ := Conv.c03_parties_describe dec keys (keys.insertionSort (· ≤ ·)) loc (List.perm_insertionSort _ _)
    (List.pairwise_insertionSort (· ≤ ·) keys) ps lp h
  have h1 := hp.map Prod.fst
  rw [List.map_map, List.map_map] at h1
  have e1 : (Prod.fst ∘ fun p : Party => (p.id, p.keyInt)) = Party.id := rfl
  have e2 : (Prod.fst ∘ fun q : K × Nat => (q.2, Bytes.toNat ((dec q.1).getD []))) = Prod.snd := rfl
  rw [e1, e2, List.zipIdx_map_snd, List.length_insertionSort] at h1
  refine ⟨h1.nodup_iff.2 (List.nodup_range' _), ?_, fun i hi => ?_⟩
  · have := h1.length_eq; simpa using this
  · have : i ∈ ps.map Party.id := h1.mem_iff.2 (by simp [List.mem_range']; exact hi)
    simpa using this

theorem wf_partyMap (ps : List Party) : Map.WF (SetupPartyIDMap ps) := by
  unfold SetupPartyIDMap
  have : ∀ m : Map Nat Party, Map.WF m → Map.WF (ps.foldl (fun m p => Map.set m p.id p) m) := by
    induction ps with
    | nil => exact fun m h => h
    | cons p ps ih => exact fun m h => ih _ (Map.WF_set h _ _)
  exact this _ Map.WF_nil

theorem wf_idMaps (c : Codec K P) (order : List (Nat × Party)) (t : Map Nat P) (ht : Map.WF t) : Map.WF (SetupIDMaps c order t).1 := by
  induction order generalizing t with
  | nil => exact ht
  | cons e rest ih =>
    simp only [SetupIDMaps]
    rcases GetPeerIDFromPartyID c e.2 with p | _ | _
    · exact ih _ (Map.WF_set ht _ _)
    · exact ht
    · exact ht

theorem length_partyMap (ps : List Party) (h : (ps.map Party.id).Nodup) : (SetupPartyIDMap ps).length = ps.length := by
  have h1 : (Map.keys (SetupPartyIDMap ps)).Perm (ps.map Party.id) := by
    rw [List.perm_ext_iff_of_nodup (wf_partyMap ps) h]
    intro i
    rw [← Map.get_isSome_iff, Option.isSome_iff_exists, List.mem_map]
    constructor
    · rintro ⟨p, hp⟩
      exact ⟨p, (Conv.c05_partymap ps h i p).1 hp⟩
    · rintro ⟨p, hp⟩
      exact ⟨p, (Conv.c05_partymap ps h i p).2 hp⟩
  have := h1.length_eq
  simpa [Map.keys] using this

/-- What is known of the committee of proper keys: ids are positions in the sorted keys. -/
theorem named_iff (c : Codec K P) (keys : List K) (loc : K) (hk : Proper c keys) (ps : List Party) (lp : Party)
    (h : GetParties c.dec keys loc = .ok (ps, lp)) (i : Nat) (k : K) :
    Named c (SetupPartyIDMap ps) i k ↔ (keys.insertionSort (· ≤ ·))[i]? = some k := by
  obtain ⟨hid, _, hall⟩ := parties_ids c.dec keys loc ps lp h
  have hinv := Conv.c04_conversions_inverse c keys (keys.insertionSort (· ≤ ·)) loc (List.perm_insertionSort _ _)
    (List.pairwise_insertionSort (· ≤ ·) keys) hk.canonical ps lp h
  constructor
  · rintro ⟨p, hp, hpk⟩
    obtain ⟨hm, rfl⟩ := (Conv.c05_partymap ps hid i p).1 hp
    obtain ⟨k', h1, h2, _⟩ := hinv p hm
    rw [h2] at hpk
    cases hpk
    exact h1
  · intro hi
    have hlt : i < keys.length := by
      have := (List.getElem?_eq_some_iff.1 hi).1
      rwa [List.length_insertionSort] at this
    obtain ⟨p, hm, rfl⟩ := hall i hlt
    obtain ⟨k', h1, h2, _⟩ := hinv p hm
    rw [hi] at h1
    cases h1
    exact ⟨p, (Conv.c05_partymap ps hid _ p).2 ⟨hm, rfl⟩, h2⟩

/-- the peer of a member is that of its key -/
theorem peer_iff (c : Codec K P) (keys : List K) (loc : K) (hk : Proper c keys) (ps : List Party) (lp : Party)
    (h : GetParties c.dec keys loc = .ok (ps, lp)) (σ : Go.Shuffle (Nat × Party))
    (ha : (SetupIDMaps c (σ.f (SetupPartyIDMap ps)) []).2 = .ok ()) (i : Nat) (p : P) :
    Map.get (SetupIDMaps c (σ.f (SetupPartyIDMap ps)) []).1 i = some p ↔
      ∃ k, (keys.insertionSort (· ≤ ·))[i]? = some k ∧ GetPeerIDFromPubKey c k = .ok p := by
  obtain ⟨hid, _, hall⟩ := parties_ids c.dec keys loc ps lp h
  have hinv := Conv.c04_conversions_inverse c keys (keys.insertionSort (· ≤ ·)) loc (List.perm_insertionSort _ _)
    (List.pairwise_insertionSort (· ≤ ·) keys) hk.canonical ps lp h
  have hwf := wf_partyMap ps
  have hget := Conv.setupIDMaps_get c (σ.f (SetupPartyIDMap ps)) ((Map.WF_perm (σ.perm _)).2 hwf) [] ha i
  rw [← Map.get_perm hwf (σ.perm _).symm] at hget
  rw [hget]
  constructor
  · intro hx
    rcases hg : Map.get (SetupPartyIDMap ps) i with _ | q
    · rw [hg] at hx; cases hx
    · rw [hg] at hx
      simp only at hx
      obtain ⟨hm, rfl⟩ := (Conv.c05_partymap ps hid i q).1 hg
      obtain ⟨k, h1, _, h3, _⟩ := hinv q hm
      refine ⟨k, h1, ?_⟩
      rw [← h3]
      rcases hq : GetPeerIDFromPartyID c q with p' | _ | _
      · rw [hq] at hx; cases hx; rfl
      · rw [hq] at hx; cases hx
      · rw [hq] at hx; cases hx
  · rintro ⟨k, hi, hp⟩
    have hlt : i < keys.length := by
      have := (List.getElem?_eq_some_iff.1 hi).1
      rwa [List.length_insertionSort] at this
    obtain ⟨q, hm, rfl⟩ := hall i hlt
    obtain ⟨k', h1, _, h3, _⟩ := hinv q hm
    rw [hi] at h1
    cases h1
    rw [(Conv.c05_partymap ps hid _ q).2 ⟨hm, rfl⟩]
    simp only [h3, hp]

theorem peer_inj (c : Codec K P) (keys : List K) (hk : Proper c keys) {k k' : K} {p : P} (h : k ∈ keys) (h' : k' ∈ keys)
    (hp : GetPeerIDFromPubKey c k = .ok p) (hp' : GetPeerIDFromPubKey c k' = .ok p) : k = k' := by
  obtain ⟨b, hb⟩ := hk.canonical k h
  obtain ⟨b', hb'⟩ := hk.canonical k' h'
  simp only [GetPeerIDFromPubKey, hb.dec] at hp
  simp only [GetPeerIDFromPubKey, hb'.dec] at hp'
  rcases e : c.peerOf b with _ | q
  · rw [e] at hp; cases hp
  · rcases e' : c.peerOf b' with _ | q'
    · rw [e'] at hp'; cases hp'
    · rw [e] at hp; rw [e'] at hp'
      cases hp; cases hp'
      have h1 := hb.peer _ e
      rw [hb'.peer _ e'] at h1
      cases h1
      have := hb.enc
      rw [hb'.enc] at this
      cases this
      rfl

theorem setup (c : Codec K P) (keys : List K) (loc : K) (hk : Proper c keys) (ps : List Party) (lp : Party)
    (h : GetParties c.dec keys loc = .ok (ps, lp)) (me : P) (sa sb : Go.Shuffle (Nat × Party)) (sc : Go.Shuffle (Nat × P))
    (ha : (SetupIDMaps c (sa.f (SetupPartyIDMap ps)) []).2 = .ok ())
    (hb : (SetupIDMaps c (sb.f (SetupPartyIDMap ps)) []).2 = .ok ()) (env : LoopEnv K P)
    (he : env.ses.p2pPeers = GetPeersID (sc.f (SetupIDMaps c (sa.f (SetupPartyIDMap ps)) []).1) me)
    (ho : env.out.p2pPeers = env.ses.p2pPeers) (hi : env.out.partyIDtoP2PID = (SetupIDMaps c (sa.f (SetupPartyIDMap ps)) []).1) :
    SetUpFor c keys loc me env
      { (newManager [] (SetupIDMaps c (sb.f (SetupPartyIDMap ps)) []).1 0 : Manager K P) with
        partyIDMap := SetupPartyIDMap ps, localPartyID := lp.id } := by
  obtain ⟨hid, hlen, hall⟩ := parties_ids c.dec keys loc ps lp h
  have hsort : (keys.insertionSort (· ≤ ·)).Nodup := (List.perm_insertionSort (· ≤ ·) keys).nodup_iff.2 hk.nodup
  have hmem : ∀ k, k ∈ keys.insertionSort (· ≤ ·) ↔ k ∈ keys := fun k => (List.perm_insertionSort (· ≤ ·) keys).mem_iff
  have hin : ∀ {i : Nat} {k : K}, (keys.insertionSort (· ≤ ·))[i]? = some k → k ∈ keys := fun hi => (hmem _).1 (List.mem_of_getElem? hi)
  have hpos : ∀ {i j : Nat} {k : K}, (keys.insertionSort (· ≤ ·))[i]? = some k → (keys.insertionSort (· ≤ ·))[j]? = some k → i = j := by
    intro i j k h1 h2
    obtain ⟨l1, e1⟩ := List.getElem?_eq_some_iff.1 h1
    obtain ⟨l2, e2⟩ := List.getElem?_eq_some_iff.1 h2
    exact (hsort.getElem_inj_iff).1 (e1.trans e2.symm)
  have hn := named_iff c keys loc hk ps lp h
  have hpa := peer_iff c keys loc hk ps lp h sa ha
  have hpb := peer_iff c keys loc hk ps lp h sb hb
  have hpeer : ∀ i, i ∈ Map.keys (SetupPartyIDMap ps) → ∃ p, Map.get (SetupIDMaps c (sb.f (SetupPartyIDMap ps)) []).1 i = some p := by
    intro i hi
    rw [← Map.get_isSome_iff, Option.isSome_iff_exists] at hi
    obtain ⟨q, hq⟩ := hi
    obtain ⟨p, _, hp⟩ := Conv.c05_setup_values c _ _ (wf_partyMap ps) (sb.perm _) [] hb i q hq
    exact ⟨p, hp⟩
  have hinv := Conv.c04_conversions_inverse c keys (keys.insertionSort (· ≤ ·)) loc (List.perm_insertionSort _ _)
    (List.pairwise_insertionSort (· ≤ ·) keys) hk.canonical ps lp h
  obtain ⟨_, _, _, hlp, hlk, _⟩ := Conv.c03_parties_describe c.dec keys (keys.insertionSort (· ≤ ·)) loc (List.perm_insertionSort _ _)
    (List.pairwise_insertionSort (· ≤ ·) keys) ps lp h
  have hsend : ∀ i, Map.get (SetupIDMaps c (sa.f (SetupPartyIDMap ps)) []).1 i = Map.get (SetupIDMaps c (sb.f (SetupPartyIDMap ps)) []).1 i := by
    intro i
    apply Option.ext
    intro p
    rw [hpa, hpb]
  have hwfa := wf_idMaps c (sa.f (SetupPartyIDMap ps)) [] Map.WF_nil
  have hinj : ∀ i j p, Map.get (SetupIDMaps c (sb.f (SetupPartyIDMap ps)) []).1 i = some p →
      Map.get (SetupIDMaps c (sb.f (SetupPartyIDMap ps)) []).1 j = some p → i = j := by
    intro i j p h1 h2
    rw [hpb] at h1 h2
    obtain ⟨k, hk1, hp1⟩ := h1
    obtain ⟨k', hk2, hp2⟩ := h2
    have := peer_inj c keys hk (hin hk1) (hin hk2) hp1 hp2
    subst this
    exact hpos hk1 hk2
  refine ⟨⟨wf_partyMap ps, ?_, ?_, wf_idMaps c _ _ Map.WF_nil, ?_, hinj, ?_⟩, ?_, ?_, ?_, ?_, ?_, ?_, ?_, ?_, ho, rfl, rfl, rfl, rfl, rfl, rfl⟩
  · intro i p hp
    exact ((Conv.c05_partymap ps hid i p).1 hp).2
  · intro i p hp
    obtain ⟨k, _, h2, _⟩ := hinv p ((Conv.c05_partymap ps hid i p).1 hp).1
    exact ⟨k, h2⟩
  · intro i
    show i ∈ Map.keys (SetupIDMaps c (sb.f (SetupPartyIDMap ps)) []).1 ↔ i ∈ Map.keys (SetupPartyIDMap ps)
    rw [← Map.get_isSome_iff, Option.isSome_iff_exists]
    constructor
    · rintro ⟨p, hp⟩
      rw [hpb] at hp
      obtain ⟨k, hi, _⟩ := hp
      obtain ⟨q, hq, _⟩ := (hn i k).2 hi
      rw [← Map.get_isSome_iff, hq]; rfl
    · exact hpeer i
  · show lp.id ∈ Map.keys (SetupPartyIDMap ps)
    rw [← Map.get_isSome_iff, (Conv.c05_partymap ps hid lp.id lp).2 ⟨hlp, rfl⟩]; rfl
  · intro i j k h1 h2
    exact hpos ((hn i k).1 h1) ((hn j k).1 h2)
  · intro k
    show k ∈ keys ↔ ∃ i, Named c (SetupPartyIDMap ps) i k
    simp only [hn]
    rw [← hmem, List.mem_iff_getElem?]
  · show (SetupPartyIDMap ps).length = keys.length
    rw [length_partyMap ps hid, hlen]
  · exact (hn _ _).2 hlk
  · intro i k p hi
    have hi := (hn i k).1 hi
    show Map.get (SetupIDMaps c (sb.f (SetupPartyIDMap ps)) []).1 i = some p ↔ _
    rw [hpb]
    constructor
    · rintro ⟨k', h1, h2⟩
      rw [hi] at h1; cases h1; exact h2
    · exact fun hp => ⟨k, hi, hp⟩
  · intro i
    rw [hi]; exact hsend i
  · intro p
    rw [he, Conv.c05_peers_mem _ _ (sc.perm _)]
    refine and_congr_right fun _ => ?_
    constructor
    · rintro ⟨i, hi⟩
      have := Map.get_of_mem hwfa hi
      rw [hpa] at this
      obtain ⟨k, h1, h2⟩ := this
      exact ⟨k, hin h1, h2⟩
    · rintro ⟨k, h1, h2⟩
      obtain ⟨i, hi⟩ := List.mem_iff_getElem?.1 ((hmem k).2 h1)
      exact ⟨i, Map.mem_of_get ((hpa i p).2 ⟨k, hi, h2⟩)⟩
  · rw [he]
    refine (Conv.c05_peers_once _ _ (sc.perm _) me ?_).1
    rw [List.nodup_map_iff_inj_on (Map.nodup_of_WF hwfa)]
    rintro ⟨i, p⟩ h1 ⟨j, q⟩ h2 (rfl : p = q)
    have h1 := Map.get_of_mem hwfa h1
    have h2 := Map.get_of_mem hwfa h2
    rw [hsend] at h1 h2
    rw [hinj i j p h1 h2]

/-- C94: when the node is the member with its key, there is one peer to send to for every other member. -/
theorem c94_others_count {c : Codec K P} {keys : List K} {own : K} {me : P} {env : LoopEnv K P} {mgr : Manager K P} (hk : Proper c keys)
    (hs : SetUpFor c keys own me env mgr) (hme : GetPeerIDFromPubKey c own = .ok me) : env.ses.p2pPeers.length + 1 = keys.length := by
  have hmem : ∀ k, k ∈ keys → ∃ p, GetPeerIDFromPubKey c k = .ok p := by
    intro k h
    obtain ⟨i, hi⟩ := (hs.members k).1 h
    have : i ∈ Map.keys mgr.partyIDtoP2PID := by
      rw [hs.committee.same, ← Map.get_isSome_iff]
      obtain ⟨q, hq, _⟩ := hi
      rw [hq]; rfl
    rw [← Map.get_isSome_iff, Option.isSome_iff_exists] at this
    obtain ⟨p, hp⟩ := this
    exact ⟨p, (hs.peers i k p hi).1 hp⟩
  have hown : own ∈ keys := (hs.members own).2 ⟨_, hs.own⟩
  have hperm : (env.ses.p2pPeers.map fun p => some p).Perm
      ((keys.erase own).map fun k => match GetPeerIDFromPubKey c k with | .ok p => some p | _ => none) := by
    rw [List.perm_ext_iff_of_nodup]
    · intro o
      simp only [List.mem_map]
      constructor
      · rintro ⟨p, hp, rfl⟩
        obtain ⟨h1, k, h2, h3⟩ := (hs.others p).1 hp
        refine ⟨k, ?_, by rw [h3]⟩
        rw [hk.nodup.mem_erase_iff]
        refine ⟨?_, h2⟩
        rintro rfl
        rw [hme] at h3
        cases h3
        exact h1 rfl
      · rintro ⟨k, h1, h2⟩
        rw [hk.nodup.mem_erase_iff] at h1
        obtain ⟨p, hp⟩ := hmem k h1.2
        rw [hp] at h2
        refine ⟨p, (hs.others p).2 ⟨?_, k, h1.2, hp⟩, h2⟩
        rintro rfl
        exact h1.1 (peer_inj c keys hk h1.2 hown hp hme)
    · exact hs.once.map (Option.some_injective _)
    · rw [List.nodup_map_iff_inj_on (hk.nodup.erase _)]
      intro k h1 k' h2 he
      obtain ⟨p, hp⟩ := hmem k (List.mem_of_mem_erase h1)
      obtain ⟨p', hp'⟩ := hmem k' (List.mem_of_mem_erase h2)
      rw [hp, hp'] at he
      cases he
      exact peer_inj c keys hk (List.mem_of_mem_erase h1) (List.mem_of_mem_erase h2) hp hp'
  have := hperm.length_eq
  rw [List.length_map, List.length_map, List.length_erase_of_mem hown] at this
  have hpos : 0 < keys.length := List.length_pos_of_mem hown
  omega

end

/-! ## the monikers of the local parties -/

theorem colon_not_mem_repr (n : Nat) : ':' ∉ (toString n).toList := by
  intro h
  have h' : ':' ∈ (Nat.toDigits 10 n) := by simpa [toString, Nat.repr] using h
  exact absurd (Nat.isDigit_of_mem_toDigits (by decide) (by decide) h') (by decide)

theorem cut_colon {a b x y : List Char} (ha : ':' ∉ a) (hb : ':' ∉ b) (h : a ++ ':' :: x = b ++ ':' :: y) : a = b ∧ x = y := by
  induction a generalizing b with
  | nil =>
    cases b with
    | nil => simpa using h
    | cons c b => simp at h; exact absurd h.1.symm (by simp at hb; exact fun e => hb.1 e.symm)
  | cons c a ih =>
    cases b with
    | nil => simp at h; exact absurd h.1 (by simp at ha; exact fun e => ha.1 e.symm)
    | cons d b =>
      simp at h ha hb
      obtain ⟨e, r⟩ := ih ha.2 hb.2 h.2
      exact ⟨by rw [h.1, e], r⟩

theorem moniker_inj {a b i j : Nat} (h : toString a ++ ":" ++ toString i = toString b ++ ":" ++ toString j) : a = b ∧ i = j := by
  have h' : (toString a ++ ":" ++ toString i).toList = (toString b ++ ":" ++ toString j).toList := by rw [h]
  simp only [String.toList_append] at h'
  have : ":".toList = [':'] := rfl
  rw [this] at h'
  simp only [List.append_assoc, List.singleton_append] at h'
  obtain ⟨e1, e2⟩ := cut_colon (colon_not_mem_repr a) (colon_not_mem_repr b) h'
  exact ⟨Messages.toString_nat_inj (String.toList_inj.1 e1), Messages.toString_nat_inj (String.toList_inj.1 e2)⟩

theorem monikers_get (msgs : List Bytes) (i : Nat) :
    (KeySign.monikers msgs)[i]? = msgs[i]?.map fun m => toString (hashToInt m secp256k1N) ++ ":" ++ toString i := by
  unfold KeySign.monikers
  rw [List.getElem?_map, List.getElem?_zipIdx]
  cases msgs[i]? <;> simp

theorem monikers_nodup (msgs : List Bytes) : (KeySign.monikers msgs).Nodup := by
  rw [List.nodup_iff_getElem?_ne_getElem?]
  intro i j hij hj he
  rw [monikers_get, monikers_get] at he
  have hl : (KeySign.monikers msgs).length = msgs.length := by simp [KeySign.monikers]
  rw [hl] at hj
  rw [List.getElem?_eq_getElem hj, List.getElem?_eq_getElem (by omega)] at he
  simp only [Option.map_some, Option.some.injEq] at he
  have := (moniker_inj he).2
  omega

/-! ## C94 -/

section
variable {P S H L Pt A Q : Type} [DecidableEq P] [LinearOrder S] [LinearOrder H]

/-- C94 for key generation: a session for proper keys is that of the keys asked for; it has one local party, and messages are sent one by one. -/
theorem c94_keygen (env : Keygen.KEnv P S H L Pt A Q) (sch : Keygen.SetupSched P) (id : String) (keys : List Str) (hk : Proper env.base.codec keys)
    (lenv : LoopEnv Str P) (mgr : Manager Str P) (h : Keygen.genSetup env sch id keys = .run lenv mgr) :
    SetUpFor env.base.codec keys env.ownKey env.base.me lenv mgr ∧ lenv.ses.codec = env.base.codec ∧ lenv.ses.localPeer = env.base.me ∧
      lenv.ses.msgID = id.toUTF8.data.toList ∧ lenv.ses.parties = [""] ∧ lenv.out.msgNum = 1 := by
  unfold Keygen.genSetup at h
  split at h
  · cases h
  · cases h
  · rename_i parties loc hp
    split at h
    · cases h
    · cases h
    · split at h
      · cases h
      · dsimp only at h
        split at h
        · rename_i hr
          rw [show (newManager [] (SetupIDMaps env.base.codec (sch.b.f (SetupPartyIDMap parties)) []).1 0 : Manager Str P).setPartyInfo [loc.id]
            (SetupPartyIDMap parties) = .ok { (newManager [] (SetupIDMaps env.base.codec (sch.b.f (SetupPartyIDMap parties)) []).1 0 :
              Manager Str P) with partyIDMap := SetupPartyIDMap parties, localPartyID := loc.id } from rfl] at h
          dsimp only at h
          cases h
          exact ⟨setup env.base.codec keys env.ownKey hk parties loc hp env.base.me sch.a sch.b sch.c hr.1 hr.2 _ rfl rfl rfl,
            rfl, rfl, rfl, rfl, rfl⟩
        · cases h

/-- C94 for signing: a session for proper signer keys is that of these signers; it has one local party for each message, no two of them alike,
and messages are sent in bulks of as many as there are messages. The local party of the `i`-th message is called after the message's hash value
and `i`. -/
theorem c94_keysign (env : Server.Env P S H L) (sch : KeySign.SetupSched P) (task : KeySign.Job L) (signers : List Str)
    (hk : Proper env.codec signers) (lenv : LoopEnv Str P) (mgr : Manager Str P) (h : KeySign.signSetup env sch task signers = .run lenv mgr) :
    SetUpFor env.codec signers task.state.localPartyKey env.me lenv mgr ∧ lenv.ses.codec = env.codec ∧ lenv.ses.localPeer = env.me ∧
      lenv.ses.msgID = task.msgID.toUTF8.data.toList ∧ lenv.out.msgNum = task.msgs.length ∧
      lenv.ses.parties.length = task.msgs.length ∧ lenv.ses.parties.Nodup ∧ task.msgs ≠ [] ∧
      ∀ (i : Nat) (m : Bytes), task.msgs[i]? = some m → ∃ n, MsgToHashInt m = .ok n ∧ lenv.ses.parties[i]? = some (toString n ++ ":" ++ toString i) := by
  unfold KeySign.signSetup at h
  split at h
  · cases h
  · cases h
  · rename_i parties loc hp
    split at h
    · cases h
    · split at h
      · cases h
      · cases h
      · dsimp only at h
        split at h
        · rename_i hr
          cases hn : task.msgs with
          | nil =>
            rw [hn] at h
            exact absurd h (by simp [Manager.setPartyInfo])
          | cons m₀ ms =>
            rw [hn] at h
            simp only [List.length_cons, List.replicate_succ, Manager.setPartyInfo] at h
            cases h
            refine ⟨setup env.codec signers task.state.localPartyKey hk parties loc hp env.me sch.a sch.b sch.c hr.1 hr.2 _ rfl rfl rfl,
              rfl, rfl, rfl, by simp, ?_, monikers_nodup _, by simp, ?_⟩
            · simp [KeySign.monikers]
            · intro i m hm
              exact ⟨_, rfl, by simp only [monikers_get, hm]; rfl⟩
        · cases h

/-- C94: key generation for proper keys of peers, one of them the node's own, does get its session (if there are pre-parameters). -/
theorem c94_keygen_starts (env : Keygen.KEnv P S H L Pt A Q) (sch : Keygen.SetupSched P) (id : String) (keys : List Str)
    (hk : Proper env.base.codec keys) (hp : ∀ k ∈ keys, ∃ p, GetPeerIDFromPubKey env.base.codec k = .ok p) (hown : env.ownKey ∈ keys)
    (hpre : env.preParams = true) : ∃ lenv mgr, Keygen.genSetup env sch id keys = .run lenv mgr := by
  rcases GetParties_eq env.base.codec.dec keys env.ownKey with ⟨⟨k, h1, h2⟩, -⟩ | ⟨-, h2, -⟩ | ⟨-, -, lp, i, -, -, -, -, e⟩
  · obtain ⟨b, hb⟩ := hk.canonical k h1
    rw [hb.dec] at h2; cases h2
  · exact absurd hown h2
  · have hids : ∀ σ : Go.Shuffle (Nat × Party),
        (SetupIDMaps env.base.codec (σ.f (SetupPartyIDMap (sortPartyIDs (rawParties env.base.codec.dec keys)))) []).2 = .ok () := by
      intro σ
      rw [Conv.setupIDMaps_ok]
      intro x hx
      have hx' := Server.mem_partyIDMap ((σ.perm _).mem_iff.1 hx)
      obtain ⟨k, h1, _, h3, _⟩ := Conv.c04_conversions_inverse env.base.codec keys (keys.insertionSort (· ≤ ·)) env.ownKey
        (List.perm_insertionSort _ _) (List.pairwise_insertionSort (· ≤ ·) keys) hk.canonical _ _ e x.2 hx'
      rw [h3]
      exact hp k ((List.perm_insertionSort (· ≤ ·) keys).mem_iff.1 (List.mem_of_getElem? h1))
    unfold Keygen.genSetup
    rw [e]
    dsimp only
    unfold Threshold.GetThreshold
    rw [if_neg (by omega)]
    dsimp only
    rw [if_neg (by simp [hpre]), if_pos ⟨hids sch.a, hids sch.b⟩]
    exact ⟨_, _, rfl⟩

/-- C94: the members of a formed party of different peers have proper keys. -/
theorem proper_online {c : Codec Str P} (hl : Spec.Server.LawfulKeys c) {online : List P} (hn : online.Nodup) {signers : List Str}
    (h : GetPubKeysFromPeerIDs c online = .ok signers) : Proper c signers ∧ ∀ p, p ∈ online ↔ ∃ k ∈ signers, GetPeerIDFromPubKey c k = .ok p := by
  have hf := (Server.getPubKeys_forall₂ c online signers).1 h
  refine ⟨⟨?_, ?_⟩, ?_⟩
  · clear h
    induction hf with
    | nil => exact List.nodup_nil
    | cons h1 h2 ih =>
      rw [List.nodup_cons] at hn ⊢
      refine ⟨fun hm => ?_, ih hn.2⟩
      obtain ⟨q, hq, h3⟩ := Server.forall₂_mem_right h2 hm
      have e1 := Server.LawfulKeys.peer hl h1
      rw [Server.LawfulKeys.peer hl h3] at e1
      cases e1
      exact hn.1 hq
  · intro k hk
    obtain ⟨p, _, hp⟩ := Server.forall₂_mem_right hf hk
    obtain ⟨b, hb, _⟩ := hl p k hp
    exact ⟨b, hb⟩
  · intro p
    constructor
    · intro hp
      obtain ⟨k, hk, h1⟩ := Server.forall₂_mem_left hf hp
      exact ⟨k, hk, Server.LawfulKeys.peer hl h1⟩
    · rintro ⟨k, hk, h1⟩
      obtain ⟨q, hq, h2⟩ := Server.forall₂_mem_right hf hk
      rw [Server.LawfulKeys.peer hl h2] at h1
      cases h1
      exact hq

/-- C94 for signing, in terms of the party that was formed: if the join reported different peers, the session is that of their keys, and messages go
to exactly the other peers of the party. -/
theorem c94_keysign_party (env : Server.Env P S H L) (hl : Spec.Server.LawfulKeys env.codec) (req : KeySign.Request) (task : KeySign.Job L) (old : Bool)
    (h : List (KeySign.Event P)) (online : List P) (signers : List Str) (hm : Spec.KeySign.Member env req task old h online signers)
    (hn : online.Nodup) (sch : KeySign.SetupSched P) (lenv : LoopEnv Str P) (mgr : Manager Str P)
    (hs : KeySign.signSetup env sch task signers = .run lenv mgr) :
    SetUpFor env.codec signers task.state.localPartyKey env.me lenv mgr ∧
      (∀ p, p ∈ lenv.ses.p2pPeers ↔ p ∈ online ∧ p ≠ env.me) ∧ lenv.ses.p2pPeers.length + 1 = online.length ∧
      ∀ p, p ∈ online ↔ ∃ i, Map.get mgr.partyIDtoP2PID i = some p := by
  obtain ⟨hp, hpeers⟩ := proper_online hl hn hm.2.2
  obtain ⟨hset, -⟩ := c94_keysign env sch task signers hp lenv mgr hs
  have hoth : ∀ p, p ∈ lenv.ses.p2pPeers ↔ p ∈ online ∧ p ≠ env.me := by
    intro p
    rw [hset.others, hpeers, and_comm]
  refine ⟨hset, hoth, ?_, ?_⟩
  · have : (env.me :: lenv.ses.p2pPeers).Perm online := by
      rw [List.perm_ext_iff_of_nodup (List.nodup_cons.2 ⟨fun h => ((hoth _).1 h).2 rfl, hset.once⟩) hn]
      intro p
      rw [List.mem_cons, hoth]
      constructor
      · rintro (rfl | h)
        · exact hm.2.1
        · exact h.1
      · intro h
        by_cases he : p = env.me
        · exact .inl he
        · exact .inr ⟨h, he⟩
    have := this.length_eq
    simpa using this
  · intro p
    rw [hpeers]
    constructor
    · rintro ⟨k, hk, h1⟩
      obtain ⟨i, hi⟩ := (hset.members k).1 hk
      exact ⟨i, (hset.peers i k p hi).2 h1⟩
    · rintro ⟨i, hi⟩
      have : i ∈ Map.keys mgr.partyIDMap := by
        rw [← hset.committee.same, ← Map.get_isSome_iff, hi]; rfl
      rw [← Map.get_isSome_iff, Option.isSome_iff_exists] at this
      obtain ⟨q, hq⟩ := this
      obtain ⟨k, hk⟩ := hset.committee.named i q hq
      exact ⟨k, (hset.members k).2 ⟨i, q, hq, hk⟩, (hset.peers i k p ⟨q, hq, hk⟩).1 hi⟩

/-- C94 with C92: whom the timeout of a key generation session blames, for a request of at most 2^50 proper keys. -/
theorem c94_keygen_timeout (env : Keygen.KEnv P S H L Pt A Q) (sch : Keygen.SetupSched P) (id : String) (keys : List Str)
    (hk : Proper env.base.codec keys) (hme : GetPeerIDFromPubKey env.base.codec env.ownKey = .ok env.base.me) (hn : keys.length ≤ 2 ^ 50)
    (lenv : LoopEnv Str P) (mgr : Manager Str P) (hs : Keygen.genSetup env sch id keys = .run lenv mgr) (disk : Storage.Disk)
    (h : List (LoopEvent P (Keygen.End L A Q))) (last : String) (b : Bool) (hl : TimeoutVerdict.lastOut lenv h = some (last, b)) (bs : BlameSched P)
    (hr : (Keygen.genRun env lenv keys (TssCommon.newTssCommon mgr) disk h).result = none)
    (hcr : (Keygen.genRun env lenv keys (TssCommon.newTssCommon mgr) disk h).crashed = false) :
    let s := Keygen.genRun env lenv keys (TssCommon.newTssCommon mgr) disk h
    let s' := Keygen.genRun env lenv keys (TssCommon.newTssCommon mgr) disk (h ++ [.timeout bs])
    ∃ U B, TimeoutVerdict.SilentInHistory lenv.ses mgr (TimeoutVerdict.inbounds h) "KGRound2Message1" U ∧
      TimeoutVerdict.SilentBroadcast s.ses.mgr last B ∧
      (TimeoutVerdict.Evidence keys.length U B s.ses.mgr → s'.result = some (.error .timeout) ∧ s'.crashed = false ∧
        TimeoutVerdict.Verdict env.base.codec keys.length U B s.ses.mgr s'.ses.mgr) := by
  obtain ⟨hset, hcodec, -⟩ := c94_keygen env sch id keys hk lenv mgr hs
  have hcount := c94_others_count hk hset hme
  rw [← hset.broadcast] at hcount
  have hv := TimeoutVerdict.c92_keygen_run env lenv keys mgr disk (hcodec ▸ hset.committee) hset.fresh.2.2.2.1 hset.fresh.2.1
    hset.fresh.2.2.2.2.1 (by omega) h last b hl bs hr hcr
  rw [hcount, hcodec] at hv
  exact hv

/-- C94 with C92: whom the timeout of a signing session blames, for a party of at most 2^50 different peers. -/
theorem c94_keysign_timeout (env : Server.Env P S H L) (hl : Spec.Server.LawfulKeys env.codec) (req : KeySign.Request) (task : KeySign.Job L) (old : Bool)
    (h : List (KeySign.Event P)) (online : List P) (signers : List Str) (hm : Spec.KeySign.Member env req task old h online signers)
    (hn : online.Nodup) (hlen : online.length ≤ 2 ^ 50) (sch : KeySign.SetupSched P) (lenv : LoopEnv Str P) (mgr : Manager Str P)
    (hs : KeySign.signSetup env sch task signers = .run lenv mgr) (lh : List (LoopEvent P Session.Sig)) (last asked : String) (b : Bool)
    (hlo : TimeoutVerdict.lastOut lenv lh = some (last, b)) (ha : (last, b, asked) ∈ TimeoutVerdict.askedAfter) (bs : BlameSched P)
    (hr : (signRun lenv task.msgs.length (TssCommon.newTssCommon mgr) lh).result = none)
    (hcr : (signRun lenv task.msgs.length (TssCommon.newTssCommon mgr) lh).crashed = false) :
    let s := signRun lenv task.msgs.length (TssCommon.newTssCommon mgr) lh
    let s' := signRun lenv task.msgs.length (TssCommon.newTssCommon mgr) (lh ++ [.timeout bs])
    ∃ U B, TimeoutVerdict.SilentInHistory lenv.ses mgr (TimeoutVerdict.inbounds lh) asked U ∧ TimeoutVerdict.SilentBroadcast s.ses.mgr last B ∧
      (TimeoutVerdict.Evidence online.length U B s.ses.mgr → s'.result = some (.error .timeout) ∧ s'.crashed = false ∧
        TimeoutVerdict.Verdict env.codec online.length U B s.ses.mgr s'.ses.mgr) := by
  obtain ⟨hset, -, hcount, -⟩ := c94_keysign_party env hl req task old h online signers hm hn sch lenv mgr hs
  obtain ⟨-, hcodec, -⟩ := c94_keysign env sch task signers (proper_online hl hn hm.2.2).1 lenv mgr hs
  rw [← hset.broadcast] at hcount
  have hv := TimeoutVerdict.c92_keysign_run lenv task.msgs.length mgr (hcodec ▸ hset.committee) hset.fresh.2.2.2.1 hset.fresh.2.1
    hset.fresh.2.2.2.2.1 (by omega) lh last asked b hlo ha bs hr hcr
  rw [hcount, hcodec] at hv
  exact hv

end

/-! ## Examples and limits -/

section Demo
open Verif.Spec.DemoServer (key peers codec)

/-- the four keys of the example are proper -/
theorem demoProper : Proper codec [key 2, key 0, key 3, key 1] where
  nodup := by decide
  canonical := by
    have h : ∀ i, i < 4 → GetPubKeyFromPeerID codec (10 + i) = .ok (key i) := by decide +kernel
    intro k hk
    have : ∃ i, i < 4 ∧ k = key i := by
      simp only [List.mem_cons, List.not_mem_nil, or_false] at hk
      rcases hk with rfl | rfl | rfl | rfl
      exacts [⟨2, by decide, rfl⟩, ⟨0, by decide, rfl⟩, ⟨3, by decide, rfl⟩, ⟨1, by decide, rfl⟩]
    obtain ⟨i, hi, rfl⟩ := this
    obtain ⟨b, h1, _⟩ := Spec.DemoServer.lawfulKeys (10 + i) (key i) (h i hi)
    exact ⟨b, h1⟩

/-- the hypotheses of `c94_keygen`, `c94_keygen_starts` and `c94_keygen_timeout` hold of the example: the session starts, and sends to the other three -/
example : Proper (KeyGeneration.env 1).base.codec [key 2, key 0, key 3, key 1] ∧ (KeyGeneration.env 1).ownKey ∈ [key 2, key 0, key 3, key 1] ∧
    (∀ k ∈ [key 2, key 0, key 3, key 1], (match GetPeerIDFromPubKey (KeyGeneration.env 1).base.codec k with | .ok _ => true | _ => false) = true) ∧
    GetPeerIDFromPubKey (KeyGeneration.env 1).base.codec (KeyGeneration.env 1).ownKey = .ok (KeyGeneration.env 1).base.me ∧
    (match Keygen.genSetup (KeyGeneration.env 1) KeyGeneration.sched "id" [key 2, key 0, key 3, key 1] with
      | .run lenv mgr => some (lenv.ses.p2pPeers, mgr.localPartyID, lenv.out.msgNum, TimeoutVerdict.lastOut lenv
          ([.out ⟨Shuffle.id _, Shuffle.id _, fun _ => true⟩ ⟨"KGRound1Message", "", some ([1], ⟨some (some 1), [], true⟩)⟩] :
            List (LoopEvent Nat (Keygen.End Unit Unit Nat))))
      | _ => none) = some ([10, 12, 13], 1, 1, some ("KGRound1Message", true)) :=
  ⟨demoProper, by decide, by decide +kernel, by decide +kernel, by decide +kernel⟩

/-- a job of two messages -/
def job (i : Nat) : KeySign.Job Unit := ⟨"id", [[7], [7]], 2, Spec.DemoServer.state i, []⟩

/-- visiting orders -/
def sched : KeySign.SetupSched Nat := ⟨Go.Shuffle.id _, Go.Shuffle.id _, Go.Shuffle.id _⟩

/-- the hypotheses of `c94_keysign` hold of the example: the local parties of two equal messages differ -/
example : Proper (Spec.DemoServer.env 1).codec [key 2, key 0, key 3, key 1] ∧
    (match KeySign.signSetup (Spec.DemoServer.env 1) sched (job 1) [key 2, key 0, key 3, key 1] with
      | .run lenv mgr => some (lenv.ses.parties, lenv.ses.p2pPeers, mgr.localPartyID, lenv.out.msgNum)
      | _ => none) = some (["7:0", "7:1"], [10, 12, 13], 1, 2) :=
  ⟨demoProper, by decide +kernel⟩

/-- the party of three different peers of the example of C49 is formed (the hypotheses of `c94_keysign_party`) -/
example : [10, 11, 12].Nodup ∧ (KeySigning.demo (KeySigning.answer [10, 11, 12] .success)).crashed = false ∧
    GetPubKeysFromPeerIDs codec [10, 11, 12] = .ok [key 0, key 1, key 2] := by decide +kernel

/-- C94 needs different peers: a session of the peers 10, 11, 11, as the leader may announce them, has two members with the same key and the same
peer, and a member too few to send to. -/
theorem c94_repeated_peer : GetPubKeysFromPeerIDs codec [10, 11, 11] = .ok [key 0, key 1, key 1] ∧
    ∃ lenv mgr, KeySign.signSetup (Spec.DemoServer.env 1) sched (job 1) [key 0, key 1, key 1] = .run lenv mgr ∧
      Map.get mgr.partyIDtoP2PID 1 = some 11 ∧ Map.get mgr.partyIDtoP2PID 2 = some 11 ∧ lenv.ses.p2pPeers = [10] := by
  refine ⟨by decide +kernel, ?_⟩
  have h : (match KeySign.signSetup (Spec.DemoServer.env 1) sched (job 1) [key 0, key 1, key 1] with
      | .run lenv mgr => decide (Map.get mgr.partyIDtoP2PID 1 = some 11 ∧ Map.get mgr.partyIDtoP2PID 2 = some 11 ∧ lenv.ses.p2pPeers = [10])
      | _ => false) = true := by decide +kernel
  revert h
  cases KeySign.signSetup (Spec.DemoServer.env 1) sched (job 1) [key 0, key 1, key 1] with
  | run lenv mgr => exact fun h => ⟨lenv, mgr, rfl, of_decide_eq_true h⟩
  | error => exact fun h => by cases h
  | nothing => exact fun h => by cases h
  | panic => exact fun h => by cases h

/-- ... and a member does accept this answer of the leader: the signing session runs. -/
theorem c94_repeated_peer_accepted :
    (match (KeySigning.demo (KeySigning.answer [10, 11, 11] .success)).gen with | .signing _ _ => true | _ => false) = true := by decide +kernel

end Demo
end Verif.Props.SetUp
