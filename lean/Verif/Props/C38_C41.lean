import Verif.Lemmas.Blame
import Verif.Lemmas.CacheKey
import Verif.Spec.DemoCommittee
import Mathlib.Data.List.Induction

/-!
# C38-C41, C45: who is blamed for silence

`K` public keys, `P` peers. A member is named by `Spec.Names`.
-/
set_option linter.unusedSectionVars false
namespace Verif.Props.Timeouts
open Verif.Go Verif.Conversion Verif.Messages Verif.Blame Verif.Spec

variable {K P : Type} [DecidableEq K] [DecidableEq P]

/-! ## C38 node sync -/

theorem nodeSyncLoop_eq (c : Codec K P) (online : List P) (keys : List K) (acc : List (Node K))
    (h : ∀ k ∈ keys, ∃ p, GetPeerIDFromPubKey c k = .ok p) :
    nodeSyncLoop c online keys acc =
      (acc ++ (keys.filter (fun k => decide (∀ p ∈ online, GetPeerIDFromPubKey c k ≠ .ok p))).map (fun k => ⟨k, [], []⟩),
        .ok ()) := by
  induction keys generalizing acc with
  | nil => simp [nodeSyncLoop]
  | cons k keys ih =>
    obtain ⟨p, hp⟩ := h k (by simp)
    have ih := fun acc => ih acc (fun k' hk' => h k' (by simp [hk']))
    by_cases hm : p ∈ online
    · have h1 : online.any (fun x => decide (x = p)) = true := by simpa using hm
      have h2 : ¬ ∀ q ∈ online, GetPeerIDFromPubKey c k ≠ .ok q := fun hh => hh p hm hp
      simp only [nodeSyncLoop, hp, h1, if_true, ih]
      rw [List.filter_cons_of_neg (by simpa using h2)]
    · have h1 : ¬ online.any (fun x => decide (x = p)) = true := by simpa using hm
      have h2 : ∀ q ∈ online, GetPeerIDFromPubKey c k ≠ .ok q := by
        intro q hq he; rw [hp] at he; cases he; exact hm hq
      simp only [nodeSyncLoop, hp, h1, ih]
      rw [List.filter_cons_of_pos (by simpa using h2)]
      simp

/-- C38: when every key has a peer id, exactly the keys whose peer is not online are blamed, in request order and without
evidence. -/
theorem c38_absent_blamed (c : Codec K P) (keys : List K) (online : List P)
    (h : ∀ k ∈ keys, ∃ p, GetPeerIDFromPubKey c k = .ok p) :
    NodeSyncBlame c keys online =
      (⟨"signers fail to sync before keygen/keysign", false,
        (keys.filter (fun k => decide (∀ p ∈ online, GetPeerIDFromPubKey c k ≠ .ok p))).map (fun k => ⟨k, [], []⟩)⟩,
        .ok ()) := by
  simp [NodeSyncBlame, nodeSyncLoop_eq c online keys [] h, NewBlame, TssSyncFail]

/-- C38: the call fails exactly when some key has no peer id. -/
theorem c38_fails_iff (c : Codec K P) (keys : List K) (online : List P) :
    (NodeSyncBlame c keys online).2 ≠ .ok () ↔ ∃ k ∈ keys, ∀ p, GetPeerIDFromPubKey c k ≠ .ok p := by
  constructor
  · intro hne
    by_contra hcon
    apply hne
    have : ∀ k ∈ keys, ∃ p, GetPeerIDFromPubKey c k = .ok p := by
      intro k hk
      by_contra hh
      exact hcon ⟨k, hk, fun p hp => hh ⟨p, hp⟩⟩
    rw [c38_absent_blamed c keys online this]
  · rintro ⟨k, hk, hno⟩
    suffices ∀ acc, (nodeSyncLoop c online keys acc).2 ≠ .ok () by simpa [NodeSyncBlame] using this []
    induction keys with
    | nil => simp at hk
    | cons k' keys ih =>
      intro acc
      rcases hg : GetPeerIDFromPubKey c k' with p | e | _
      · rcases List.mem_cons.1 hk with rfl | hk
        · exact absurd hg (hno p)
        · simp only [nodeSyncLoop, hg]
          split
          · exact ih hk _
          · exact ih hk _
      · simp [nodeSyncLoop, hg]
      · simp [nodeSyncLoop, hg]

/-! ## C39 in-list and not-in-list -/

theorem order_get {m : Map Nat P} (hm : Map.WF m) (σ : Shuffle (Nat × P)) {i : Nat} {p : P} :
    (i, p) ∈ σ.f m ↔ Map.get m i = some p := by rw [σ.mem, Map.mem_iff_get hm]

theorem order_keys_nodup {m : Map Nat P} (hm : Map.WF m) (σ : Shuffle (Nat × P)) : ((σ.f m).map Prod.fst).Nodup :=
  (Map.WF_perm (σ.perm m)).2 hm

/-- the not-in-list: exactly the members other than the local one whose peer is not listed -/
theorem notInList_spec (c : Codec K P) (m : Manager K P) (hc : Committee c m) (σ : Shuffle (Nat × P)) (peers : List (Option P)) :
    ∃ ids ks, getBlamePubKeysNotInList c m.partyIDMap m.localPartyID (σ.f m.partyIDtoP2PID) peers = .ok ks ∧
      ids.Nodup ∧ Names c m.partyIDMap ids ks ∧
      ∀ i, i ∈ ids ↔ i ≠ m.localPartyID ∧ ∃ p, Map.get m.partyIDtoP2PID i = some p ∧ some p ∉ peers := by
  let ids := ((σ.f m.partyIDtoP2PID).filter fun (partyID, p2pID) =>
      !(decide (m.localPartyID = partyID)) && !(peers.any (fun each => some p2pID = each))).map Prod.fst
  have hmem : ∀ i, i ∈ ids ↔ i ≠ m.localPartyID ∧ ∃ p, Map.get m.partyIDtoP2PID i = some p ∧ some p ∉ peers := by
    intro i
    simp only [ids, List.mem_map, List.mem_filter, Prod.exists, exists_and_right, exists_eq_right]
    constructor
    · rintro ⟨p, hp, hcond⟩
      rw [order_get hc.wfp] at hp
      simp at hcond
      exact ⟨fun h => hcond.1 h.symm, p, hp, fun hm => hcond.2 _ hm rfl⟩
    · rintro ⟨h1, p, hp, h2⟩
      refine ⟨p, (order_get hc.wfp σ).2 hp, ?_⟩
      simp only [Bool.and_eq_true, Bool.not_eq_true', decide_eq_false_iff_not, List.any_eq_false, decide_eq_true_eq]
      exact ⟨fun h => h1 h.symm, fun x hx e => h2 (e ▸ hx)⟩
  obtain ⟨ks, h1, h2⟩ := names_exists c m.partyIDMap hc.named ids (by
    intro i hi
    obtain ⟨_, p, hp, _⟩ := (hmem i).1 hi
    rw [← hc.same, ← Map.get_isSome_iff, hp]; rfl)
  refine ⟨ids, ks, h1, ?_, h2, hmem⟩
  exact (order_keys_nodup hc.wfp σ).sublist (List.Sublist.map _ List.filter_sublist)

/-- the in-list, for a list of peers without repetitions: exactly the members whose peer is listed -/
theorem inList_spec (c : Codec K P) (m : Manager K P) (hc : Committee c m) (σ : Shuffle (Nat × P)) (peers : List P)
    (hnd : peers.Nodup) :
    ∃ ids ks, getBlamePubKeysInList c m.partyIDMap (σ.f m.partyIDtoP2PID) peers = .ok ks ∧
      ids.Nodup ∧ Names c m.partyIDMap ids ks ∧
      ∀ i, i ∈ ids ↔ ∃ p, Map.get m.partyIDtoP2PID i = some p ∧ p ∈ peers := by
  let ids := (σ.f m.partyIDtoP2PID).flatMap fun (partyID, p2pID) => (peers.filter (fun el => el = p2pID)).map (fun _ => partyID)
  have hmem : ∀ i, i ∈ ids ↔ ∃ p, Map.get m.partyIDtoP2PID i = some p ∧ p ∈ peers := by
    intro i
    simp only [ids, List.mem_flatMap, List.mem_map, List.mem_filter, Prod.exists, decide_eq_true_eq]
    constructor
    · rintro ⟨j, p, hp, q, ⟨hq, rfl⟩, rfl⟩
      exact ⟨q, (order_get hc.wfp σ).1 hp, hq⟩
    · rintro ⟨p, hp, hmem⟩
      exact ⟨i, p, (order_get hc.wfp σ).2 hp, p, ⟨hmem, rfl⟩, rfl⟩
  have hnodup : ids.Nodup := by
    have key : ∀ l : List (Nat × P), (l.map Prod.fst).Nodup →
        (l.flatMap fun (partyID, p2pID) => (peers.filter (fun el => el = p2pID)).map (fun _ => partyID)).Nodup := by
      intro l hl
      induction l with
      | nil => simp
      | cons e l ih =>
        obtain ⟨i, p⟩ := e
        simp only [List.map_cons, List.nodup_cons] at hl
        rw [List.flatMap_cons, List.nodup_append]
        refine ⟨?_, ih hl.2, ?_⟩
        · have hc1 : (peers.filter (fun el => decide (el = p))).length ≤ 1 := by
            have := List.nodup_iff_count_le_one.1 hnd p
            rw [List.count_eq_countP, List.countP_eq_length_filter] at this
            simpa [beq_iff_eq, BEq.beq] using this
          show ((peers.filter (fun el => decide (el = p))).map (fun _ => i)).Nodup
          generalize peers.filter (fun el => decide (el = p)) = f at hc1
          match f, hc1 with
          | [], _ => simp
          | [a], _ => simp
          | a :: b :: t, h => simp at h
        · intro a ha b hb e
          subst e
          simp only [List.mem_map, List.mem_filter, List.mem_flatMap, Prod.exists] at ha hb
          obtain ⟨_, _, rfl⟩ := ha
          obtain ⟨j, q, hj, _, _, rfl⟩ := hb
          exact hl.1 (List.mem_map.2 ⟨_, hj, rfl⟩)
    exact key _ (order_keys_nodup hc.wfp σ)
  obtain ⟨ks, h1, h2⟩ := names_exists c m.partyIDMap hc.named ids (by
    intro i hi
    obtain ⟨p, hp, _⟩ := (hmem i).1 hi
    rw [← hc.same, ← Map.get_isSome_iff, hp]; rfl)
  exact ⟨ids, ks, h1, hnodup, h2, hmem⟩

/-- C39: for a list of peers without repetitions, and for every order in which the maps are visited, the two lists name
disjoint sets of members without repetitions; the local node is never in the not-in-list, and every other member is in
exactly one of them. -/
theorem c39_lists_split (c : Codec K P) (m : Manager K P) (hc : Committee c m) (σ₁ σ₂ : Shuffle (Nat × P)) (peers : List P)
    (hnd : peers.Nodup) :
    ∃ inIds notIds ks ks', m.getBlamePubKeysLists c σ₁ σ₂ peers = .ok (ks, ks') ∧
      Names c m.partyIDMap inIds ks ∧ Names c m.partyIDMap notIds ks' ∧ (inIds ++ notIds).Nodup ∧
      m.localPartyID ∉ notIds ∧
      (∀ i, i ∈ inIds ↔ ∃ p, Map.get m.partyIDtoP2PID i = some p ∧ p ∈ peers) ∧
      (∀ i ∈ Map.keys m.partyIDMap, i ≠ m.localPartyID → (i ∈ inIds ∨ i ∈ notIds)) := by
  obtain ⟨inIds, ks, h1, h2, h3, h4⟩ := inList_spec c m hc σ₁ peers hnd
  obtain ⟨notIds, ks', g1, g2, g3, g4⟩ := notInList_spec c m hc σ₂ (peers.map some)
  refine ⟨inIds, notIds, ks, ks', ?_, h3, g3, ?_, ?_, h4, ?_⟩
  · simp [Manager.getBlamePubKeysLists, h1, g1]
  · rw [List.nodup_append]
    refine ⟨h2, g2, ?_⟩
    intro a ha b hb e
    subst e
    obtain ⟨p, hp, hm⟩ := (h4 a).1 ha
    obtain ⟨_, q, hq, hm'⟩ := (g4 a).1 hb
    rw [hp] at hq; cases hq
    exact hm' (List.mem_map.2 ⟨p, hm, rfl⟩)
  · intro h; exact ((g4 _).1 h).1 rfl
  · intro i hi hne
    have := (Map.get_isSome_iff m.partyIDtoP2PID i).2 ((hc.same i).2 hi)
    obtain ⟨p, hp⟩ := Option.isSome_iff_exists.1 this
    by_cases hm : p ∈ peers
    · exact Or.inl ((h4 i).2 ⟨p, hp, hm⟩)
    · refine Or.inr ((g4 i).2 ⟨hne, p, hp, ?_⟩)
      simpa using hm

/-! ## C40 broadcast timeout -/

/-- a message of the round from this member is stored -/
def Heard (m : Manager K P) (round : String) (i : Nat) : Prop :=
  ∃ key w, Map.get m.storedMsg key = some w ∧ w.roundInfo = round ∧ w.sender = some i

theorem getByRound_spec (round : String) (l : List (String × WireMessage)) (h : ∀ e ∈ l, e.2.sender ≠ none) :
    ∃ ids, getByRound round l = .ok ids ∧ ∀ i, i ∈ ids ↔ ∃ e ∈ l, e.2.roundInfo = round ∧ e.2.sender = some i := by
  induction l with
  | nil => exact ⟨[], rfl, by simp⟩
  | cons e l ih =>
    obtain ⟨ids, h1, h2⟩ := ih (fun e' he' => h e' (by simp [he']))
    by_cases hr : e.2.roundInfo = round
    · rcases hs : e.2.sender with _ | j
      · exact absurd hs (h e (by simp))
      · refine ⟨j :: ids, ?_, ?_⟩
        · obtain ⟨k, w⟩ := e; simp only at hr hs; simp [getByRound, hr, hs, h1]
        · intro i
          simp only [List.mem_cons, exists_eq_or_imp, hr, hs, true_and, h2, Option.some.injEq]
          constructor
          · rintro (rfl | h)
            · exact Or.inl rfl
            · exact Or.inr h
          · rintro (h | h)
            · exact Or.inl h.symm
            · exact Or.inr h
    · refine ⟨ids, ?_, ?_⟩
      · obtain ⟨k, w⟩ := e; simp only at hr; simp [getByRound, hr, h1]
      · intro i; simp [hr, h2]

/-- C40: if a message of the round arrived from somebody, exactly the members other than the local one whose message did not
are blamed, for every visiting order; if none arrived, nobody is. (The stored messages have a sender: they passed the
signature check.) -/
theorem c40_broadcast_blame (c : Codec K P) (m : Manager K P) (hc : Committee c m) (σ₁ : Shuffle (String × WireMessage))
    (σ₂ : Shuffle Nat) (round : String) (hwf : Map.WF m.storedMsg)
    (hs : ∀ key w, Map.get m.storedMsg key = some w → w.sender ≠ none) :
    ∃ ids ks, m.getBroadcastBlame c σ₁ σ₂ round = .ok (plainNodes ks) ∧ ids.Nodup ∧ Names c m.partyIDMap ids ks ∧
      ((∃ j, Heard m round j) → ∀ i, i ∈ ids ↔ i ∈ Map.keys m.partyIDMap ∧ i ≠ m.localPartyID ∧ ¬ Heard m round i) ∧
      ((¬ ∃ j, Heard m round j) → ids = []) := by
  obtain ⟨st, h1, h2⟩ := getByRound_spec round (σ₁.f m.storedMsg) (by
    intro e he
    obtain ⟨k, w⟩ := e
    rw [σ₁.mem, Map.mem_iff_get hwf] at he
    exact hs k w he)
  have h2' : ∀ i, i ∈ st ↔ Heard m round i := by
    intro i
    rw [h2]
    unfold Heard
    constructor
    · rintro ⟨⟨k, w⟩, he, hr, hi⟩
      rw [σ₁.mem, Map.mem_iff_get hwf] at he
      exact ⟨k, w, he, hr, hi⟩
    · rintro ⟨k, w, he, hr, hi⟩
      exact ⟨(k, w), (σ₁.mem).2 ((Map.mem_iff_get hwf).2 he), hr, hi⟩
  by_cases hst : st = []
  · refine ⟨[], [], ?_, by simp, List.Forall₂.nil, ?_, ?_⟩
    · simp [Manager.getBroadcastBlame, Manager.tssTimeoutBlame, h1, hst, plainNodes]
    · rintro ⟨j, hj⟩; rw [← h2', hst] at hj; simp at hj
    · intro _; rfl
  · let ids := σ₂.f ((((m.partyIDMap.map (fun e => e.2.id)).dedup).filter (fun i => i ≠ m.localPartyID)).filter (fun i => !(st.contains i)))
    have hkeys : ∀ i, i ∈ m.partyIDMap.map (fun e => e.2.id) ↔ i ∈ Map.keys m.partyIDMap := by
      intro i
      simp only [Map.keys, List.mem_map]
      constructor
      · rintro ⟨⟨j, p⟩, he, rfl⟩
        exact ⟨(j, p), he, (hc.ids j p (Map.get_of_mem hc.wf he)).symm⟩
      · rintro ⟨⟨j, p⟩, he, rfl⟩
        exact ⟨(j, p), he, hc.ids j p (Map.get_of_mem hc.wf he)⟩
    have hmem : ∀ i, i ∈ ids ↔ i ∈ Map.keys m.partyIDMap ∧ i ≠ m.localPartyID ∧ ¬ Heard m round i := by
      intro i
      simp only [ids, σ₂.mem, List.mem_filter, List.mem_dedup, hkeys, decide_eq_true_eq, Bool.not_eq_true',
        List.contains_eq_mem, decide_eq_false_iff_not, h2', and_assoc]
    obtain ⟨ks, g1, g2⟩ := names_exists c m.partyIDMap hc.named ids (fun i hi => ((hmem i).1 hi).1)
    refine ⟨ids, ks, ?_, ?_, g2, fun _ => hmem, ?_⟩
    · have hl : st.length ≠ 0 := by simpa using hst
      simp only [Manager.getBroadcastBlame, Manager.tssTimeoutBlame, h1, Res.bind_ok, if_neg hl]
      show (match AccPubKeysFromPartyIDs c m.partyIDMap ids with
        | .ok ks => Res.ok (plainNodes ks) | .err _ => .err _ | .panic => .panic) = _
      rw [g1]
    · exact ((σ₂.perm _).nodup_iff).2 (((List.nodup_dedup _).filter _).filter _)
    · intro hn
      obtain ⟨x, hx⟩ := List.exists_mem_of_ne_nil st hst
      exact absurd ⟨x, (h2' x).1 hx⟩ hn

/-- a history of accepted broadcast messages, each stored under its own cache key -/
def storeAll (m : Manager K P) (ws : List WireMessage) : Manager K P :=
  ws.foldl (fun m w => m.roundSet (cacheKey (w.sender.getD 0) w.roundInfo) w) m

/-- C40: what `Heard` means for a session: the member's message of this round was stored at some time (nothing is lost or
attributed to somebody else). -/
theorem c40_heard_history (m : Manager K P) (hm : m.storedMsg = []) (ws : List WireMessage) (hs : ∀ w ∈ ws, w.sender ≠ none)
    (round : String) (i : Nat) :
    Heard (storeAll m ws) round i ↔ ∃ w ∈ ws, w.roundInfo = round ∧ w.sender = some i := by
  have key : ∀ (ws : List WireMessage), (∀ w ∈ ws, w.sender ≠ none) →
      (∀ k w, Map.get (storeAll m ws).storedMsg k = some w → w ∈ ws ∧ k = cacheKey (w.sender.getD 0) w.roundInfo) ∧
      (∀ w ∈ ws, ∃ w', Map.get (storeAll m ws).storedMsg (cacheKey (w.sender.getD 0) w.roundInfo) = some w') := by
    intro ws
    induction ws using List.reverseRecOn with
    | nil => intro _; simp [storeAll, hm]
    | append_singleton ws w ih =>
      intro hs
      obtain ⟨ih1, ih2⟩ := ih (fun x hx => hs x (by simp [hx]))
      have e : (storeAll m (ws ++ [w])).storedMsg =
          Map.set (storeAll m ws).storedMsg (cacheKey (w.sender.getD 0) w.roundInfo) w := by
        simp [storeAll, Manager.roundSet]
      rw [e]
      constructor
      · intro k x hx
        rw [Map.get_set] at hx
        split at hx
        · rename_i hk; cases hx; exact ⟨by simp, hk⟩
        · obtain ⟨h1, h2⟩ := ih1 k x hx; exact ⟨by simp [h1], h2⟩
      · intro x hx
        rw [Map.get_set]
        split
        · exact ⟨w, rfl⟩
        · rename_i hne
          rcases List.mem_append.1 hx with hx | hx
          · exact ih2 x hx
          · simp at hx; subst hx; exact absurd rfl hne
  obtain ⟨k1, k2⟩ := key ws hs
  constructor
  · rintro ⟨k, w, hw, hr, hi⟩
    exact ⟨w, (k1 k w hw).1, hr, hi⟩
  · rintro ⟨w, hw, hr, hi⟩
    obtain ⟨w', hw'⟩ := k2 w hw
    obtain ⟨hin, hk⟩ := k1 _ w' hw'
    obtain ⟨e1, e2⟩ := cacheKey_inj hk
    refine ⟨_, w', hw', by rw [← e2, hr], ?_⟩
    rcases hs' : w'.sender with _ | j
    · exact absurd hs' (hs w' hin)
    · rw [hi, hs'] at e1; simp at e1; rw [e1]

/-! ## C41 unicast timeout -/

/-- a history of unicast deliveries: peer and round -/
def deliverAll (m : Manager K P) (calls : List (P × String)) : Manager K P :=
  calls.foldl (fun m e => m.setLastUnicastPeer e.1 e.2) m

theorem deliverAll_get (m : Manager K P) (hm : m.lastUnicastPeer = []) (calls : List (P × String)) (round : String) :
    Map.get (deliverAll m calls).lastUnicastPeer round =
      if (∃ e ∈ calls, e.2 = round) then some ((calls.filter (fun e => e.2 = round)).map Prod.fst) else none := by
  induction calls using List.reverseRecOn with
  | nil => simp [deliverAll, hm]
  | append_singleton calls e ih =>
    obtain ⟨p, r⟩ := e
    have e : deliverAll m (calls ++ [(p, r)]) = (deliverAll m calls).setLastUnicastPeer p r := by simp [deliverAll]
    rw [e]
    by_cases hr : r = round
    · subst hr
      have hex : ∃ e ∈ calls ++ [(p, r)], e.2 = r := ⟨(p, r), by simp, rfl⟩
      rw [if_pos hex]
      unfold Manager.setLastUnicastPeer
      rw [ih]
      split
      · rename_i h; split at h
        · cases h
        · rename_i hno
          have : calls.filter (fun e => decide (e.2 = r)) = [] := by
            rw [List.filter_eq_nil_iff]; intro x hx; simp; intro hh; exact hno ⟨x, hx, hh⟩
          simp [this]
      · rename_i l h; split at h
        · cases h; simp
        · cases h
    · have e1 : Map.get ((deliverAll m calls).setLastUnicastPeer p r).lastUnicastPeer round =
          Map.get (deliverAll m calls).lastUnicastPeer round := by
        unfold Manager.setLastUnicastPeer
        split <;> exact Map.get_set_ne _ _ (Ne.symm hr)
      rw [e1, ih]
      by_cases hex : ∃ e ∈ calls, e.2 = round
      · rw [if_pos hex, if_pos (by obtain ⟨x, hx, hh⟩ := hex; exact ⟨x, by simp [hx], hh⟩)]
        simp [hr]
      · rw [if_neg hex, if_neg (by
          rintro ⟨x, hx, hh⟩
          rcases List.mem_append.1 hx with hx | hx
          · exact hex ⟨x, hx, hh⟩
          · simp at hx; subst hx; exact hr hh)]

theorem setLastUnicastPeer_fields (m : Manager K P) (p : P) (r : String) :
    (m.setLastUnicastPeer p r).partyIDMap = m.partyIDMap ∧ (m.setLastUnicastPeer p r).partyIDtoP2PID = m.partyIDtoP2PID ∧
    (m.setLastUnicastPeer p r).localPartyID = m.localPartyID := by
  unfold Manager.setLastUnicastPeer; split <;> simp

theorem deliverAll_fields (m : Manager K P) (calls : List (P × String)) :
    (deliverAll m calls).partyIDMap = m.partyIDMap ∧ (deliverAll m calls).partyIDtoP2PID = m.partyIDtoP2PID ∧
    (deliverAll m calls).localPartyID = m.localPartyID := by
  induction calls using List.reverseRecOn with
  | nil => simp [deliverAll]
  | append_singleton calls e ih =>
    have h := setLastUnicastPeer_fields (deliverAll m calls) e.1 e.2
    have e' : deliverAll m (calls ++ [e]) = (deliverAll m calls).setLastUnicastPeer e.1 e.2 := by simp [deliverAll]
    rw [e', h.1, h.2.1, h.2.2]; exact ih

/-- C41: after any history of unicast deliveries that contains one of this round, exactly the members other than the local one
whose peer did not deliver in this round are blamed, for every visiting order. -/
theorem c41_unicast_blame (c : Codec K P) (m : Manager K P) (hc : Committee c m) (hm : m.lastUnicastPeer = [])
    (calls : List (P × String)) (round : String) (hex : ∃ e ∈ calls, e.2 = round)
    (σ₀ : Shuffle P) (σ₁ σ₂ : Shuffle (Nat × P)) :
    ∃ ids ks, (deliverAll m calls).getUnicastBlame c σ₀ σ₁ σ₂ round = .ok (plainNodes ks) ∧ ids.Nodup ∧
      Names c m.partyIDMap ids ks ∧
      ∀ i, i ∈ ids ↔ i ≠ m.localPartyID ∧ ∃ p, Map.get m.partyIDtoP2PID i = some p ∧ (p, round) ∉ calls := by
  obtain ⟨f1, f2, f3⟩ := deliverAll_fields m calls
  have hg := deliverAll_get m hm calls round
  rw [if_pos hex] at hg
  have hlen : (deliverAll m calls).lastUnicastPeer.length ≠ 0 := by
    intro h0
    rw [List.length_eq_zero_iff.1 h0] at hg
    simp at hg
  obtain ⟨inIds, ks0, h1, _, _, _⟩ := inList_spec c m hc σ₁ (σ₀.f ((calls.filter (fun e => e.2 = round)).map Prod.fst).dedup)
    (((σ₀.perm _).nodup_iff).2 (List.nodup_dedup _))
  obtain ⟨ids, ks, g1, g2, g3, g4⟩ := notInList_spec c m hc σ₂
    ((σ₀.f ((calls.filter (fun e => e.2 = round)).map Prod.fst).dedup).map some)
  refine ⟨ids, ks, ?_, g2, g3, ?_⟩
  · simp only [Manager.getUnicastBlame, if_neg hlen, hg, Manager.getBlamePubKeysLists, f1, f2, f3, h1, g1, Res.bind_ok]
  · intro i
    rw [g4]
    apply and_congr_right
    intro _
    apply exists_congr
    intro p
    apply and_congr_right
    intro _
    rw [not_iff_not]
    simp [σ₀.mem]

/-- C41: with unicast deliveries of other rounds only, the call fails; without any, nobody is blamed. -/
theorem c41_unicast_no_record (c : Codec K P) (m : Manager K P) (hm : m.lastUnicastPeer = [])
    (calls : List (P × String)) (round : String) (hex : ¬ ∃ e ∈ calls, e.2 = round)
    (σ₀ : Shuffle P) (σ₁ σ₂ : Shuffle (Nat × P)) :
    (deliverAll m calls).getUnicastBlame c σ₀ σ₁ σ₂ round =
      if calls = [] then .ok [] else .err "fail to find peers of the given msg type" := by
  have hg := deliverAll_get m hm calls round
  rw [if_neg hex] at hg
  by_cases hcalls : calls = []
  · subst hcalls; simp [deliverAll, Manager.getUnicastBlame, hm]
  · rw [if_neg hcalls]
    have hlen : (deliverAll m calls).lastUnicastPeer.length ≠ 0 := by
      obtain ⟨x, hx⟩ := List.exists_mem_of_ne_nil calls hcalls
      have := deliverAll_get m hm calls x.2
      rw [if_pos ⟨x, hx, rfl⟩] at this
      intro h0
      rw [List.length_eq_zero_iff.1 h0] at this
      simp at this
    simp only [Manager.getUnicastBlame, if_neg hlen, hg]

/-! ## C45 -/

theorem not_named {c : Codec K P} {committee : Map Nat Party} (hd : DistinctKeys c committee) {ids : List Nat} {ks : List K}
    (hn : Names c committee ids ks) {l : Nat} (hl : l ∉ ids) {k : K} (hk : Named c committee l k) :
    ∀ n ∈ plainNodes ks, n.pubkey ≠ k := by
  intro n hnm e
  simp only [plainNodes, List.mem_map] at hnm
  obtain ⟨k', hk', rfl⟩ := hnm
  simp at e; subst e
  obtain ⟨i, hi, hni⟩ := (names_mem hn).2 k' hk'
  exact hl (hd l i k' hk hni ▸ hi)

/-- C45: a broadcast timeout never blames the local node. -/
theorem c45_broadcast (c : Codec K P) (m : Manager K P) (hc : Committee c m) (hd : DistinctKeys c m.partyIDMap)
    (σ₁ : Shuffle (String × WireMessage)) (σ₂ : Shuffle Nat) (round : String) (hwf : Map.WF m.storedMsg)
    (hs : ∀ key w, Map.get m.storedMsg key = some w → w.sender ≠ none) (k : K) (hk : Named c m.partyIDMap m.localPartyID k)
    (ns : List (Node K)) (h : m.getBroadcastBlame c σ₁ σ₂ round = .ok ns) : ∀ n ∈ ns, n.pubkey ≠ k := by
  obtain ⟨ids, ks, h1, _, h3, h4, h5⟩ := c40_broadcast_blame c m hc σ₁ σ₂ round hwf hs
  rw [h] at h1; cases h1
  refine not_named hd h3 ?_ hk
  by_cases he : ∃ j, Heard m round j
  · intro hi; exact ((h4 he _).1 hi).2.1 rfl
  · rw [h5 he]; simp

/-- C45: a unicast timeout never blames the local node. -/
theorem c45_unicast (c : Codec K P) (m : Manager K P) (hc : Committee c m) (hd : DistinctKeys c m.partyIDMap)
    (hm : m.lastUnicastPeer = []) (calls : List (P × String)) (round : String)
    (σ₀ : Shuffle P) (σ₁ σ₂ : Shuffle (Nat × P)) (k : K) (hk : Named c m.partyIDMap m.localPartyID k)
    (ns : List (Node K)) (h : (deliverAll m calls).getUnicastBlame c σ₀ σ₁ σ₂ round = .ok ns) : ∀ n ∈ ns, n.pubkey ≠ k := by
  by_cases hex : ∃ e ∈ calls, e.2 = round
  · obtain ⟨ids, ks, h1, _, h3, h4⟩ := c41_unicast_blame c m hc hm calls round hex σ₀ σ₁ σ₂
    rw [h] at h1; cases h1
    exact not_named hd h3 (fun hi => ((h4 _).1 hi).1 rfl) hk
  · rw [c41_unicast_no_record c m hm calls round hex] at h
    split at h
    · cases h; simp
    · cases h

/-- C45: the node-sync blame does not contain a node whose peer is online (in particular not the local node, which is in
every online list it reports). -/
theorem c45_node_sync (c : Codec K P) (keys : List K) (online : List P) (k : K) (p : P) (hk : GetPeerIDFromPubKey c k = .ok p)
    (hp : p ∈ online) (h : ∀ k ∈ keys, ∃ p, GetPeerIDFromPubKey c k = .ok p) :
    ∀ n ∈ (NodeSyncBlame c keys online).1.nodes, n.pubkey ≠ k := by
  rw [c38_absent_blamed c keys online h]
  intro n hn e
  simp only [List.mem_map, List.mem_filter, decide_eq_true_eq] at hn
  obtain ⟨k', ⟨_, hno⟩, rfl⟩ := hn
  subst e
  exact hno p hp hk

/-! ## Examples and limits -/

/-- C38, C45: of the four demo members with peers 10 and 12 online, 1 and 3 are blamed. -/
example : NodeSyncBlame demoCodec [20, 21, 22, 23] [10, 12] =
    (⟨"signers fail to sync before keygen/keysign", false, [⟨21, [], []⟩, ⟨23, [], []⟩]⟩, .ok ()) := by decide

/-- C38: a key without a peer id makes the call fail. -/
example : (NodeSyncBlame demoCodec [20, 5] [10]).2 = .err "fail to get peer id from pub key" := by decide

/-- C39: the lists of the demo committee (the local node is number 0). -/
example : (demoManager (K := Nat) 0).getBlamePubKeysLists demoCodec (Shuffle.id _) (Shuffle.rev _) [11, 10] =
    .ok ([20, 21], [23, 22]) := by decide

/-- C39: a peer listed twice is named twice in the in-list, so the hypothesis on repetitions is needed. -/
theorem c39_repeated_peer : (demoManager (K := Nat) 0).getBlamePubKeysLists demoCodec (Shuffle.id _) (Shuffle.id _) [11, 11] =
    .ok ([21, 21], [22, 23]) := by decide

/-- C40: one message of the round arrived, from member 1; members 2 and 3 are blamed. -/
example : (storeAll (demoManager (K := Nat) 0) [⟨some ⟨some (some 1), [], true⟩, "R", [], []⟩]).getBroadcastBlame demoCodec
    (Shuffle.id _) (Shuffle.rev _) "R" = .ok [⟨23, [], []⟩, ⟨22, [], []⟩] := by decide

/-- C40 fails as stated when nobody was heard of in the round: everybody is silent, nobody is blamed. -/
theorem c40_all_silent_nobody_blamed (c : Codec K P) (m : Manager K P) (hm : m.storedMsg = []) (round : String)
    (σ₁ : Shuffle (String × WireMessage)) (σ₂ : Shuffle Nat) : m.getBroadcastBlame c σ₁ σ₂ round = .ok [] := by
  have : σ₁.f [] = [] := List.perm_nil.1 (σ₁.perm [])
  simp [Manager.getBroadcastBlame, Manager.tssTimeoutBlame, hm, this, getByRound, plainNodes]

/-- C41: member 1 delivered in round "U", member 2 only in another round. -/
example : (deliverAll (demoManager (K := Nat) 0) [(11, "U"), (12, "V")]).getUnicastBlame demoCodec
    (Shuffle.id _) (Shuffle.id _) (Shuffle.id _) "U" = .ok [⟨22, [], []⟩, ⟨23, [], []⟩] := by decide

/-- the demo committee meets the hypotheses of the theorems above -/
example : Committee demoCodec (demoManager 0) ∧ DistinctKeys demoCodec (demoManager (K := Nat) 0).partyIDMap :=
  ⟨demoCommittee 0 (by decide), demoDistinct 0⟩

end Verif.Props.Timeouts
