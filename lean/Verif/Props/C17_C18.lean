import Verif.Lemmas.PeerStatus
import Verif.Spec.Arrivals

/-! # C17, C18: join-party bookkeeping -/
namespace Verif.Props.PeerBook
open Verif.Go Verif.Peers Verif.Spec

variable {P : Type} [DecidableEq P]

/-- the group after a history of messages from the given peers -/
abbrev book (peers : List P) (me : P) (leader : String) (t : Int) (h : List P) : PeerStatus P :=
  psAfter (NewPeerStatus peers me leader t) h

theorem keys_book (peers : List P) (me : P) (leader : String) (t : Int) (h : List P) (p : P) :
    p ∈ Map.keys (book peers me leader t h).peersResponse ↔ other peers me p := by
  rw [psAfter_keys, ← Map.get_isSome_iff]
  simp only [NewPeerStatus, get_fillPeers]
  by_cases h : p ∈ peers ∧ p ≠ me
  · rw [if_pos h]; simp only [Option.isSome_some, true_iff]; exact h
  · rw [if_neg h]
    constructor
    · intro h'; cases h'
    · intro h'; exact absurd h' h

theorem wf_book (peers : List P) (me : P) (leader : String) (t : Int) (h : List P) :
    Map.WF (book peers me leader t h).peersResponse := psAfter_wf (WF_fillPeers _ _) h

/-- full description of the book in leader mode -/
theorem book_leader (peers : List P) (me : P) (leader : String) (t : Int) (hl : leader ≠ "NONE") (h : List P) :
    (∀ p, Map.get (book peers me leader t h).peersResponse p =
      if other peers me p then some (decide (p ∈ (arrivals peers me h).take t.toNat)) else none) ∧
    (book peers me leader t h).reqCount = min (arrivals peers me h).length t.toNat := by
  induction h using List.reverseRecOn with
  | nil =>
    refine ⟨?_, by simp [NewPeerStatus]⟩
    intro p
    simp only [psAfter_nil, NewPeerStatus, get_fillPeers, arrivals_nil, List.take_nil, List.not_mem_nil, decide_false]
  | append_singleton l q ih =>
    obtain ⟨ihg, ihc⟩ := ih
    have hL : (book peers me leader t l).leader = leader := psAfter_leader _ _
    have hT : (book peers me leader t l).threshold = t := psAfter_threshold _ _
    unfold book at *
    rw [psAfter_snoc]
    have hget := ihg q
    rw [arrivals_snoc]
    by_cases hq : other peers me q
    · rw [if_pos hq] at hget
      simp only [updatePeer, hget, hL, hl, if_false, hT, ihc]
      by_cases ht : t ≤ ((min (arrivals peers me l).length t.toNat : Nat) : Int)
      · -- enough already
        simp only [ht, if_true]
        have hlen : t.toNat ≤ (arrivals peers me l).length := by omega
        split
        · refine ⟨?_, by rw [ihc, List.length_append]; simp; omega⟩
          intro p
          rw [ihg p, List.take_append_of_le_length hlen]
        · exact ⟨ihg, ihc⟩
      · simp only [ht, if_false]
        have hlt : (arrivals peers me l).length < t.toNat := by omega
        have htake : (arrivals peers me l).take t.toNat = arrivals peers me l := List.take_of_length_le (by omega)
        rw [htake] at hget ihg ⊢
        by_cases hin : q ∈ arrivals peers me l
        · simp only [hin, decide_true]
          have : ¬ (other peers me q ∧ ¬ True) := by simp
          simp only [this, if_false]
          refine ⟨?_, ihc⟩
          intro p
          rw [htake]; exact ihg p
        · simp only [hin, decide_false, if_true, not_false_eq_true, and_true]
          have hlen : (arrivals peers me l ++ [q]).length ≤ t.toNat := by simp; omega
          have key : ∀ p, Map.get (Map.set (psAfter (NewPeerStatus peers me leader t) l).peersResponse q true) p =
              if other peers me p then some (decide (p ∈ (arrivals peers me l ++ [q]).take t.toNat)) else none := by
            intro p
            rw [List.take_of_length_le hlen, Map.get_set, ihg p]
            by_cases hp : p = q
            · subst hp; simp [hq]
            · simp [hp]
          split
          · exact ⟨key, by simp; omega⟩
          · exact ⟨key, by simp; omega⟩
    · rw [if_neg hq] at hget
      simp only [updatePeer, hget, hq, false_and, if_false]
      exact ⟨ihg, ihc⟩

/-- full description of the book in leaderless mode -/
theorem book_none (peers : List P) (me : P) (t : Int) (h : List P) (p : P) :
    Map.get (book peers me "NONE" t h).peersResponse p = if other peers me p then some (decide (p ∈ h)) else none := by
  induction h using List.reverseRecOn with
  | nil => simp only [psAfter_nil, NewPeerStatus, get_fillPeers, List.not_mem_nil, decide_false]
  | append_singleton l q ih =>
    have hL : (book peers me "NONE" t l).leader = "NONE" := psAfter_leader _ _
    unfold book at *
    rw [psAfter_snoc]
    unfold updatePeer
    rcases hget : Map.get (psAfter (NewPeerStatus peers me "NONE" t) l).peersResponse q with _ | v
    · have hne : ¬ (p = q ∧ other peers me p) := by
        rintro ⟨rfl, ho⟩
        rw [hget, if_pos ho] at ih; cases ih
      simp only [ih]
      by_cases hp : p = q
      · have : ¬ other peers me p := fun ho => hne ⟨hp, ho⟩
        simp only [this, if_false]
      · simp [hp]
    · simp only [hL, if_true]
      cases v
      · simp only [if_true, Map.get_set]
        by_cases hp : p = q
        · subst hp
          rw [hget] at ih
          by_cases ho : other peers me p
          · simp [ho]
          · rw [if_neg ho] at ih; cases ih
        · simp [hp, ih]
      · simp only [Bool.true_eq_false, if_false, ih]
        by_cases hp : p = q
        · subst hp
          rw [hget] at ih
          by_cases ho : other peers me p
          · rw [if_pos ho] at ih
            simp only [Option.some.injEq] at ih
            have : p ∈ l := by simpa using ih.symm
            simp [this]
          · rw [if_neg ho] at ih; cases ih
        · simp [hp]

theorem mem_online {ps : PeerStatus P} (hw : Map.WF ps.peersResponse) {order : List (P × Bool)}
    (ho : order.Perm ps.peersResponse) (p : P) :
    p ∈ (getPeersStatus order).1 ↔ Map.get ps.peersResponse p = some true := by
  rw [getPeersStatus_eq, ← Map.mem_iff_get hw, ← ho.mem_iff]
  simp

theorem mem_offline {ps : PeerStatus P} (hw : Map.WF ps.peersResponse) {order : List (P × Bool)}
    (ho : order.Perm ps.peersResponse) (p : P) :
    p ∈ (getPeersStatus order).2 ↔ Map.get ps.peersResponse p = some false := by
  rw [getPeersStatus_eq, ← Map.mem_iff_get hw, ← ho.mem_iff]
  simp

/-- C17: whatever the history of messages and the visiting order of the map, getPeersStatus splits the members other than
the local node into online and offline, without repetition. -/
theorem c17_partition (peers : List P) (me : P) (leader : String) (t : Int) (h : List P) (order : List (P × Bool))
    (ho : order.Perm (book peers me leader t h).peersResponse) :
    let online := (getPeersStatus order).1
    let offline := (getPeersStatus order).2
    (∀ p, (p ∈ online ∨ p ∈ offline) ↔ (p ∈ peers ∧ p ≠ me)) ∧ (online ++ offline).Nodup := by
  have hw := wf_book peers me leader t h
  refine ⟨?_, ?_⟩
  · intro p
    have hk := keys_book peers me leader t h p
    unfold other at hk
    rw [mem_online hw ho, mem_offline hw ho, ← hk, ← Map.get_isSome_iff]
    rcases Map.get (psAfter (NewPeerStatus peers me leader t) h).peersResponse p with _ | _ | _ <;> simp
  · rw [getPeersStatus_eq]
    simp only
    rw [← List.map_append]
    have hp : (order.filter (fun x => x.2) ++ order.filter (fun x => !x.2)).Perm order := List.filter_append_perm _ _
    have := ((hp.map Prod.fst).trans (ho.map Prod.fst)).nodup_iff.2 hw
    exact this

/-- C17: with a leader, the members reported online are exactly the first `threshold` distinct members heard from; strangers
and repetitions never count. -/
theorem c17_online_leader (peers : List P) (me : P) (leader : String) (t : Int) (hl : leader ≠ "NONE") (h : List P)
    (order : List (P × Bool)) (ho : order.Perm (book peers me leader t h).peersResponse) :
    ((getPeersStatus order).1).Perm ((arrivals peers me h).take t.toNat) := by
  have hw := wf_book peers me leader t h
  have hn := (c17_partition peers me leader t h order ho).2
  rw [List.perm_ext_iff_of_nodup (List.Nodup.of_append_left hn) ((nodup_arrivals _ _ _).sublist (List.take_sublist _ _))]
  intro p
  rw [mem_online hw ho, (book_leader peers me leader t hl h).1 p]
  constructor
  · intro hh
    split at hh
    · simpa using hh
    · cases hh
  · intro hm
    have : p ∈ arrivals peers me h := List.mem_of_mem_take hm
    rw [mem_arrivals] at this
    rw [if_pos this.2]; simp [hm]

/-- C17: the counter of accepted responses never exceeds the threshold and is the number of members online. -/
theorem c17_count_bounded (peers : List P) (me : P) (leader : String) (t : Int) (hl : leader ≠ "NONE") (h : List P)
    (order : List (P × Bool)) (ho : order.Perm (book peers me leader t h).peersResponse) :
    (book peers me leader t h).reqCount = (getPeersStatus order).1.length ∧
    ((book peers me leader t h).reqCount : Int) ≤ max t 0 := by
  rw [(book_leader peers me leader t hl h).2, (c17_online_leader peers me leader t hl h order ho).length_eq, List.length_take]
  omega

/-- C17: without a leader, the members reported online are exactly those heard from. -/
theorem c17_online_leaderless (peers : List P) (me : P) (t : Int) (h : List P)
    (order : List (P × Bool)) (ho : order.Perm (book peers me "NONE" t h).peersResponse) (p : P) :
    p ∈ (getPeersStatus order).1 ↔ p ∈ peers ∧ p ≠ me ∧ p ∈ h := by
  rw [mem_online (wf_book _ _ _ _ _) ho, book_none]
  by_cases hp : other peers me p
  · rw [if_pos hp]
    have h1 : p ∈ peers := hp.1
    have h2 : p ≠ me := hp.2
    simp [h1, h2]
  · rw [if_neg hp]
    constructor
    · intro h; cases h
    · rintro ⟨h1, h2, _⟩; exact absurd ⟨h1, h2⟩ hp

/-- C17: the coordination status is true exactly when every other member is online. -/
theorem c17_coordination_status (peers : List P) (me : P) (leader : String) (t : Int) (h : List P) (order : List (P × Bool))
    (ho : order.Perm (book peers me leader t h).peersResponse) :
    getCoordinationStatus order = true ↔ ∀ p ∈ peers, p ≠ me → p ∈ (getPeersStatus order).1 := by
  have hp := c17_partition peers me leader t h order ho
  simp only at hp
  unfold getCoordinationStatus
  simp only [beq_iff_eq, List.length_eq_zero_iff]
  constructor
  · intro he p h1 h2
    rcases (hp.1 p).2 ⟨h1, h2⟩ with h | h
    · exact h
    · rw [he] at h; simp at h
  · intro hall
    rw [List.eq_nil_iff_forall_not_mem]
    intro p hoff
    have hm := (hp.1 p).1 (Or.inr hoff)
    have hon := hall p hm.1 hm.2
    exact (List.nodup_append.1 hp.2).2.2 p hon p hoff rfl

/-- Witness for C17: committee 1..4 of node 1, threshold 2; node 9 is a stranger, 3 repeats, 2 comes too late. -/
example : (getPeersStatus (book [1, 2, 3, 4] 1 "leader" 2 [9, 3, 3, 4, 2]).peersResponse) = ([3, 4], [2]) := by decide

/-! ## C18 -/

/-- C18: `updatePeer` reports "formed" for the next message exactly when that message comes from a member not heard from
before and makes the number of members heard from equal to the threshold. -/
theorem c18_formed_exactly_at_threshold (peers : List P) (me : P) (leader : String) (t : Int) (hl : leader ≠ "NONE")
    (h : List P) (p : P) :
    (updatePeer (book peers me leader t h) p).2 = .ok true ↔
      p ∈ peers ∧ p ≠ me ∧ p ∉ h ∧ ((arrivals peers me (h ++ [p])).length : Int) = t := by
  obtain ⟨hg, hc⟩ := book_leader peers me leader t hl h
  have hL : (book peers me leader t h).leader = leader := psAfter_leader _ _
  have hT : (book peers me leader t h).threshold = t := psAfter_threshold _ _
  have hget := hg p
  unfold updatePeer
  rw [arrivals_snoc]
  by_cases ho : other peers me p
  · have hin : p ∈ arrivals peers me h ↔ p ∈ h := by rw [mem_arrivals]; exact ⟨fun x => x.1, fun x => ⟨x, ho⟩⟩
    rw [if_pos ho] at hget
    have h1 : p ∈ peers := ho.1
    have h2 : p ≠ me := ho.2
    have hcond : (other peers me p ∧ p ∉ arrivals peers me h) ↔ p ∉ h := by rw [hin]; exact ⟨fun x => x.2, fun x => ⟨ho, x⟩⟩
    have hR : (p ∈ peers ∧ p ≠ me ∧ p ∉ h ∧
        ((if other peers me p ∧ p ∉ arrivals peers me h then arrivals peers me h ++ [p] else arrivals peers me h).length
          : Int) = t) ↔ (p ∉ h ∧ ((arrivals peers me h).length : Int) + 1 = t) := by
      constructor
      · rintro ⟨_, _, h3, h4⟩
        rw [if_pos (hcond.2 h3)] at h4
        refine ⟨h3, by simpa using h4⟩
      · rintro ⟨h3, h4⟩
        refine ⟨h1, h2, h3, ?_⟩
        rw [if_pos (hcond.2 h3)]
        simpa using h4
    rw [hR]
    simp only [hget, hL, hl, if_false, hT, hc]
    by_cases ht : t ≤ ((min (arrivals peers me h).length t.toNat : Nat) : Int)
    · simp only [ht, if_true]
      constructor
      · intro h; simp at h
      · rintro ⟨h3, h4⟩
        omega
    · simp only [ht, if_false]
      have hlt : (arrivals peers me h).length < t.toNat := by omega
      rw [List.take_of_length_le (by omega)]
      by_cases hp : p ∈ h
      · simp [hp, hin]
      · simp only [hin, hp, decide_false, if_true, not_false_eq_true, true_and]
        split
        · next h2 => simp; omega
        · next h2 => simp; omega
  · rw [if_neg ho] at hget
    simp only [hget]
    constructor
    · intro h; cases h
    · rintro ⟨h1, h2, _⟩; exact absurd ⟨h1, h2⟩ ho

/-- the updates of a history which reported "formed" -/
def formedCount (peers : List P) (me : P) (leader : String) (t : Int) (h : List P) : Nat :=
  (List.range h.length).countP (fun i =>
      match h[i]? with
      | some p => (updatePeer (book peers me leader t (h.take i)) p).2 == .ok true
      | none => false)

theorem formedCount_snoc (peers : List P) (me : P) (leader : String) (t : Int) (h : List P) (p : P) :
    formedCount peers me leader t (h ++ [p]) =
      formedCount peers me leader t h + if (updatePeer (book peers me leader t h) p).2 = .ok true then 1 else 0 := by
  unfold formedCount
  rw [List.length_append, List.length_singleton, List.range_succ, List.countP_append]
  congr 1
  · apply List.countP_congr
    intro i hi
    simp at hi
    rw [List.getElem?_append_left hi, List.take_append_of_le_length (by omega)]
  · simp [List.countP_cons]

/-- C18: over a whole history "formed" is reported once if the threshold (at least one) was reached, and never otherwise. -/
theorem c18_formed_once (peers : List P) (me : P) (leader : String) (t : Int) (hl : leader ≠ "NONE") (h : List P) :
    formedCount peers me leader t h = if 1 ≤ t ∧ t ≤ ((arrivals peers me h).length : Int) then 1 else 0 := by
  induction h using List.reverseRecOn with
  | nil => rw [if_neg (by simp only [arrivals_nil, List.length_nil]; omega)]; simp [formedCount]
  | append_singleton l p ih =>
    rw [formedCount_snoc, ih, arrivals_snoc]
    have key := c18_formed_exactly_at_threshold peers me leader t hl l p
    rw [arrivals_snoc] at key
    by_cases ho : other peers me p ∧ p ∉ arrivals peers me l
    · have hpl : p ∉ l := fun hh => ho.2 ((mem_arrivals _ _ _ _).2 ⟨hh, ho.1⟩)
      rw [if_pos ho] at key ⊢
      rw [List.length_append, List.length_singleton] at key ⊢
      by_cases hf : (updatePeer (book peers me leader t l) p).2 = .ok true
      · have := (key.1 hf).2.2.2
        simp only [hf, if_true]
        have c1 : ¬ (1 ≤ t ∧ t ≤ ((arrivals peers me l).length : Int)) := by omega
        have c2 : 1 ≤ t ∧ t ≤ (((arrivals peers me l).length + 1 : Nat) : Int) := by omega
        rw [if_neg c1, if_pos c2]
      · have : ¬ (((arrivals peers me l).length + 1 : Nat) : Int) = t := by
          intro he; exact hf (key.2 ⟨ho.1.1, ho.1.2, hpl, he⟩)
        simp only [hf, if_false]
        by_cases h1 : 1 ≤ t ∧ t ≤ ((arrivals peers me l).length : Int)
        · have c2 : 1 ≤ t ∧ t ≤ (((arrivals peers me l).length + 1 : Nat) : Int) := by omega
          rw [if_pos h1, if_pos c2]
        · have c2 : ¬ (1 ≤ t ∧ t ≤ (((arrivals peers me l).length + 1 : Nat) : Int)) := by omega
          rw [if_neg h1, if_neg c2]
    · have hf : ¬ (updatePeer (book peers me leader t l) p).2 = .ok true := by
        intro hf
        obtain ⟨h1, h2, h3, _⟩ := key.1 hf
        exact ho ⟨⟨h1, h2⟩, fun hh => h3 ((mem_arrivals _ _ _ _).1 hh).1⟩
      simp [hf, ho]

/-- C18 for the leaderless protocol: a new peer is reported exactly on the first message of each other member. -/
theorem c18_leaderless_new_peer (peers : List P) (me : P) (t : Int) (h : List P) (p : P) :
    (updatePeer (book peers me "NONE" t h) p).2 = .ok true ↔ p ∈ peers ∧ p ≠ me ∧ p ∉ h := by
  have hL : (book peers me "NONE" t h).leader = "NONE" := psAfter_leader _ _
  unfold updatePeer
  rw [book_none]
  by_cases ho : other peers me p
  · have h1 : p ∈ peers := ho.1
    have h2 : p ≠ me := ho.2
    rw [if_pos ho]
    by_cases hp : p ∈ h <;> simp [hL, hp, h1, h2]
  · rw [if_neg ho]
    constructor
    · intro h; cases h
    · rintro ⟨h1, h2, _⟩; exact absurd ⟨h1, h2⟩ ho

/-- Witness for C18: reported once, by the second distinct member. -/
example : (updatePeer (book [1, 2, 3, 4] 1 "leader" 2 [9, 3, 3]) 4).2 = .ok true ∧
    formedCount [1, 2, 3, 4] 1 "leader" 2 [9, 3, 3, 4, 2, 4] = 1 := by decide

end Verif.Props.PeerBook
