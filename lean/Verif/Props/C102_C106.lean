import Verif.Lemmas.SessOrigin
import Verif.Props.C31_C36
import Verif.Props.C25_C30
import Verif.Spec.DemoSessNet

/-!
# C102 to C106: the nodes of a session connected by a network
-/
set_option linter.unusedSectionVars false
namespace Verif.Props.SessionNet
open Verif.Go Verif.Conversion Verif.Messages Verif.Blame Verif.TssCommon Verif.Spec Verif.Threshold Verif.SessNet
open scoped List

variable {K P : Type} [DecidableEq K] [DecidableEq P]

variable {enc : Encoders P} {base : TssCommon.Env K P} {ids : Map Nat Party} {peers : Map Nat P} {site : P → Site K P} {honest : P → Bool}

theorem bulks_of (h : List (NetEvent P))
    (hgood : ∀ i q, Map.get peers i = some q → GoodBulks base i ((netRun enc site honest h).nodes q).out.sent)
    (hacc : Accepting peers site (netRun enc site honest h)) :
    Bulks base peers site (fun q => ((netRun enc site honest h).nodes q).out.sent) :=
  ⟨hgood, fun q _ => netRun_made site honest h q, hacc⟩

/-- a message between members that keep going has been processed by its receiver; if it is a broadcast, it has been handed over and stored -/
theorem dealt_live (hs : Setting enc base ids peers site) {S : P → List (OutBatch.Bulk P)} (hb : Bulks base peers site S) {h : List (NetEvent P)}
    {n : Net K P} (hi : NetInv enc peers site S h n) (hSq : ∀ q, (n.nodes q).out.sent = S q) {live : List P}
    (hg : Going peers ids.length n live) {q p : P} (hq : q ∈ live) (hp : p ∈ live) (hne : p ≠ q) {b : OutBatch.Bulk P}
    (hbm : b ∈ (n.nodes p).out.sent) (hqb : q ∈ b.peers) :
    (∃ e ∈ (n.nodes q).hist, ∃ mt, Delivers (site q).env e mt (wireOf enc (site p) b)) ∧
    Handed (site q).env (n.nodes q).ses (wireOf enc (site p) b) ∧
    ((wireOf enc (site p) b).isBroadcast = true → ∀ i, Map.get peers i = some p →
      ∃ w', Map.get (n.nodes q).ses.mgr.storedMsg (cacheKey i b.roundInfo) = some w') := by
  have arr : ∀ x, Acc n x → x.1 ∈ live → x.2.1 ∈ live → ∃ sch, Event.msg x.2.2 x.1 sch ∈ (n.nodes x.2.1).hist := by
    rintro x (hx | hx) h1 h2
    · exact absurd ⟨h1, h2⟩ (hg.arrived x hx)
    · exact hx
  have hqm := hg.member q hq
  have hpm := hg.member p hp
  obtain ⟨t, ht, hlt⟩ := hg.enough
  have ht' : GetThreshold (site q).mgr.partyIDMap.length = .ok t := by rw [hs.idMap q hqm]; exact ht
  have hf := hi.fine hs hb hqm ht'
  have hsent : ∀ q' ∈ live, q' ≠ p → q' ∈ b.peers → ∃ e ∈ (n.nodes q').hist, ∃ mt, Delivers (site q').env e mt (wireOf enc (site p) b) := by
    intro q' hq' hne' hqb'
    have hqm' := hg.member q' hq'
    obtain ⟨sch, hm⟩ := arr _ (hi.bulk p hpm b hbm _ (toPeers_mem hqb' (by rw [hs.loc hpm]; exact hne'))) (by
      dsimp only; rw [hs.loc hpm]; exact hp) hq'
    dsimp only at hm
    refine ⟨_, hm, b.msgType, _, _, sch, _, rfl, (hs.dec hqm').wrap _ _, ?_, (hs.dec hqm').wire _⟩
    obtain ⟨k, l, hb'⟩ := hb.made p hpm b (by rw [← hSq]; exact hbm)
    rw [hb']; exact hs.type p hpm
  have hbS : b ∈ S p := by rw [← hSq]; exact hbm
  have hw : Meant enc peers site S q (wireOf enc (site p) b) := ⟨p, hpm, hne, b, hbS, hqb, rfl⟩
  have hdq := hsent q hq hne.symm hqb
  refine ⟨hdq, ?_⟩
  by_cases hbc : (wireOf enc (site p) b).isBroadcast = true
  · obtain ⟨i0, hi0⟩ := hpm
    have hsd := wireOf_sender (enc := enc) hb hi0 hbS
    have hd : Dealt (site q).env (n.nodes q).ses (cacheKey i0 (wireOf enc (site p) b).roundInfo) (wireOf enc (site p) b) := by
      refine dealt_of_enough hf hw hbc hsd hdq (live.erase p) (hg.nodup.erase p) ?_ ?_
      · rw [List.length_erase_of_mem hp]
        have := List.length_pos_of_mem hp
        omega
      · intro q' hq'
        obtain ⟨h1, hl'⟩ := (hg.nodup.mem_erase_iff).1 hq'
        by_cases h2 : q' = q
        · left; rw [h2, hs.loc hqm]
        right
        have hqm' := hg.member q' hl'
        obtain ⟨e, he, mt, hdl⟩ := hsent q' hl' h1 (broadcast_peers hs hb ⟨i0, hi0⟩ hqm' h1 hbS hbc)
        obtain ⟨t', ht'⟩ := Setting_threshold hs hqm'
        obtain ⟨y, hy, hpl, hqy⟩ := confirmed_sent hs hb hqm' (hi.hist q' hqm') ht' he hdl hbc hsd hi0 hqm (Ne.symm h2) hne.symm
        rw [← hi.ses q' hqm'] at hy
        have hx := toPeers_mem (me := (site q').env.localPeer) (b := enc.wrap (getBroadcastMessageType mt)
          (enc.confirm ⟨none, cacheKey i0 (wireOf enc (site p) b).roundInfo, (site q').env.hash (wireOf enc (site p) b).message⟩)) hqy
          (by rw [hs.loc hqm']; exact Ne.symm h2)
        obtain ⟨sch, hm⟩ := arr _ (hi.sent q' hqm' y hy _ (by unfold renderSent; rw [hpl]; exact hx)) (by
          dsimp only; rw [hs.loc hqm']; exact hl') hq
        dsimp only at hm
        refine ⟨_, hm, (site q').env.hash (wireOf enc (site p) b).message, _, sch, getBroadcastMessageType mt, _, ?_, (hs.dec hqm).wrap _ _, ?_,
          ⟨none, cacheKey i0 (wireOf enc (site p) b).roundInfo, (site q').env.hash (wireOf enc (site p) b).message⟩, (hs.dec hqm).confirm _, rfl, rfl⟩
        · rw [hs.loc hqm']
        · obtain ⟨_, _, _, _, _, _, hmt, _⟩ := hdl
          rcases hmt with rfl | rfl
          · exact Or.inl (by decide)
          · exact Or.inr (by decide)
    refine ⟨hd.handed, fun _ i hi => ?_⟩
    cases hs.inj hi hi0
    exact hd.stored
  · obtain ⟨e, he, mt, hdl⟩ := hdq
    exact ⟨hf.uni _ mt hw (by simpa using hbc) ⟨e, he, hdl⟩, fun h => absurd h hbc⟩

/-- all members, if no message is on its way -/
theorem all_going (hs : Setting enc base ids peers site) {n : Net K P} (hp : n.pool = []) {q : P} (hq : Member peers q) :
    ∃ live, Going peers ids.length n live ∧ ∀ p, Member peers p → p ∈ live := by
  have hcom := hs.committee q hq
  have hget : ∀ p, p ∈ (site q).mgr.partyIDtoP2PID.map Prod.snd ↔ Member peers p := by
    intro p
    constructor
    · intro h
      obtain ⟨⟨i, p'⟩, hi, rfl⟩ := List.mem_map.1 h
      exact ⟨i, by rw [← hs.peerMap q hq]; exact Map.get_of_mem hcom.wfp hi⟩
    · rintro ⟨i, hi⟩
      rw [← hs.peerMap q hq] at hi
      exact List.mem_map.2 ⟨(i, p), Map.mem_of_get hi, rfl⟩
  refine ⟨(site q).mgr.partyIDtoP2PID.map Prod.snd, ⟨fun p hp => (hget p).1 hp, ?_, by rw [hp]; simp, ?_⟩, fun p hp => (hget p).2 hp⟩
  · refine (List.nodup_map_iff_inj_on (List.Nodup.of_map _ hcom.wfp)).2 ?_
    rintro ⟨i, p⟩ hi ⟨j, q⟩ hj hpq
    dsimp only at hpq
    subst hpq
    rw [hcom.inj i j p (Map.get_of_mem hcom.wfp hi) (Map.get_of_mem hcom.wfp hj)]
  · have hcard : (site q).mgr.partyIDtoP2PID.length = ids.length := by
      have h1 : (Map.keys (site q).mgr.partyIDtoP2PID).Perm (Map.keys (site q).mgr.partyIDMap) :=
        (List.perm_ext_iff_of_nodup hcom.wfp hcom.wf).2 hcom.same
      rw [← hs.idMap q hq]
      simpa [Map.keys] using h1.length_eq
    have hpos : 1 ≤ ids.length := by
      rw [← hcard]
      have := List.length_pos_of_mem ((hget q).2 hq)
      rw [List.length_map] at this
      exact this
    obtain ⟨t, ht, hle⟩ := Verif.Props.C01.signing_party_fits ids.length hpos (le_trans hs.size (by norm_num))
    exact ⟨t, ht, by rw [List.length_map, hcard]; omega⟩

/-- C103 in terms of the messages sent -/
theorem progress (hs : Setting enc base ids peers site) (hh : ∀ p, honest p = true ↔ Member peers p) (h : List (NetEvent P))
    (hso : ∀ e ∈ h, Sound peers e)
    (hgood : ∀ i q, Map.get peers i = some q → GoodBulks base i ((netRun enc site honest h).nodes q).out.sent)
    (hacc : Accepting peers site (netRun enc site honest h)) :
    (∀ q, Member peers q → ((netRun enc site honest h).nodes q).alive = true ∧
      ((netRun enc site honest h).nodes q).ses.mgr.blame = (site q).mgr.blame ∧ ((netRun enc site honest h).nodes q).ses.culprits = [] ∧
      ∀ en ∈ ((netRun enc site honest h).nodes q).ses.log, en.ok = true) ∧
    ((netRun enc site honest h).pool = [] → ∀ q, Member peers q → Arrived peers (netRun enc site honest h) q) := by
  have hb := bulks_of h hgood hacc
  have hi := netInv_run hs hb honest hh h hso (fun q _ b hb => hb)
  refine ⟨?_, ?_⟩
  · intro q hq
    obtain ⟨t, ht⟩ := Setting_threshold hs hq
    have hf := (hi.fine hs hb hq ht).core
    exact ⟨hi.alive hs hb hq, hf.blame, hf.flow.culprits, fun en he => (hf.flow.logged en he).1⟩
  · intro hp q hq p hpm hne b hbm hqb x hx r i hr hri
    obtain ⟨live, hg, hall⟩ := all_going hs hp hq
    exact (dealt_live hs hb hi (fun _ => rfl) hg (hall q hq) (hall p hpm) hne hbm hqb).2.1 b.shares ((hs.dec hq).bulk _) x hx r i hr hri

/-- what proper outputs mean for the messages sent -/
theorem derived (hs : Setting enc base ids peers site) (hh : ∀ p, honest p = true ↔ Member peers p) (h : List (NetEvent P)) (hcl : Closed h)
    (hp : ∀ i q, Map.get peers i = some q → Proper base (site q).out i (outputsAt q h)) (hw : Welcome peers site h) :
    (∀ e ∈ h, Sound peers e) ∧
    (∀ i q, Map.get peers i = some q → GoodBulks base i ((netRun enc site honest h).nodes q).out.sent) ∧
    Accepting peers site (netRun enc site honest h) := by
  refine ⟨?_, ?_, ?_⟩
  · intro e he
    refine ⟨hcl e he, ?_⟩
    rintro q sch o data r ⟨i, hi⟩ rfl h1 h2
    have hm : (sch, o) ∈ outputsAt q h := List.mem_filterMap.2 ⟨_, he, by simp⟩
    obtain ⟨d, hd⟩ := (((hp i q hi).regular _ hm).1.dest data r h1).2 h2
    rw [hd]; simp
  · intro i q hi
    obtain ⟨⟨l, hl, ho⟩, -⟩ := netRun_out (enc := enc) site honest q ((hh q).2 ⟨i, hi⟩) h
    rw [ho]
    exact (goodBulks_of (site q).type (hs.batches q ⟨i, hi⟩).1 (hs.batches q ⟨i, hi⟩).2 ((hp i q hi).sub hl)).1
  · rintro q p hq ⟨i, hi⟩ hne b hb hqb x hx r j hr hj log
    obtain ⟨⟨l, hl, ho⟩, -⟩ := netRun_out (enc := enc) site honest p ((hh p).2 ⟨i, hi⟩) h
    rw [ho] at hb
    obtain ⟨e, he, d, r', k1, rfl, k3, k4⟩ :=
      (goodBulks_of (site p).type (hs.batches p ⟨i, hi⟩).1 (hs.batches p ⟨i, hi⟩).2 ((hp i p hi).sub hl)).2.1 b hb q hqb x hx
    cases hr
    rw [k3] at hj; cases hj
    exact hw i p q hi hq hne e (hl.subset he) d r k1 k4 log

/-- C103. A session without faults: all members are honest and nobody else takes part, their local parties produce proper shares and accept
those of the others. Then, whatever the order in which messages arrive and whenever the local parties produce their shares, no node is ever
stopped by a panic, none ever blames anybody and no share is ever refused; and whenever no message is on its way, every share produced for a
member has been handed to its local parties. -/
theorem c103_fault_free (hs : Setting enc base ids peers site) (hh : ∀ p, honest p = true ↔ Member peers p) (h : List (NetEvent P))
    (hcl : Closed h) (hp : ∀ i q, Map.get peers i = some q → Proper base (site q).out i (outputsAt q h)) (hw : Welcome peers site h) :
    ∀ q, Member peers q →
      (((netRun enc site honest h).nodes q).alive = true ∧ ((netRun enc site honest h).nodes q).ses.mgr.blame = (site q).mgr.blame ∧
        ((netRun enc site honest h).nodes q).ses.culprits = [] ∧ ∀ en ∈ ((netRun enc site honest h).nodes q).ses.log, en.ok = true) ∧
      ((netRun enc site honest h).pool = [] → Served peers site h ((netRun enc site honest h).nodes q).ses.log q) := by
  obtain ⟨h1, h2, h3⟩ := derived hs hh h hcl hp hw
  obtain ⟨hA, hB⟩ := progress hs hh h h1 h2 h3
  intro q hq
  refine ⟨hA q hq, ?_⟩
  intro hpool i p hi hne e he b r hwire hrec hfull
  have ho := (netRun_out (enc := enc) site honest p ((hh p).2 ⟨i, hi⟩) h).2 (hA p ⟨i, hi⟩).1
  obtain ⟨bk, hbk, hpe, hx, -⟩ :=
    (goodBulks_of (site p).type (hs.batches p ⟨i, hi⟩).1 (hs.batches p ⟨i, hi⟩).2 (hp i p hi)).2.2 e he b r hwire hfull
  rw [← ho] at hbk
  exact hB hpool q hq p ⟨i, hi⟩ hne bk hbk (by rw [hpe]; exact hrec) _ hx r i rfl ((hp i p hi).owner e he b r hwire).1

theorem netRun_append (h ds : List (NetEvent P)) : netRun enc site honest (h ++ ds) = ds.foldl (netStep enc site honest) (netRun enc site honest h) := by
  rw [netRun, List.foldl_append, ← netRun]

theorem deliveries_outputs (n : Net K P) (ds : List (NetEvent P)) (hd : Deliveries enc site honest n ds) : ∀ e ∈ ds, ∃ i sch, e = .deliver i sch := by
  induction ds generalizing n with
  | nil => simp
  | cons d ds ih =>
    obtain ⟨⟨i, sch, rfl, -⟩, h2⟩ := hd
    intro e he
    rcases List.mem_cons.1 he with rfl | he
    · exact ⟨i, sch, rfl⟩
    · exact ih _ h2 e he

theorem outputsAt_append (q : P) (h ds : List (NetEvent P)) (hd : ∀ e ∈ ds, ∃ i sch, e = NetEvent.deliver i sch) :
    outputsAt q (h ++ ds) = outputsAt q h := by
  unfold outputsAt
  rw [List.filterMap_append]
  conv_rhs => rw [← List.append_nil (List.filterMap _ h)]
  congr 1
  rw [List.filterMap_eq_nil_iff]
  intro e he
  obtain ⟨i, sch, rfl⟩ := hd e he
  rfl

theorem deliveries_length (hs : Setting enc base ids peers site) {S : P → List (OutBatch.Bulk P)} (hb : Bulks base peers site S)
    (hh : ∀ p, honest p = true ↔ Member peers p) (ds h : List (NetEvent P)) (hso : ∀ e ∈ h, Sound peers e)
    (hS : ∀ q, Member peers q → ∀ b ∈ ((netRun enc site honest h).nodes q).out.sent, b ∈ S q)
    (hd : Deliveries enc site honest (netRun enc site honest h) ds) :
    ds.length ≤ total base peers.length (netRun enc site honest h).pool := by
  induction ds generalizing h with
  | nil => simp
  | cons d ds ih =>
    obtain ⟨⟨i, sch, rfl, hlt⟩, h2⟩ := hd
    have hrun : netRun enc site honest (h ++ [.deliver i sch]) = netStep enc site honest (netRun enc site honest h) (.deliver i sch) := by
      rw [netRun_append]; rfl
    have hi := netInv_run hs hb honest hh h hso hS
    have h3 := total_deliver hs hb honest hh hi i sch hlt
    have h4 := ih (h ++ [.deliver i sch]) ?_ ?_ (by rw [hrun]; exact h2)
    · rw [hrun] at h4
      rw [List.length_cons]
      omega
    · intro e he
      rcases List.mem_append.1 he with he | he
      · exact hso e he
      · rw [List.mem_singleton.1 he]
        exact ⟨fun _ _ _ _ h => (by cases h), fun _ _ _ _ _ _ h => (by cases h)⟩
    · intro q hq b hbm
      rw [hrun, deliver_out] at hbm
      exact hS q hq b hbm

/-- deliveries can be continued until nothing is on its way -/
theorem deliveries_end (hs : Setting enc base ids peers site) {S : P → List (OutBatch.Bulk P)} (hb : Bulks base peers site S)
    (hh : ∀ p, honest p = true ↔ Member peers p) (h : List (NetEvent P)) (hso : ∀ e ∈ h, Sound peers e)
    (hS : ∀ q, Member peers q → ∀ b ∈ ((netRun enc site honest h).nodes q).out.sent, b ∈ S q) (sch : TssCommon.Sched P) :
    ∃ ds, Deliveries enc site honest (netRun enc site honest h) ds ∧ (netRun enc site honest (h ++ ds)).pool = [] := by
  generalize hk : total base peers.length (netRun enc site honest h).pool = k
  induction k using Nat.strongRecOn generalizing h with
  | _ k ih =>
    rcases hp : (netRun enc site honest h).pool with _ | ⟨x, rest⟩
    · exact ⟨[], trivial, by rw [List.append_nil]; exact hp⟩
    · have hlt : 0 < (netRun enc site honest h).pool.length := by rw [hp]; simp
      have hrun : netRun enc site honest (h ++ [.deliver 0 sch]) = netStep enc site honest (netRun enc site honest h) (.deliver 0 sch) := by
        rw [netRun_append]; rfl
      have hi := netInv_run hs hb honest hh h hso hS
      have h3 := total_deliver hs hb honest hh hi 0 sch hlt
      have h6 : ∀ e ∈ h ++ [NetEvent.deliver 0 sch], Sound peers e := by
        intro e he
        rcases List.mem_append.1 he with he | he
        · exact hso e he
        · rw [List.mem_singleton.1 he]
          exact ⟨fun _ _ _ _ h => (by cases h), fun _ _ _ _ _ _ h => (by cases h)⟩
      obtain ⟨ds, h4, h5⟩ := ih (total base peers.length (netRun enc site honest (h ++ [.deliver 0 sch])).pool) (by rw [hrun]; omega)
        (h ++ [.deliver 0 sch]) h6 (fun q hq b hbm => hS q hq b (by rw [hrun, deliver_out] at hbm; exact hbm)) rfl
      refine ⟨.deliver 0 sch :: ds, ⟨⟨0, sch, rfl, hlt⟩, by rw [← hrun]; exact h4⟩, ?_⟩
      rw [List.append_assoc] at h5
      exact h5

/-- C104. In a session without faults the exchange of messages comes to an end: once the local parties are waiting, only a bounded number of
messages can still arrive, confirmations and requests they cause included; the network can be emptied; and when no message is left on its way,
every member has been handed every share produced for it, without anybody having been blamed. -/
theorem c104_exchange_ends (hs : Setting enc base ids peers site) (hh : ∀ p, honest p = true ↔ Member peers p) (h : List (NetEvent P))
    (hcl : Closed h) (hp : ∀ i q, Map.get peers i = some q → Proper base (site q).out i (outputsAt q h)) (hw : Welcome peers site h) :
    (∃ ds, Deliveries enc site honest (netRun enc site honest h) ds ∧ (netRun enc site honest (h ++ ds)).pool = []) ∧
    ∃ bound, ∀ ds, Deliveries enc site honest (netRun enc site honest h) ds → ds.length ≤ bound ∧
      ((netRun enc site honest (h ++ ds)).pool = [] → ∀ q, Member peers q →
        Served peers site h ((netRun enc site honest (h ++ ds)).nodes q).ses.log q ∧
        ((netRun enc site honest (h ++ ds)).nodes q).ses.mgr.blame = (site q).mgr.blame) := by
  obtain ⟨h1, h2, h3⟩ := derived hs hh h hcl hp hw
  refine ⟨deliveries_end hs (bulks_of h h2 h3) hh h h1 (fun q _ b hb => hb) ⟨Shuffle.id _, Shuffle.id _, Shuffle.id _, []⟩,
    total base peers.length (netRun enc site honest h).pool, ?_⟩
  intro ds hd
  refine ⟨deliveries_length hs (bulks_of h h2 h3) hh ds h h1 (fun q _ b hb => hb) hd, ?_⟩
  intro hpool q hq
  have hdl := deliveries_outputs _ ds hd
  have heq := fun q => outputsAt_append q h ds hdl
  have hcl' : Closed (h ++ ds) := by
    intro e he
    rcases List.mem_append.1 he with he | he
    · exact hcl e he
    · obtain ⟨i, sch, rfl⟩ := hdl e he
      intro p q raw sch h; cases h
  obtain ⟨⟨-, hb, -⟩, hB⟩ := c103_fault_free (enc := enc) hs hh (h ++ ds) hcl' (fun i q hi => by rw [heq]; exact hp i q hi) (fun i p q hi hq hne e he => by
    rw [heq] at he; exact hw i p q hi hq hne e he) q hq
  have := hB hpool
  refine ⟨?_, hb⟩
  intro i p hi hne e he b r
  have h5 := this i p hi hne e (by rw [heq]; exact he) b r
  rw [heq] at h5
  exact h5

/-! ## C105 -/

theorem nodup_values {m : Map Nat P} (hwf : Map.WF m) (hinj : ∀ i j p, Map.get m i = some p → Map.get m j = some p → i = j) :
    (m.map Prod.snd).Nodup := by
  unfold Map.WF Map.keys at hwf
  have hnd : m.Nodup := List.Nodup.of_map _ hwf
  refine (List.nodup_map_iff_inj_on hnd).2 ?_
  rintro ⟨i, p⟩ hi ⟨j, p'⟩ hj rfl
  have := hinj i j p (Map.get_of_mem hwf hi) (Map.get_of_mem hwf hj)
  rw [this]

/-- a member talks to all the members but itself -/
theorem others_length (hs : Setting enc base ids peers site) {q : P} (hq : Member peers q) : (site q).env.p2pPeers.length + 1 = ids.length := by
  have hc := hs.committee q hq
  have h1 := hc.wfp
  have h2 := hc.inj
  have h3 := hc.same
  have h4 := hc.wf
  have hpm := hs.peerMap q hq
  generalize (site q).mgr.partyIDtoP2PID = own at h1 h2 h3 hpm
  rw [hs.idMap q hq] at h3 h4
  have hl : own.length = ids.length := by
    have : (Map.keys own).Perm (Map.keys ids) := (List.perm_ext_iff_of_nodup h1 h4).2 h3
    have := this.length_eq
    unfold Map.keys at this
    rwa [List.length_map, List.length_map] at this
  have hp : (q :: (site q).env.p2pPeers).Perm (own.map Prod.snd) := by
    refine (List.perm_ext_iff_of_nodup ?_ (nodup_values h1 h2)).2 ?_
    · exact List.nodup_cons.2 ⟨fun h => ((hs.others q hq q).1 h).2 rfl, hs.distinct q hq⟩
    · intro p
      rw [List.mem_cons, hs.others q hq p]
      have hm : p ∈ own.map Prod.snd ↔ Member peers p := by
        constructor
        · intro h
          obtain ⟨⟨i, p'⟩, hm, rfl⟩ := List.mem_map.1 h
          exact ⟨i, (hpm i).symm.trans (Map.get_of_mem h1 hm)⟩
        · rintro ⟨i, hi⟩
          exact List.mem_map.2 ⟨(i, p), Map.mem_of_get ((hpm i).trans hi), rfl⟩
      rw [hm]
      constructor
      · rintro (rfl | h)
        · exact hq
        · exact h.1
      · intro h
        by_cases hpq : p = q
        · exact Or.inl hpq
        · exact Or.inr ⟨h, hpq⟩
  have := hp.length_eq
  rw [List.length_cons, List.length_map] at this
  omega

/-- a report that the task is done comes from a member who sent one -/
theorem report_origin (hs : Setting enc base ids peers site) (hh : ∀ p, honest p = true ↔ Member peers p) (h : List (NetEvent P)) (hcl : Closed h)
    {q : P} (hq : Member peers q) {e : Event P} (he : e ∈ ((netRun enc site honest h).nodes q).hist) {p : P} (hr : ReportsDone (site q).env e p) :
    Member peers p ∧ p ≠ q ∧ .at_ p .notifyDone ∈ h := by
  obtain ⟨raw, sch, pl, rfl, hd, -⟩ := hr
  have hor := origins_run (enc := enc) (site := site) (honest := honest) (fun q hq => hs.loc ((hh q).1 hq)) h
  rcases hor.hist q ((hh q).2 hq) raw p sch he with ⟨h1, h2⟩ | ⟨-, sch', h2⟩
  · have hp := (hh p).1 h1
    have nope : ∀ t pl', raw = enc.wrap t pl' → t = TSSTaskDone := by
      rintro t pl' rfl
      rw [(hs.dec hq).wrap] at hd
      cases hd; rfl
    rcases h2 with ⟨b, hb, hx⟩ | ⟨y, hy, hx⟩ | ⟨hm, hx⟩
    · obtain ⟨-, -, -, hx⟩ := mem_toPeers hx
      obtain ⟨k, l, rfl⟩ := netRun_made (enc := enc) site honest h p b hb
      have := nope _ _ hx
      rcases hs.type p hp with ht | ht <;> (rw [show (OutBatch.sendBulkMsg (site p).out k (site p).type l).msgType = (site p).type from rfl, ht] at this; exact absurd this (by decide))
    · obtain ⟨-, -, -, hx⟩ := mem_toPeers hx
      have hy' := hor.ses p h1 ▸ hy
      rcases Verif.Props.Sent.c72_sent _ _ (hs.fresh p hp).2 _ y hy' with hc | ⟨d, hr⟩ | ha
      · obtain ⟨e, he, t, w, i, owner, hdl, -, hi, hbc, ho, hpl, hpe⟩ := hc
        rw [hpl] at hx
        have := nope _ _ hx
        unfold Verif.Props.Sent.confirmType at this
        split at this <;> exact absurd this (by decide)
      · obtain ⟨key, t, th, hpl, -⟩ := hr
        rw [hpl] at hx
        exact absurd (nope _ _ hx) (by decide)
      · obtain ⟨e, he, peer, c, w, i, -, hpl, -⟩ := ha
        rw [hpl] at hx
        exact absurd (nope _ _ hx) (by decide)
    · obtain ⟨e1, e2, e3, -⟩ := mem_toPeers hx
      dsimp only at e1 e2 e3
      exact ⟨hp, by rw [e1]; exact e3.symm, hm⟩
  · exact absurd rfl (hcl _ h2 p q raw sch')

/-- C105. In a session without faults a member regards the task as finished by all only after every other member has reported that it is done;
and when all of them have and no message to it is on its way, it does. -/
theorem c105_task_done (hs : Setting enc base ids peers site) (hh : ∀ p, honest p = true ↔ Member peers p) (h : List (NetEvent P))
    (hcl : Closed h) (hp : ∀ i q, Map.get peers i = some q → Proper base (site q).out i (outputsAt q h)) (hw : Welcome peers site h)
    (hn : 2 ≤ ids.length) (q : P) (hq : Member peers q) :
    (((netRun enc site honest h).nodes q).ses.taskDone = true → ∀ p, Member peers p → p ≠ q → .at_ p .notifyDone ∈ h) ∧
    ((∀ x ∈ (netRun enc site honest h).pool, x.2.1 ≠ q) → (∀ p, Member peers p → p ≠ q → .at_ p .notifyDone ∈ h) →
      ((netRun enc site honest h).nodes q).ses.taskDone = true) := by
  obtain ⟨h1, h2, h3⟩ := derived hs hh h hcl hp hw
  have hi := netInv_run hs (bulks_of h h2 h3) honest hh h h1 (fun q _ b hb => hb)
  have hal := (c103_fault_free hs hh h hcl hp hw q hq).1.1
  have hcr : ((netRun enc site honest h).nodes q).ses.crashed = false := by
    unfold Node.alive at hal
    simp only [Bool.and_eq_true, Bool.not_eq_true'] at hal
    exact hal.2
  have hlen := others_length hs hq
  have hnd := hs.distinct q hq
  obtain ⟨S, hS, hdone⟩ := Verif.Props.SessionMore.c31_closed_iff (site q).env (site q).mgr ((netRun enc site honest h).nodes q).hist
    (by rw [hs.idMap q hq]; exact hn) (by rw [← hi.ses q hq]; exact hcr)
  rw [← hi.ses q hq, hs.idMap q hq] at hdone
  have hsub : S ⊆ (site q).env.p2pPeers.toFinset := by
    intro p hpS
    obtain ⟨e, he, hr⟩ := (hS p).1 hpS
    obtain ⟨k1, k2, -⟩ := report_origin hs hh h hcl hq he hr
    exact List.mem_toFinset.2 ((hs.others q hq p).2 ⟨k1, k2⟩)
  have hcard : (site q).env.p2pPeers.toFinset.card = (site q).env.p2pPeers.length := List.toFinset_card_of_nodup hnd
  refine ⟨?_, ?_⟩
  · intro hd p hpm hne
    have h5 := hdone.1 hd
    have heq : S = (site q).env.p2pPeers.toFinset := Finset.eq_of_subset_of_card_le hsub (by omega)
    have : p ∈ S := by rw [heq]; exact List.mem_toFinset.2 ((hs.others q hq p).2 ⟨hpm, hne⟩)
    obtain ⟨e, he, hr⟩ := (hS p).1 this
    exact (report_origin hs hh h hcl hq he hr).2.2
  · intro hpool hall
    refine hdone.2 ?_
    have : (site q).env.p2pPeers.toFinset ⊆ S := by
      intro p hpm
      obtain ⟨k1, k2⟩ := (hs.others q hq p).1 (List.mem_toFinset.1 hpm)
      refine (hS p).2 ?_
      have hx := hi.done p k1 (hall p k1 k2) (p, q, enc.wrap TSSTaskDone (enc.task true)) ?_
      · rcases hx with hx | ⟨sch, hx⟩
        · exact absurd rfl (hpool _ hx)
        · exact ⟨_, hx, _, sch, _, rfl, (hs.dec hq).wrap _ _, (hs.dec hq).task _⟩
      · have := toPeers_mem (me := (site p).env.localPeer) (b := enc.wrap TSSTaskDone (enc.task true)) ((hs.others p k1 q).2 ⟨hq, k2.symm⟩)
          (by rw [hs.loc k1]; exact k2.symm)
        rw [hs.loc k1] at this ⊢
        exact this
    have := Finset.card_le_card this
    omega

/-! ## C102 -/

/-- Specification: signatures are not forged: a message that reaches an honest node, whoever sent it, with a signature that verifies under the key of
an honest member carries a payload which that member has signed in this session -/
def Unforged (site : P → Site K P) (honest : P → Bool) (n : Net K P) : Prop :=
  ∀ q, honest q = true → ∀ e ∈ (n.nodes q).hist, ∀ w i o, Carries (site q).env e w → Signed (site q).env (site q).mgr.partyIDMap w →
    w.sender = some i → Map.get (site q).mgr.partyIDtoP2PID i = some o → honest o = true → w.message ∈ (n.nodes o).signed

/-- C102. In a network with any number of honest nodes and arbitrary others, who may send anything but forged signatures: every share that an honest
node hands to its local parties from a message of an honest member has been produced by the local parties of that member in this session, with
the same bytes, for the same party, in the name of the same sender and as a broadcast or not as it is handed over. -/
theorem c102_authentic (hl : ∀ q, honest q = true → (site q).env.localPeer = q)
    (hdec : ∀ q, honest q = true → ∀ l, (site q).env.decBulk (enc.bulk l) = some l) (h : List (NetEvent P))
    (hu : Unforged site honest (netRun enc site honest h)) (q o : P) (i : Nat) (hq : honest q = true) (ho : honest o = true)
    (hi : Map.get (site q).mgr.partyIDtoP2PID i = some o) (en : Entry) (hen : en ∈ ((netRun enc site honest h).nodes q).ses.log)
    (hs : en.carrier.sender = some i) :
    ∃ e ∈ outputsAt o h, ∃ r, e.2.wire = some (en.share.bytes, r) ∧ e.2.moniker = en.share.ident ∧ r.isBroadcast = en.share.isBroadcast ∧
      r.sender = some en.share.from_ := by
  have hor := origins_run (enc := enc) (site := site) (honest := honest) hl h
  rw [hor.ses q hq] at hen
  obtain ⟨e, he, hc, hsg, hcn⟩ := Verif.Props.Session.c25_applied_signed _ _ _ en hen
  have hm := hu q hq e he _ i o hc hsg hs hi ho
  rw [hor.signed o] at hm
  obtain ⟨b, hb, hbm⟩ := List.mem_map.1 hm
  obtain ⟨bulk, x, r, ri, c1, c2, c3, -, c5, c6, c7, c8, -⟩ := hcn
  rw [← hbm, hdec q hq] at c1
  cases c1
  obtain ⟨⟨l, hsub, hout⟩, -⟩ := netRun_out (enc := enc) site honest o ho h
  rw [hout] at hb
  obtain ⟨e', he', r', k1, k2, k3⟩ := runOut_shares _ _ _ b hb x c2
  rw [c6] at k3
  cases k3
  exact ⟨e', hsub.subset he', r, by rw [← c5]; exact k1, by rw [← k2]; exact c3, c8, c7⟩

/-! ## C106 -/

/-- C106, the part that holds. In a session without faults every share handed to the local parties of a member was produced by the local parties of
another member, for it.

Missing: nodes that are not honest, see `c106_forwarded`. -/
theorem c106_addressee_partial (hs : Setting enc base ids peers site) (hh : ∀ p, honest p = true ↔ Member peers p) (h : List (NetEvent P))
    (hcl : Closed h) (hp : ∀ i q, Map.get peers i = some q → Proper base (site q).out i (outputsAt q h)) (hw : Welcome peers site h)
    (q : P) (hq : Member peers q) (en : Entry) (hen : en ∈ ((netRun enc site honest h).nodes q).ses.log) :
    ∃ p, Map.get peers en.share.from_ = some p ∧ p ≠ q ∧ ∃ e ∈ outputsAt p h, ∃ r, e.2.wire = some (en.share.bytes, r) ∧
      e.2.moniker = en.share.ident ∧ r.isBroadcast = en.share.isBroadcast ∧
      q ∈ Verif.Props.Outgoing.receivers (site p).out (Verif.Props.Outgoing.queueOf e.2.type r) := by
  obtain ⟨h1, h2, h3⟩ := derived hs hh h hcl hp hw
  have hb := bulks_of h h2 h3
  have hi := netInv_run hs hb honest hh h h1 (fun q _ b hb => hb)
  rw [hi.ses q hq] at hen
  obtain ⟨e, he, hc, hsg, hcn⟩ := Verif.Props.Session.c25_applied_signed _ _ _ en hen
  obtain ⟨j, p, k1, k2, k3, b, k4, k5, k6⟩ := Meant.other hs hb (((hi.hist q hq).behaves e he).carries _ hc)
  obtain ⟨bulk, x, r, ri, c1, c2, c3, -, c5, c6, c7, c8, -⟩ := hcn
  rw [k6] at c1
  have c1' : (site q).env.decBulk (enc.bulk b.shares) = some bulk := c1
  rw [(hs.dec hq).bulk] at c1'
  cases c1'
  obtain ⟨⟨l, hsub, hout⟩, -⟩ := netRun_out (enc := enc) site honest p ((hh p).2 ⟨j, k1⟩) h
  rw [hout] at k4
  obtain ⟨e', he', d, r', g1, g2, g3, g4⟩ :=
    (goodBulks_of (site p).type (hs.batches p ⟨j, k1⟩).1 (hs.batches p ⟨j, k1⟩).2 ((hp j p k1).sub hsub)).2.1 b k4 q k5 x c2
  rw [g2] at c3 c5 c6
  cases c6
  rw [g3] at c7
  cases c7
  exact ⟨p, k1, k2, e', hsub.subset he', r, by rw [← c5]; exact g1, c3, c8, g4⟩

/-! ## examples -/

/-- the messages arrive in the order in which they were sent -/
def fifo (n : Nat) : List (NetEvent Nat) := List.replicate n (.deliver 0 ⟨Shuffle.id _, Shuffle.id _, Shuffle.id _, []⟩)

/-- the messages arrive in some other order -/
def mixed (n : Nat) (l : List Nat) : List (NetEvent Nat) :=
  (List.replicate n l).flatten.map (fun i => .deliver i ⟨Shuffle.id _, Shuffle.id _, Shuffle.id _, []⟩)

/-- the shares applied and whether all are done -/
def view (n : Net Nat Nat) (q : Nat) : List (Nat × Bytes) × Bool :=
  ((n.nodes q).ses.log.map fun en => (en.share.from_, en.share.bytes), (n.nodes q).ses.taskDone)

/-- the hypotheses of C103, C104, C105 and C106 hold of the demo session, and there is something to deliver -/
example : (netRun demoEnc demoSite demoHonest demoHistory).pool.length = 19 ∧
    (∃ ds, Deliveries demoEnc demoSite demoHonest (netRun demoEnc demoSite demoHonest demoHistory) ds ∧
      (netRun demoEnc demoSite demoHonest (demoHistory ++ ds)).pool = []) :=
  ⟨by decide +kernel, (c104_exchange_ends demoSetting demoHonest_iff demoHistory demoClosed demoProper (demoWelcome _)).1⟩

/-- the shares of members 0 and 1 are such that they are sent -/
example : Full (demoSite 10).out (outputsAt 10 demoHistory) "KGRound1Message" ⟨some (some 0), [], true⟩ ∧
    Full (demoSite 11).out (outputsAt 11 demoHistory) "KGRound2Message1" ⟨some (some 1), [0], false⟩ ∧
    10 ∈ Verif.Props.Outgoing.receivers (demoSite 11).out (Verif.Props.Outgoing.queueOf "KGRound2Message1" ⟨some (some 1), [0], false⟩) := by
  unfold Full
  decide +kernel

/-- in between, some messages are on their way and some shares have been applied -/
example : let n := netRun demoEnc demoSite demoHonest (demoHistory ++ fifo 20)
    n.pool.length = 11 ∧ [10, 11, 12, 13].map (view n) =
      [([(1, [1, 60])], true), ([], true), ([(0, [0, 50])], true), ([], true)] := by decide +kernel

/-- at the end every share has been applied and everybody knows that all are done -/
example : let n := netRun demoEnc demoSite demoHonest (demoHistory ++ fifo 50)
    n.pool = [] ∧ [10, 11, 12, 13].map (view n) =
      [([(1, [1, 60]), (1, [0, 51])], true), ([(0, [0, 50])], true), ([(0, [0, 50]), (1, [0, 51])], true), ([(0, [0, 50]), (1, [0, 51])], true)] := by
  decide +kernel

example : let n := netRun demoEnc demoSite demoHonest (demoHistory ++ mixed 10 [6, 5, 4, 3, 2, 1, 0])
    n.pool = [] ∧ [10, 11, 12, 13].map (view n) =
      [([(1, [1, 60]), (1, [0, 51])], true), ([(0, [0, 50])], true), ([(1, [0, 51]), (0, [0, 50])], true), ([(1, [0, 51]), (0, [0, 50])], true)] := by
  decide +kernel

/-! ### a node that is not honest -/

/-- members 0 to 2 are honest, member 3 is not -/
def three (p : Nat) : Bool := decide (p ∈ [10, 11, 12])

/-- the share which member 1 has for member 3 -/
def forThree : OutBatch.Output := ⟨"KGRound2Message1", "m", some ([1, 60], ⟨some (some 1), [3], false⟩)⟩

/-- the bytes member 1 sends to member 3 -/
def bytesForThree : Bytes :=
  demoEnc.wrap TSSKeyGenMsg (demoEnc.wire (wireOf demoEnc (demoSite 11)
    (OutBatch.sendBulkMsg (demoSite 11).out "KGRound2Message1" TSSKeyGenMsg [⟨[1, 60], "m", some ⟨some (some 1), [3], false⟩⟩])))

/-- member 0 broadcasts a share, member 1 sends one to member 3, who passes the very bytes on to member 0 and sends something else to member 2 -/
def forwarded : List (NetEvent Nat) :=
  [.at_ 10 (.output plainOut (demoBroadcast 0 50)), .at_ 11 (.output plainOut forThree)] ++ fifo 8 ++
    [.foreign 13 10 bytesForThree ⟨Shuffle.id _, Shuffle.id _, Shuffle.id _, []⟩,
      .foreign 13 12 (demoEnc.wrap TSSKeyGenMsg (demoEnc.wire ⟨some ⟨some (some 3), [2], false⟩, "KGRound2Message1",
        demoEnc.bulk [⟨[1, 70], "m", some ⟨some (some 3), [2], false⟩⟩], [4]⟩)) ⟨Shuffle.id _, Shuffle.id _, Shuffle.id _, []⟩]

/-- the wire message an event carries -/
def carried (env : TssCommon.Env Nat Nat) : Event Nat → Option WireMessage
  | .msg raw _ _ => match env.decWrapped raw with
    | some (t, pl) =>
      if t = TSSKeyGenMsg ∨ t = TSSKeySignMsg then env.decWire pl
      else if t = TSSControlMsg then (env.decControl pl).bind Control.msg else none
    | none => none
  | .work _ => none

theorem carried_of {env : TssCommon.Env Nat Nat} {e : Event Nat} {w : WireMessage} (h : Carries env e w) : carried env e = some w := by
  obtain ⟨raw, peer, sch, t, pl, rfl, h1, ⟨h2, h3⟩ | ⟨rfl, c, h3, h4⟩⟩ := h
  · simp [carried, h1, h2, h3]
  · have : ¬ (TSSControlMsg = TSSKeyGenMsg ∨ TSSControlMsg = TSSKeySignMsg) := by decide
    simp only [carried, h1, if_neg this, if_true, h3]
    exact h4

/-- a check that implies `Unforged` -/
def checkUnforged (n : Net Nat Nat) : Bool :=
  [10, 11, 12].all fun q => (n.nodes q).hist.all fun e => match carried (demoSite q).env e with
    | none => true
    | some w => match w.sender.bind (Map.get demoPeers) with
      | none => true
      | some o => !three o || decide (w.message ∈ (n.nodes o).signed)

theorem unforged_of {n : Net Nat Nat} (h : checkUnforged n = true) : Unforged demoSite three n := by
  intro q hq e he w i o hc _ hs ho hh
  have hq' : q ∈ [10, 11, 12] := by simpa [three] using hq
  have h1 := List.all_eq_true.1 (List.all_eq_true.1 h q hq') e he
  rw [carried_of hc] at h1
  have h2 : Map.get demoPeers i = some o := ho
  simp only [hs, Option.bind_some, h2, hh, Bool.not_true, Bool.false_or, decide_eq_true_eq] at h1
  exact h1

/-- the hypotheses of C102 hold; members 0 and 2 have applied a share of an honest member -/
example : Unforged demoSite three (netRun demoEnc demoSite three forwarded) ∧
    [10, 12].map (view (netRun demoEnc demoSite three forwarded)) = [([(1, [1, 60])], false), ([(0, [0, 50]), (3, [1, 70])], false)] :=
  ⟨unforged_of (by decide +kernel), by decide +kernel⟩

/-- C106 fails with a single node that is not honest: neither the signature nor the receiver's checks cover the destination of a share, so a share
which the honest member 1 produced for member 3 is handed to the local parties of the honest member 0 when member 3 passes it on. -/
theorem c106_forwarded : ∃ en ∈ ((netRun demoEnc demoSite three forwarded).nodes 10).ses.log, en.share.from_ = 1 ∧ en.ok = true ∧
    (∀ e ∈ outputsAt 11 forwarded, ∀ b r, e.2.wire = some (b, r) → r.to_ = [3] ∧
      10 ∉ Verif.Props.Outgoing.receivers (demoSite 11).out (Verif.Props.Outgoing.queueOf e.2.type r)) ∧
    Unforged demoSite three (netRun demoEnc demoSite three forwarded) := by
  refine ⟨⟨⟨"m", 1, false, [1, 60]⟩, ⟨1, KEYGEN2aUnicast, "m"⟩, wireOf demoEnc (demoSite 11)
    (OutBatch.sendBulkMsg (demoSite 11).out "KGRound2Message1" TSSKeyGenMsg [⟨[1, 60], "m", some ⟨some (some 1), [3], false⟩⟩]), true⟩,
    by decide +kernel, rfl, rfl, ?_, unforged_of (by decide +kernel)⟩
  intro e he b r hw
  have : outputsAt 11 forwarded = [(plainOut, forThree)] := rfl
  rw [this] at he
  rw [List.mem_singleton.1 he] at hw ⊢
  cases hw
  exact ⟨rfl, by decide +kernel⟩

end Verif.Props.SessionNet
