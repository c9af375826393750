import Verif.Lemmas.JoinParty
import Verif.Props.C17_C18
import Mathlib.Data.List.Perm.Subperm

/-! # C19-C24, C69: forming the party -/
namespace Verif.Props.Join
open Verif.Go Verif.Peers Verif.JoinParty Verif.Spec

variable {P : Type} [DecidableEq P]

/-! ## C19 the leader -/

/-- What C19 allows the leader to return: `h` are the events up to the moment the online list was read. -/
def LeaderVerdict (cd : PeerCodec P) (me : P) (committee : List P) (t : Int) (id : String) (h : List (Event P))
    (r : Result P) (sent : Option Resp) : Prop :=
  let A := arrivals committee me (heard id h)
  (r.err = none ∧ t ≤ A.length ∧ r.online.Perm (A.take t.toNat ++ [me]) ∧ sent = some ⟨.success, r.online.map cd.str⟩) ∨
  (r.err = some .timeout ∧ (A.length : Int) < t ∧ r.online.Perm (A ++ [me]) ∧ sent = some ⟨.timeout, r.online.map cd.str⟩) ∨
  (r.err = some .signReceived ∧ r.online = [] ∧ Event.sig "signature received" ∈ h ∧ sent = none)

theorem leader_sig (cd : PeerCodec P) (me : P) (t : Int) (id : String) (gs : Groups P) (h : List (Event P)) :
    (runLeader cd me t id gs h).sigNotify = "" ∨ Event.sig (runLeader cd me t id gs h).sigNotify ∈ h := by
  induction h using List.reverseRecOn with
  | nil => left; rfl
  | append_singleton h e ih =>
    rw [runLeader_snoc]
    have keep : ∀ st' : State P, st'.sigNotify = (runLeader cd me t id gs h).sigNotify →
        st'.sigNotify = "" ∨ Event.sig st'.sigNotify ∈ h ++ [e] := by
      intro st' he
      rw [he]
      rcases ih with ih | ih
      · exact Or.inl ih
      · exact Or.inr (by simp [ih])
    cases e with
    | incoming id' b => exact keep _ rfl
    | other id' b => exact keep _ rfl
    | wake σ =>
      apply keep; simp only [leaderStep]
      split
      · split <;> rfl
      · rfl
    | timeout => apply keep; simp only [leaderStep]; split <;> rfl
    | sig s =>
      simp only [leaderStep]
      split
      · right; simp
      · exact keep _ rfl
    | step σ => apply keep; simp only [leaderStep]; split <;> rfl

/-- C19: whatever the schedule of messages, timers and signature notifications, what joinPartyLeader returns, and what it
tells everybody, is right: success iff at least `threshold` other members were heard from before it returned (`h1` are the events
before that); the list is the leader plus the first `threshold` of them. -/
theorem c19_leader_verdict (cd : PeerCodec P) (me : P) (gs0 gs : Groups P) (id : String) (peers : List String)
    (committee : List P) (t : Int) (hdec : getPeerIDs cd peers = .ok committee)
    (hnone : cd.str me ≠ "NONE") (hstart : createJoinPartyGroups cd me gs0 id (cd.str me) peers t = .ok gs)
    (h : List (Event P)) (r : Result P) (hr : (runLeader cd me t id gs h).result = some r) :
    ∃ h1 σ h2, h = h1 ++ .step σ :: h2 ∧ (runLeader cd me t id gs h1).result = none ∧
      (runLeader cd me t id gs (h1 ++ [.step σ])).result = some r ∧
      LeaderVerdict cd me committee t id h1 r (runLeader cd me t id gs h).sent := by
  obtain ⟨ps, hps, rfl⟩ := createJoin_ok hstart
  rw [hdec] at hps; cases hps
  set gs := Map.set gs0 id (newGroup committee me (cd.str me) t) with hgs
  -- invariant
  have inv : ∀ h, ((runLeader cd me t id gs h).result = none ∧ (runLeader cd me t id gs h).phase ≠ .done) ∨
      ((runLeader cd me t id gs h).phase = .done ∧ ∃ r, (runLeader cd me t id gs h).result = some r ∧
        ∃ h1 σ h2, h = h1 ++ .step σ :: h2 ∧ (runLeader cd me t id gs h1).result = none ∧
          (runLeader cd me t id gs (h1 ++ [.step σ])).result = some r ∧
          LeaderVerdict cd me committee t id h1 r (runLeader cd me t id gs h).sent) := by
    intro h
    induction h using List.reverseRecOn with
    | nil => left; simp [runLeader, start]
    | append_singleton h e ih =>
      rw [runLeader_snoc]
      have ext : ∀ st' : State P, st'.result = (runLeader cd me t id gs h).result →
          st'.sent = (runLeader cd me t id gs h).sent →
          ((runLeader cd me t id gs h).phase = .done → st'.phase = .done) →
          ((runLeader cd me t id gs h).phase ≠ .done → st'.phase ≠ .done) →
          (st'.result = none ∧ st'.phase ≠ .done) ∨ (st'.phase = .done ∧ ∃ r, st'.result = some r ∧
            ∃ h1 σ h2, h ++ [e] = h1 ++ .step σ :: h2 ∧ (runLeader cd me t id gs h1).result = none ∧
              (runLeader cd me t id gs (h1 ++ [.step σ])).result = some r ∧
              LeaderVerdict cd me committee t id h1 r st'.sent) := by
        intro st' h1 h2 h3 h4
        rcases ih with ⟨ih1, ih2⟩ | ⟨ih1, r, ih2, k1, σ, k2, ih3, ih4, ih4', ih5⟩
        · left; exact ⟨by rw [h1, ih1], h4 ih2⟩
        · right
          exact ⟨h3 ih1, r, by rw [h1, ih2], k1, σ, k2 ++ [e], by rw [ih3]; simp, ih4, ih4', by rw [h2]; exact ih5⟩
      cases e with
      | incoming id' b => exact ext _ rfl rfl (fun h => h) (fun h => h)
      | other id' b => exact ext _ rfl rfl (fun h => h) (fun h => h)
      | wake σ =>
        simp only [leaderStep]
        split
        · next hw =>
          split
          · exact ext _ rfl rfl (fun h => h) (fun h => h)
          · exact ext _ rfl rfl (fun h => by rw [hw] at h; cases h) (fun _ => by simp)
        · exact ext _ rfl rfl (fun h => h) (fun h => h)
      | timeout =>
        simp only [leaderStep]
        split
        · next hw => exact ext _ rfl rfl (fun h => by rw [hw] at h; cases h) (fun _ => by simp)
        · exact ext _ rfl rfl (fun h => h) (fun h => h)
      | sig s =>
        simp only [leaderStep]
        split
        · exact ext _ rfl rfl (fun h => h) (fun h => h)
        · exact ext _ rfl rfl (fun h => h) (fun h => h)
      | step σ =>
        by_cases hp : (runLeader cd me t id gs h).phase = .ended
        · right
          simp only [leaderStep, hp, if_true]
          have hnone' : (runLeader cd me t id gs h).result = none := by
            rcases ih with ⟨ih1, -⟩ | ⟨ih1, -⟩
            · exact ih1
            · rw [hp] at ih1; cases ih1
          refine ⟨trivial, _, rfl, h, σ, [], rfl, hnone', ?_, ?_⟩
          · rw [runLeader_snoc]
            simp only [leaderStep, hp, if_true]
          have hsig := leader_sig cd me t id gs h
          obtain ⟨g, hg, hps, _⟩ := leader_GInv cd me t id gs (newGroup committee me (cd.str me) t)
            (by simp [hgs]) rfl h
          have hv : visit (runLeader cd me t id gs h).groups id σ = σ.f g.ps.peersResponse := by simp [visit, hg]
          have hperm : (σ.f g.ps.peersResponse).Perm
              (PeerBook.book committee me (cd.str me) t (heard id h)).peersResponse := by
            have := σ.perm g.ps.peersResponse
            rwa [hps] at this ⊢
          have hon := PeerBook.c17_online_leader committee me (cd.str me) t hnone (heard id h) _ hperm
          rw [hv]
          unfold leaderFinish
          by_cases hsn : (runLeader cd me t id gs h).sigNotify = "signature received"
          · simp only [hsn, if_true]
            rw [hsn] at hsig
            rcases hsig with hsig | hsig
            · exact absurd hsig (by decide)
            · exact Or.inr (Or.inr ⟨rfl, rfl, hsig, rfl⟩)
          · simp only [hsn, if_false]
            have hlen := hon.length_eq
            rw [List.length_take] at hlen
            by_cases hlt : (((getPeersStatus (σ.f g.ps.peersResponse)).1 ++ [me]).length : Int) < t + 1
            · rw [if_pos hlt]
              rw [List.length_append, List.length_singleton] at hlt
              refine Or.inr (Or.inl ⟨rfl, ?_, ?_, rfl⟩)
              · omega
              · rw [List.take_of_length_le (by omega)] at hon
                exact hon.append_right _
            · rw [if_neg hlt]
              rw [List.length_append, List.length_singleton] at hlt
              refine Or.inl ⟨rfl, ?_, hon.append_right _, rfl⟩
              omega
        · simp only [leaderStep, hp, if_false]
          exact ext _ rfl rfl (fun h => h) (fun h => h)
  rcases inv h with ⟨h1, _⟩ | ⟨_, r', h1, h2⟩
  · rw [hr] at h1; cases h1
  · rw [hr] at h1; cases h1; exact h2

/-- C19: on success the returned list has no repetitions, contains the leader, only committee members besides it, and
exactly threshold+1 entries. -/
theorem c19_success_list (cd : PeerCodec P) (me : P) (committee : List P) (t : Int) (ht : 0 ≤ t) (id : String)
    (h : List (Event P)) (r : Result P) (sent : Option Resp) (hv : LeaderVerdict cd me committee t id h r sent)
    (hok : r.err = none) :
    me ∈ r.online ∧ r.online.Nodup ∧ (r.online.length : Int) = t + 1 ∧
      ∀ p ∈ r.online, p = me ∨ (p ∈ committee ∧ p ∈ heard id h) := by
  rcases hv with ⟨_, h1, h2, _⟩ | ⟨h1, _⟩ | ⟨h1, _⟩
  · refine ⟨h2.mem_iff.2 (by simp), ?_, ?_, ?_⟩
    · rw [h2.nodup_iff, List.nodup_append]
      refine ⟨(nodup_arrivals _ _ _).sublist (List.take_sublist _ _), by simp, ?_⟩
      intro a ha b hb hab
      simp at hb
      have := ((mem_arrivals _ _ _ _).1 (List.mem_of_mem_take ha)).2.2
      exact this (hab.trans hb)
    · rw [h2.length_eq, List.length_append, List.length_take, List.length_singleton]; omega
    · intro p hp
      rw [h2.mem_iff] at hp
      rcases List.mem_append.1 hp with hp | hp
      · right
        have := (mem_arrivals _ _ _ _).1 (List.mem_of_mem_take hp)
        exact ⟨this.2.1, this.1⟩
      · left; simpa using hp
  · rw [hok] at h1; cases h1
  · rw [hok] at h1; cases h1

/-! Concrete peers for the witnesses: peer `n` prints as `"p"` followed by `n` copies of `"x"`. -/

def demoCodec : PeerCodec Nat :=
  { str := fun n => String.ofList ('p' :: List.replicate n 'x')
    decode := fun s => match s.toList with
      | 'p' :: l => some l.length
      | _ => none }

def keep : JoinParty.Shuffle Nat := ⟨id, fun l => List.Perm.refl l⟩

/-- Witness for C19: node 1 leads 1..4 with threshold 2; 3 and 4 join, a stranger and a message of another id do not count. -/
def demoGroups : Groups Nat := Map.set [] "m" (newGroup [1, 2, 3, 4] 1 "px" 2)
example : createJoinPartyGroups demoCodec 1 [] "m" "px" ["px", "pxx", "pxxx", "pxxxx"] 2 = .ok demoGroups := rfl
example : (runLeader demoCodec 1 2 "m" demoGroups
    [.incoming "m" (.request 3), .incoming "n" (.request 2), .incoming "m" (.request 9), .incoming "m" (.request 4),
     .wake keep, .step keep]).result = some ⟨[3, 4, 1], none⟩ := by decide
example : (runLeader demoCodec 1 2 "m" demoGroups
    [.incoming "m" (.request 3), .timeout, .step keep]).result = some ⟨[3, 1], some .timeout⟩ := by decide

/-! ## C20 -/

theorem send_ok {c : Chan} (h : c.len < c.cap) : c.send = { c with len := c.len + 1 } := by simp [Chan.send, h]

/-- the counters of a leader's group: at most one element was ever sent -/
def LeaderChanInv (committee : List P) (me : P) (t : Int) (heardBy : List P) (g : Group P) : Prop :=
  g.notify.cap = committee.length ∧ g.newFound.cap = committee.length ∧ g.notify.blocked = 0 ∧ g.newFound.blocked = 0 ∧
  g.notify.len + g.newFound.len ≤ (if 1 ≤ t ∧ t ≤ ((arrivals committee me heardBy).length : Int) then 1 else 0)

/-- C20: while the leader's group exists, a join request (of either protocol) never blocks its stream handler: at most one
element is ever put into the channels, which have room for it. (Messages from the node to itself do not occur.) -/
theorem c20_leader_never_blocks (cd : PeerCodec P) (me : P) (gs0 gs : Groups P) (id : String) (peers : List String)
    (t : Int) (hnone : cd.str me ≠ "NONE") (hstart : createJoinPartyGroups cd me gs0 id (cd.str me) peers t = .ok gs)
    (h : List (Event P)) (hself : answers cd id (cd.str me) h = []) :
    ∃ g, own (runLeader cd me t id gs h) id = some g ∧ g.notify.blocked = 0 ∧ g.newFound.blocked = 0 ∧
      g.notify.len + g.newFound.len ≤ 1 := by
  obtain ⟨committee, hdec, rfl⟩ := createJoin_ok hstart
  set gs := Map.set gs0 id (newGroup committee me (cd.str me) t) with hgs
  suffices hs : ∃ g, own (runLeader cd me t id gs h) id = some g ∧ LeaderChanInv committee me t (heard id h) g by
    obtain ⟨g, hg, h1, h2, h3, h4, h5⟩ := hs
    refine ⟨g, hg, h3, h4, ?_⟩
    split at h5 <;> omega
  induction h using List.reverseRecOn with
  | nil =>
    refine ⟨newGroup committee me (cd.str me) t, by simp [own, runLeader, start, hgs], rfl, rfl, rfl, rfl, ?_⟩
    simp [newGroup]
  | append_singleton h e ih =>
    rw [answers_append, List.append_eq_nil_iff] at hself
    obtain ⟨g, hg, hi⟩ := ih hself.1
    obtain ⟨g', hg', hps, _⟩ := leader_GInv cd me t id gs (newGroup committee me (cd.str me) t) (by simp [hgs]) rfl h
    have hgg : g' = g := by unfold own at hg; rw [hg] at hg'; cases hg'; rfl
    subst hgg
    rw [runLeader_snoc]
    -- an update which keeps the channels
    have same : ∀ (hb : heard id [e] = []) , ∃ g, some g' = some g ∧ LeaderChanInv committee me t (heard id (h ++ [e])) g := by
      intro hb
      refine ⟨g', rfl, ?_⟩
      rw [heard_append, hb, List.append_nil]; exact hi
    -- an accepted join request
    have upd : ∀ p, heard id [e] = [p] →
        ((updatePeer g'.ps p).2 = .ok true ↔ (p ∈ committee ∧ p ≠ me ∧ p ∉ heard id h ∧
          ((arrivals committee me (heard id h ++ [p])).length : Int) = t)) := by
      intro p hp
      rw [hps]
      exact PeerBook.c18_formed_exactly_at_threshold committee me (cd.str me) t hnone (heard id h) p
    have room : ∀ p, (p ∈ committee ∧ p ≠ me ∧ p ∉ heard id h ∧
          ((arrivals committee me (heard id h ++ [p])).length : Int) = t) →
        0 < committee.length ∧ g'.notify.len = 0 ∧ g'.newFound.len = 0 ∧ 1 ≤ t := by
      rintro p ⟨h1, h2, h3, h4⟩
      obtain ⟨_, _, _, _, h5⟩ := hi
      rw [arrivals_snoc, if_pos ⟨⟨h1, h2⟩, fun hh => h3 ((mem_arrivals _ _ _ _).1 hh).1⟩] at h4
      simp at h4
      rw [if_neg (by omega)] at h5
      exact ⟨List.length_pos_of_mem h1, by omega, by omega, by omega⟩
    have grow : ∀ p, (arrivals committee me (heard id h)).length ≤ (arrivals committee me (heard id h ++ [p])).length := by
      intro p; rw [arrivals_snoc]; split <;> simp
    cases e with
    | incoming id' b =>
      simp only [leaderStep, own]
      by_cases he : id' = id
      · subst he
        unfold own at hg
        simp only [handle, hg, Map.get_set_self]
        refine ⟨_, rfl, ?_⟩
        obtain ⟨i1, i2, i3, i4, i5⟩ := hi
        cases b with
        | leaderless p =>
          have hp : heard id' [Event.incoming id' (Body.leaderless p)] = [p] := by simp [heard]
          have hu := upd p hp
          rw [heard_append, hp]
          simp only [Group.handle]
          split
          · next hres =>
            have hc := hu.1 hres
            obtain ⟨r1, r2, r3, r4⟩ := room p hc
            rw [send_ok (by omega)]
            refine ⟨i1, i2, i3, i4, ?_⟩
            have := hc.2.2.2
            rw [if_pos (by omega)]
            show g'.notify.len + (g'.newFound.len + 1) ≤ 1
            omega
          · refine ⟨i1, i2, i3, i4, ?_⟩
            have := grow p
            show g'.notify.len + g'.newFound.len ≤ _
            split at i5
            · rw [if_pos (by omega)]; omega
            · omega
        | request p =>
          have hp : heard id' [Event.incoming id' (Body.request p)] = [p] := by simp [heard]
          have hu := upd p hp
          rw [heard_append, hp]
          simp only [Group.handle]
          split
          · next hres =>
            have hc := hu.1 hres
            obtain ⟨r1, r2, r3, r4⟩ := room p hc
            rw [send_ok (by omega)]
            refine ⟨i1, i2, i3, i4, ?_⟩
            have := hc.2.2.2
            rw [if_pos (by omega)]
            show (g'.notify.len + 1) + g'.newFound.len ≤ 1
            omega
          · refine ⟨i1, i2, i3, i4, ?_⟩
            have := grow p
            show g'.notify.len + g'.newFound.len ≤ _
            split at i5
            · rw [if_pos (by omega)]; omega
            · omega
        | response p r =>
          have hl : g'.ps.leader = cd.str me := by rw [hps, psAfter_leader]; rfl
          have hne : cd.str p ≠ cd.str me := by
            intro hh
            have := hself.2
            simp [answers, hh] at this
          simp only [Group.handle, hl, hne, if_false]
          rw [heard_append]
          simp only [heard, List.append_nil]
          exact ⟨i1, i2, i3, i4, i5⟩
      · have hget : Map.get (handle cd (runLeader cd me t id gs h).groups id' b) id = some g' := by
          unfold handle
          split
          · exact hg
          · rw [Map.get_set_ne _ _ (Ne.symm he)]; exact hg
        rw [hget]
        apply same
        cases b <;> simp [heard, he]
    | other id' o =>
      obtain ⟨g2, hg2, _⟩ := GInv_other (leader_GInv cd me t id gs (newGroup committee me (cd.str me) t) (by simp [hgs]) rfl h) id' o
      have hget : Map.get (otherJoin (runLeader cd me t id gs h).groups id id' o) id = some g' := by
        unfold otherJoin
        by_cases he : id' = id
        · simp only [he, if_true]; exact hg
        · simp only [he, if_false]
          cases o with
          | none => simp only; rw [Map.get_del_ne _ (Ne.symm he)]; exact hg
          | some g3 => simp only; rw [Map.get_set_ne _ _ (Ne.symm he)]; exact hg
      simp only [leaderStep, own, hget]
      exact same rfl
    | wake σ =>
      simp only [leaderStep]
      split
      · unfold own at hg
        simp only [recvNotify, hg]
        rcases hc : g'.notify.recv with _ | c
        · simp only [own, hg]; exact same rfl
        · simp only [own, Map.get_set_self]
          refine ⟨_, rfl, ?_⟩
          obtain ⟨i1, i2, i3, i4, i5⟩ := hi
          unfold Chan.recv at hc
          rw [if_neg (by omega)] at hc
          split at hc
          · cases hc
            refine ⟨i1, i2, i3, i4, ?_⟩
            rw [heard_append]
            simp only [heard, List.append_nil]
            show (g'.notify.len - 1) + g'.newFound.len ≤ _
            omega
          · cases hc
      · unfold own at hg ⊢; rw [hg]; exact same rfl
    | timeout =>
      simp only [leaderStep]
      split <;> (unfold own at hg ⊢; simp only [hg]; exact same rfl)
    | sig s =>
      simp only [leaderStep]
      split <;> (unfold own at hg ⊢; simp only [hg]; exact same rfl)
    | step σ =>
      simp only [leaderStep]
      split <;> (unfold own at hg ⊢; simp only [hg]; exact same rfl)

/-- C20 for the leaderless protocol: no join message ever blocks its stream handler, since each member is signalled at most
once and the channels have room for the whole committee. -/
theorem c20_leaderless_never_blocks (cd : PeerCodec P) (me : P) (gs0 gs : Groups P) (id : String) (peers : List String)
    (hstr : ∀ p, cd.str p ≠ "NONE") (hstart : createJoinPartyGroups cd me gs0 id "NONE" peers 1 = .ok gs)
    (h : List (Event P)) (g : Group P) (hg : own (runRetry cd me peers.length id gs h) id = some g) :
    g.notify.blocked = 0 ∧ g.newFound.blocked = 0 := by
  obtain ⟨committee, hdec, rfl⟩ := createJoin_ok hstart
  set gs := Map.set gs0 id (newGroup committee me "NONE" 1) with hgs
  suffices hs : ∀ g, own (runRetry cd me peers.length id gs h) id = some g →
      g.notify.cap = committee.length ∧ g.newFound.cap = committee.length ∧ g.notify.blocked = 0 ∧ g.newFound.blocked = 0 ∧
      g.notify.len + g.newFound.len ≤ (arrivals committee me (heard id h)).length by
    have := hs g hg
    exact ⟨this.2.2.1, this.2.2.2.1⟩
  clear hg g
  induction h using List.reverseRecOn with
  | nil =>
    intro g hg
    simp only [own, runRetry, start, List.foldl_nil, hgs, Map.get_set_self, Option.some.injEq] at hg
    subst hg
    exact ⟨rfl, rfl, rfl, rfl, by simp [newGroup]⟩
  | append_singleton h e ih =>
    intro g hg
    have grow : ∀ p, (arrivals committee me (heard id h)).length ≤ (arrivals committee me (heard id h ++ [p])).length := by
      intro p; rw [arrivals_snoc]; split <;> simp
    have bound : ∀ l, (arrivals committee me l).length ≤ committee.length := by
      intro l
      exact (List.subperm_of_subset (nodup_arrivals _ _ _) (fun p hp => ((mem_arrivals _ _ _ _).1 hp).2.1)).length_le
    have same : ∀ g', own (runRetry cd me peers.length id gs h) id = some g' → heard id [e] = [] →
        g'.notify.cap = committee.length ∧ g'.newFound.cap = committee.length ∧ g'.notify.blocked = 0 ∧
        g'.newFound.blocked = 0 ∧
        g'.notify.len + g'.newFound.len ≤ (arrivals committee me (heard id (h ++ [e]))).length := by
      intro g' hg' hb
      rw [heard_append, hb, List.append_nil]; exact ih g' hg'
    rw [runRetry_snoc] at hg
    cases e with
    | incoming id' b =>
      by_cases he : id' = id
      · subst he
        simp only [retryStep, own, handle] at hg
        rcases hg0 : Map.get (runRetry cd me peers.length id' gs h).groups id' with _ | g0
        · rw [hg0] at hg; simp only [hg0] at hg; cases hg
        · rw [hg0] at hg
          simp only [Map.get_set_self, Option.some.injEq] at hg
          obtain ⟨i1, i2, i3, i4, i5⟩ := ih g0 hg0
          have hps : g0.ps = psAfter (newGroup committee me "NONE" 1).ps (heard id' h) := by
            rcases retry_GInv cd me peers.length id' gs (newGroup committee me "NONE" 1) (by simp [hgs]) rfl h with
              ⟨_, _, g', hg', hps, _⟩ | ⟨_, hnone⟩
            · rw [hg0] at hg'; cases hg'; exact hps
            · rw [hg0] at hnone; cases hnone
          have upd : ∀ p, (updatePeer g0.ps p).2 = .ok true →
              (arrivals committee me (heard id' h ++ [p])).length = (arrivals committee me (heard id' h)).length + 1 := by
            intro p hp
            rw [hps] at hp
            have := (PeerBook.c18_leaderless_new_peer committee me 1 (heard id' h) p).1 hp
            rw [arrivals_snoc, if_pos ⟨⟨this.1, this.2.1⟩, fun hh => this.2.2 ((mem_arrivals _ _ _ _).1 hh).1⟩]
            simp
          have hl : g0.ps.leader = "NONE" := by rw [hps, psAfter_leader]; rfl
          cases b with
          | leaderless p =>
            have hp : heard id' [Event.incoming id' (Body.leaderless p)] = [p] := by simp [heard]
            rw [heard_append, hp]
            have hgr := grow p
            have hb := bound (heard id' h ++ [p])
            simp only [Group.handle] at hg
            split at hg
            · next hres =>
              have := upd p hres
              rw [send_ok (by omega)] at hg
              subst hg
              refine ⟨i1, i2, i3, i4, ?_⟩
              show g0.notify.len + (g0.newFound.len + 1) ≤ _
              omega
            · subst hg
              refine ⟨i1, i2, i3, i4, ?_⟩
              show g0.notify.len + g0.newFound.len ≤ _
              omega
          | request p =>
            have hp : heard id' [Event.incoming id' (Body.request p)] = [p] := by simp [heard]
            rw [heard_append, hp]
            have hgr := grow p
            have hb := bound (heard id' h ++ [p])
            simp only [Group.handle] at hg
            split at hg
            · next hres =>
              have := upd p hres
              rw [send_ok (by omega)] at hg
              subst hg
              refine ⟨i1, i2, i3, i4, ?_⟩
              show (g0.notify.len + 1) + g0.newFound.len ≤ _
              omega
            · subst hg
              refine ⟨i1, i2, i3, i4, ?_⟩
              show g0.notify.len + g0.newFound.len ≤ _
              omega
          | response p r =>
            simp only [Group.handle, hl, hstr p, if_false] at hg
            subst hg
            exact same g0 hg0 (by simp [heard])
      · have hget : own (runRetry cd me peers.length id gs h) id = some g := by
          rw [← hg]
          simp only [retryStep, own, handle]
          split
          · rfl
          · rw [Map.get_set_ne _ _ (Ne.symm he)]
        exact same g hget (by cases b <;> simp [heard, he])
    | other id' o =>
      have hget : own (runRetry cd me peers.length id gs h) id = some g := by
        rw [← hg]
        simp only [retryStep, own, otherJoin]
        by_cases he : id' = id
        · simp only [he, if_true]
        · simp only [he, if_false]
          cases o with
          | none => simp only; rw [Map.get_del_ne _ (Ne.symm he)]
          | some g3 => simp only; rw [Map.get_set_ne _ _ (Ne.symm he)]
      exact same g hget rfl
    | wake σ =>
      simp only [retryStep] at hg
      split at hg
      · rcases hg0 : Map.get (runRetry cd me peers.length id gs h).groups id with _ | g0
        · simp only [recvNotify, hg0] at hg; exact same g hg rfl
        · simp only [recvNotify, hg0] at hg
          rcases hc : g0.notify.recv with _ | c
          · simp only [hc] at hg; exact same g hg rfl
          · simp only [hc, own, Map.get_set_self, Option.some.injEq] at hg
            subst hg
            obtain ⟨i1, i2, i3, i4, i5⟩ := ih g0 hg0
            unfold Chan.recv at hc
            rw [if_neg (by omega)] at hc
            split at hc
            · cases hc
              refine ⟨i1, i2, i3, i4, ?_⟩
              rw [heard_append]
              simp only [heard, List.append_nil]
              show (g0.notify.len - 1) + g0.newFound.len ≤ _
              omega
            · cases hc
      · exact same g hg rfl
    | timeout =>
      simp only [retryStep] at hg
      split at hg <;> exact same g hg rfl
    | sig s => exact same g hg rfl
    | step σ =>
      simp only [retryStep] at hg
      split at hg
      · simp [own, removePeerGroup] at hg
      · exact same g hg rfl

/-- C20 is false for a member: the second answer of the leader finds the notify channel (capacity one) full and no reader,
and the stream handler blocks. -/
theorem c20_member_blocks :
    ∃ gs, createJoinPartyGroups demoCodec 2 [] "m" "px" ["px"] 2 = .ok gs ∧
      ∃ g, own (runMember demoCodec 2 "m" gs
        [.timeout, .step keep, .incoming "m" (.response 1 ⟨.success, []⟩), .incoming "m" (.response 1 ⟨.success, []⟩)]) "m"
          = some g ∧ g.notify.blocked = 1 := by
  refine ⟨Map.set [] "m" (newGroup [1] 2 "px" 2), rfl, _, rfl, ?_⟩
  decide

/-- C20 for a member: once the wait has ended nobody reads the channel any more, so that a blocked handler stays blocked for
ever. -/
theorem c20_member_blocked_forever (cd : PeerCodec P) (t : Int) (id : String) (st : State P) (g : Group P)
    (hg : own st id = some g) (hp : st.phase ≠ .waiting) (h : List (Event P)) :
    ∃ g', own (h.foldl (memberStep cd t id) st) id = some g' ∧ g.notify.blocked ≤ g'.notify.blocked := by
  suffices hs : (h.foldl (memberStep cd t id) st).phase ≠ .waiting ∧
      ∃ g', own (h.foldl (memberStep cd t id) st) id = some g' ∧ g.notify.blocked ≤ g'.notify.blocked from hs.2
  induction h using List.reverseRecOn with
  | nil => exact ⟨hp, g, hg, Nat.le_refl _⟩
  | append_singleton h e ih =>
    rw [List.foldl_append, List.foldl_cons, List.foldl_nil]
    obtain ⟨ihp, g', hg', hle⟩ := ih
    cases e with
    | incoming id' b =>
      refine ⟨ihp, ?_⟩
      unfold own at hg'
      simp only [memberStep, own, handle]
      by_cases he : id' = id
      · subst he
        simp only [hg', Map.get_set_self]
        refine ⟨_, rfl, Nat.le_trans hle ?_⟩
        have hsend : ∀ c : Chan, c.blocked ≤ c.send.blocked := by
          intro c; unfold Chan.send; split <;> simp
        cases b with
        | leaderless p => simp only [Group.handle]; split <;> exact Nat.le_refl _
        | request p => simp only [Group.handle]; split <;> first | exact Nat.le_refl _ | exact hsend _
        | response p r => simp only [Group.handle]; split <;> first | exact Nat.le_refl _ | exact hsend _
      · refine ⟨g', ?_, hle⟩
        split
        · exact hg'
        · rw [Map.get_set_ne _ _ (Ne.symm he)]; exact hg'
    | other id' o =>
      refine ⟨ihp, g', ?_, hle⟩
      unfold own at hg' ⊢
      simp only [memberStep, otherJoin]
      by_cases he : id' = id
      · simp only [he, if_true]; exact hg'
      · simp only [he, if_false]
        cases o with
        | none => simp only; rw [Map.get_del_ne _ (Ne.symm he)]; exact hg'
        | some g3 => simp only; rw [Map.get_set_ne _ _ (Ne.symm he)]; exact hg'
    | wake σ => simp only [memberStep, ihp, if_false]; exact ⟨ihp, g', hg', hle⟩
    | timeout => simp only [memberStep, ihp, if_false]; exact ⟨ihp, g', hg', hle⟩
    | sig s => simp only [memberStep, ihp, if_false]; exact ⟨ihp, g', hg', hle⟩
    | step σ =>
      refine ⟨?_, g', ?_, hle⟩
      · simp only [memberStep]
        repeat' split
        all_goals first | exact ihp | simp
      · unfold own at hg' ⊢
        rw [memberStep_step_groups]; exact hg'

/-! ## C21 the member -/

/-- What joinPartyMember may return, in terms of the leader's answers in the history. (When it may report that the leader is not
ready: see c21_not_ready.) -/
def MemberOutcome (cd : PeerCodec P) (t : Int) (id leader : String) (h : List (Event P)) (r : Result P) : Prop :=
  (r = ⟨[], some .leaderNotReady⟩) ∨
  (r = ⟨[], some .signReceived⟩ ∧ answers cd id leader h ≠ [] ∧ Event.sig "signature received" ∈ h) ∨
  (r = ⟨[], some .decode⟩ ∧ ∃ a ∈ answers cd id leader h, ∀ l, getPeerIDs cd a.peerIDs ≠ .ok l) ∨
  (∃ l, r = ⟨l, some .notEnough⟩ ∧ (l.length : Int) < t ∧ ∃ a ∈ answers cd id leader h, getPeerIDs cd a.peerIDs = .ok l) ∨
  (∃ l, r = ⟨l, some .timeout⟩ ∧ t ≤ (l.length : Int) ∧ (∃ a ∈ answers cd id leader h, getPeerIDs cd a.peerIDs = .ok l) ∧
    ∃ b ∈ answers cd id leader h, b.typ ≠ .success) ∨
  (∃ l, r = ⟨l, none⟩ ∧ t ≤ (l.length : Int) ∧ (∃ a ∈ answers cd id leader h, getPeerIDs cd a.peerIDs = .ok l) ∧
    ∃ b ∈ answers cd id leader h, b.typ = .success)

theorem MemberOutcome.mono {cd : PeerCodec P} {t : Int} {id leader : String} {h : List (Event P)} {r : Result P}
    (hm : MemberOutcome cd t id leader h r) (h2 : List (Event P)) : MemberOutcome cd t id leader (h ++ h2) r := by
  have hsub : ∀ a, a ∈ answers cd id leader h → a ∈ answers cd id leader (h ++ h2) := by
    intro a ha; rw [answers_append]; exact List.mem_append_left _ ha
  rcases hm with h0 | ⟨h0, h1, h3⟩ | ⟨h0, a, ha, h1⟩ | ⟨l, h0, h1, a, ha, h3⟩ |
    ⟨l, h0, h1, ⟨a, ha, h3⟩, b, hb, h4⟩ | ⟨l, h0, h1, ⟨a, ha, h3⟩, b, hb, h4⟩
  · exact Or.inl h0
  · refine Or.inr (Or.inl ⟨h0, ?_, by simp [h3]⟩)
    rw [answers_append]; simp [h1]
  · exact Or.inr (Or.inr (Or.inl ⟨h0, a, hsub a ha, h1⟩))
  · exact Or.inr (Or.inr (Or.inr (Or.inl ⟨l, h0, h1, a, hsub a ha, h3⟩)))
  · exact Or.inr (Or.inr (Or.inr (Or.inr (Or.inl ⟨l, h0, h1, ⟨a, hsub a ha, h3⟩, b, hsub b hb, h4⟩))))
  · exact Or.inr (Or.inr (Or.inr (Or.inr (Or.inr ⟨l, h0, h1, ⟨a, hsub a ha, h3⟩, b, hsub b hb, h4⟩))))

/-- state invariant of the member -/
def MemberInv (cd : PeerCodec P) (t : Int) (id leader : String) (h : List (Event P)) (st : State P) : Prop :=
  (st.sigNotify = "" ∨ Event.sig st.sigNotify ∈ h) ∧
  (st.phase = .listed → t ≤ (st.list.length : Int) ∧ ∃ a ∈ answers cd id leader h, getPeerIDs cd a.peerIDs = .ok st.list) ∧
  (st.phase ≠ .done → st.result = none) ∧
  (∀ r, st.result = some r → MemberOutcome cd t id leader h r)

theorem MemberInv.keep {cd : PeerCodec P} {t : Int} {id leader : String} {h : List (Event P)} {st st' : State P}
    (hi : MemberInv cd t id leader h st) (e : Event P) (h1 : st'.sigNotify = st.sigNotify)
    (h2 : st'.phase = .listed → st.phase = .listed) (h3 : st'.list = st.list) (h4 : st'.phase ≠ .done → st.phase ≠ .done)
    (h5 : st'.result = st.result) : MemberInv cd t id leader (h ++ [e]) st' := by
  obtain ⟨i1, i2, i3, i4⟩ := hi
  refine ⟨?_, ?_, ?_, ?_⟩
  · rw [h1]
    rcases i1 with i1 | i1
    · exact Or.inl i1
    · exact Or.inr (by simp [i1])
  · intro hp
    obtain ⟨j1, a, ha, j2⟩ := i2 (h2 hp)
    rw [h3]
    exact ⟨j1, a, by rw [answers_append]; exact List.mem_append_left _ ha, j2⟩
  · intro hp; rw [h5]; exact i3 (h4 hp)
  · intro r hr; rw [h5] at hr; exact (i4 r hr).mono _

theorem member_inv (cd : PeerCodec P) (gs : Groups P) (id leader : String) (g0 : Group P) (t : Int)
    (hg : Map.get gs id = some g0) (hl : g0.ps.leader = leader) (hn : g0.leaderResponse = none) (h : List (Event P)) :
    MemberInv cd t id leader h (runMember cd t id gs h) := by
  induction h using List.reverseRecOn with
  | nil =>
    refine ⟨Or.inl rfl, ?_, ?_, ?_⟩
    · intro h; simp [runMember, start] at h
    · intro _; rfl
    · intro r hr; simp [runMember, start] at hr
  | append_singleton h e ih =>
    rw [runMember_snoc]
    cases e with
    | incoming id' b => exact ih.keep _ rfl (fun h => h) rfl (fun h => h) rfl
    | other id' b => exact ih.keep _ rfl (fun h => h) rfl (fun h => h) rfl
    | wake σ =>
      simp only [memberStep]
      split
      · next hw =>
        split
        · exact ih.keep _ rfl (fun h => h) rfl (fun h => h) rfl
        · exact ih.keep _ rfl (fun h => by cases h) rfl (fun _ => by rw [hw]; simp) rfl
      · exact ih.keep _ rfl (fun h => h) rfl (fun h => h) rfl
    | timeout =>
      simp only [memberStep]
      split
      · next hw => exact ih.keep _ rfl (fun h => by cases h) rfl (fun _ => by rw [hw]; simp) rfl
      · exact ih.keep _ rfl (fun h => h) rfl (fun h => h) rfl
    | sig s =>
      simp only [memberStep]
      split
      · next hw =>
        obtain ⟨i1, i2, i3, i4⟩ := ih
        refine ⟨Or.inr (by simp), (fun h => by cases h), ?_, ?_⟩
        · intro _; exact i3 (by rw [hw]; simp)
        · intro r hr; exact (i4 r hr).mono _
      · exact ih.keep _ rfl (fun h => h) rfl (fun h => h) rfl
    | step σ =>
      obtain ⟨g, hg', hps, hlr⟩ := member_GInv cd t id gs g0 hg hn h
      rw [hl] at hlr
      have hown : (own (runMember cd t id gs h) id).bind Group.leaderResponse = (answers cd id leader h).getLast? := by
        simp [own, hg', hlr]
      simp only [memberStep, hown]
      have ih' := ih
      obtain ⟨i1, i2, i3, i4⟩ := ih'
      rcases hans : (answers cd id leader h).getLast? with _ | a
      · simp only
        have hnil : answers cd id leader h = [] := by simpa using hans
        split
        · next hp =>
          refine ⟨?_, (fun h => by cases h), (fun h => absurd rfl h), ?_⟩
          · rcases i1 with i1 | i1
            · exact Or.inl i1
            · exact Or.inr (by simp [i1])
          · intro r hr
            simp only [Option.some.injEq] at hr
            exact Or.inl hr.symm
        · exact ih.keep _ rfl (fun h => h) rfl (fun h => h) rfl
      · have ha : a ∈ answers cd id leader h := List.mem_of_getLast? hans
        have ha' : a ∈ answers cd id leader (h ++ [Event.step σ]) := by
          rw [answers_append]; exact List.mem_append_left _ ha
        have i1' : (runMember cd t id gs h).sigNotify = "" ∨ Event.sig (runMember cd t id gs h).sigNotify ∈ h ++ [Event.step σ] := by
          rcases i1 with i1 | i1
          · exact Or.inl i1
          · exact Or.inr (by simp [i1])
        simp only
        split
        · next hp =>
          split
          · next hs =>
            refine ⟨i1', (fun h => by cases h), (fun h => absurd rfl h), ?_⟩
            intro r hr
            simp only [Option.some.injEq] at hr
            rw [hs] at i1'
            rcases i1' with i1' | i1'
            · exact absurd i1' (by decide)
            · refine Or.inr (Or.inl ⟨hr.symm, ?_, i1'⟩)
              intro hh; rw [hh] at ha'; simp at ha'
          · exact ih.keep _ rfl (fun h => by cases h) rfl (fun _ => by rw [hp]; simp) rfl
        · next hp =>
          split
          · next l hdec =>
            split
            · next hlt =>
              refine ⟨i1', (fun h => by cases h), (fun h => absurd rfl h), ?_⟩
              intro r hr
              simp only [Option.some.injEq] at hr
              exact Or.inr (Or.inr (Or.inr (Or.inl ⟨l, hr.symm, hlt, a, ha', hdec⟩)))
            · next hlt =>
              refine ⟨i1', fun _ => ⟨by simpa using hlt, a, ha', hdec⟩, ?_, ?_⟩
              · intro _; exact i3 (by rw [hp]; simp)
              · intro r hr; exact (i4 r hr).mono _
          · next hdec =>
            refine ⟨i1', (fun h => by cases h), (fun h => absurd rfl h), ?_⟩
            intro r hr
            simp only [Option.some.injEq] at hr
            exact Or.inr (Or.inr (Or.inl ⟨hr.symm, a, ha', hdec⟩))
        · next hp =>
          obtain ⟨j1, b, hb, j2⟩ := i2 hp
          have hb' : b ∈ answers cd id leader (h ++ [Event.step σ]) := by
            rw [answers_append]; exact List.mem_append_left _ hb
          split
          · next hty =>
            refine ⟨i1', (fun h => by cases h), (fun h => absurd rfl h), ?_⟩
            intro r hr
            simp only [Option.some.injEq] at hr
            exact Or.inr (Or.inr (Or.inr (Or.inr (Or.inr ⟨_, hr.symm, j1, ⟨b, hb', j2⟩, a, ha', hty⟩))))
          · next hty =>
            refine ⟨i1', (fun h => by cases h), (fun h => absurd rfl h), ?_⟩
            intro r hr
            simp only [Option.some.injEq] at hr
            exact Or.inr (Or.inr (Or.inr (Or.inr (Or.inl ⟨_, hr.symm, j1, ⟨b, hb', j2⟩, a, ha', hty⟩))))
        · exact ih.keep _ rfl (fun h => h) rfl (fun h => h) rfl

/-- C21 (partial): whatever the schedule, a member returns a nil error only with a list of at least `threshold` peers which
the leader itself sent, and only if the leader itself answered Success. Missing: the two answers are the same one, see
c21_mixed_answers. -/
theorem c21_member_outcome_partial (cd : PeerCodec P) (me : P) (gs0 gs : Groups P) (id leader : String) (t : Int)
    (hstart : createJoinPartyGroups cd me gs0 id leader [leader] t = .ok gs)
    (h : List (Event P)) (r : Result P) (hr : (runMember cd t id gs h).result = some r) :
    MemberOutcome cd t id leader h r := by
  obtain ⟨ps, hps, rfl⟩ := createJoin_ok hstart
  exact (member_inv cd _ id leader (newGroup ps me leader t) t (by simp) rfl rfl h).2.2.2 r hr

/-- C21: if the leader gives only one answer (possibly repeated), a nil error means that this answer was Success with a list
of at least `threshold` decodable peers, and that list is returned. -/
theorem c21_single_answer_partial (cd : PeerCodec P) (me : P) (gs0 gs : Groups P) (id leader : String) (t : Int)
    (hstart : createJoinPartyGroups cd me gs0 id leader [leader] t = .ok gs)
    (h : List (Event P)) (hone : ∀ a ∈ answers cd id leader h, ∀ b ∈ answers cd id leader h, a = b)
    (l : List P) (hr : (runMember cd t id gs h).result = some ⟨l, none⟩) :
    ∃ a ∈ answers cd id leader h, a.typ = .success ∧ getPeerIDs cd a.peerIDs = .ok l ∧ t ≤ (l.length : Int) := by
  rcases c21_member_outcome_partial cd me gs0 gs id leader t hstart h _ hr with h0 | ⟨h0, _⟩ | ⟨h0, _⟩ |
    ⟨l', h0, _⟩ | ⟨l', h0, _⟩ | ⟨l', h0, h1, ⟨a, ha, h2⟩, b, hb, h3⟩
  · cases h0
  · cases h0
  · cases h0
  · cases h0
  · cases h0
  · cases h0
    have := hone a ha b hb
    subst this
    exact ⟨a, ha, h3, h2, h1⟩

/-- C21: silence of the leader always gives the error "leader not reachable", whatever other peers send. -/
theorem c21_silence (cd : PeerCodec P) (me : P) (gs0 gs : Groups P) (id leader : String) (t : Int)
    (hstart : createJoinPartyGroups cd me gs0 id leader [leader] t = .ok gs)
    (h : List (Event P)) (hs : answers cd id leader h = []) (r : Result P)
    (hr : (runMember cd t id gs h).result = some r) : r = ⟨[], some .leaderNotReady⟩ := by
  rcases c21_member_outcome_partial cd me gs0 gs id leader t hstart h _ hr with h0 | ⟨h0, h1, _⟩ | ⟨h0, a, ha, _⟩ |
    ⟨l', h0, _, a, ha, _⟩ | ⟨l', h0, _, ⟨a, ha, _⟩, _⟩ | ⟨l', h0, _, ⟨a, ha, _⟩, _⟩
  · exact h0
  · exact absurd hs h1
  all_goals (rw [hs] at ha; simp at ha)

theorem member_result_stable (cd : PeerCodec P) (t : Int) (id : String) (gs : Groups P) (h h2 : List (Event P)) (r : Result P)
    (hph : (runMember cd t id gs h).phase = .done) (hr : (runMember cd t id gs h).result = some r) :
    (runMember cd t id gs (h ++ h2)).phase = .done ∧ (runMember cd t id gs (h ++ h2)).result = some r := by
  induction h2 using List.reverseRecOn with
  | nil => rw [List.append_nil]; exact ⟨hph, hr⟩
  | append_singleton h2 e ih =>
    obtain ⟨i1, i2⟩ := ih
    rw [← List.append_assoc, runMember_snoc]
    cases e with
    | incoming id' b => exact ⟨i1, i2⟩
    | other id' b => exact ⟨i1, i2⟩
    | wake σ => constructor <;> simp [memberStep, i1, i2]
    | timeout => constructor <;> simp [memberStep, i1, i2]
    | sig s => constructor <;> simp [memberStep, i1, i2]
    | step σ =>
      rcases hown : (own (runMember cd t id gs (h ++ h2)) id).bind Group.leaderResponse with _ | a <;>
        constructor <;> simp [memberStep, hown, i1, i2]

/-- C21: a member reports that the leader is not ready only if it had not heard from the leader before it returned; `h1` are the
events before that. -/
theorem c21_not_ready (cd : PeerCodec P) (me : P) (gs0 gs : Groups P) (id leader : String) (t : Int)
    (hstart : createJoinPartyGroups cd me gs0 id leader [leader] t = .ok gs) (h : List (Event P)) (l : List P)
    (hr : (runMember cd t id gs h).result = some ⟨l, some .leaderNotReady⟩) :
    ∃ h1 σ h2, h = h1 ++ .step σ :: h2 ∧ (runMember cd t id gs h1).result = none ∧
      (runMember cd t id gs (h1 ++ [.step σ])).result = some ⟨l, some .leaderNotReady⟩ ∧ answers cd id leader h1 = [] := by
  obtain ⟨ps, hps, rfl⟩ := createJoin_ok hstart
  set gs := Map.set gs0 id (newGroup ps me leader t) with hgs
  induction h using List.reverseRecOn with
  | nil => simp [runMember, start] at hr
  | append_singleton h e ih =>
    by_cases hold : (runMember cd t id gs h).result = some ⟨l, some .leaderNotReady⟩
    · obtain ⟨h1, σ, h2, hp, hh⟩ := ih hold
      exact ⟨h1, σ, h2 ++ [e], by rw [hp]; simp, hh⟩
    · have hr0 := hr
      rw [runMember_snoc] at hr
      cases e with
      | incoming id' b => exact absurd hr hold
      | other id' b => exact absurd hr hold
      | wake σ =>
        exfalso; apply hold
        simp only [memberStep] at hr
        split at hr
        · split at hr <;> exact hr
        · exact hr
      | timeout =>
        exfalso; apply hold
        simp only [memberStep] at hr
        split at hr <;> exact hr
      | sig s =>
        exfalso; apply hold
        simp only [memberStep] at hr
        split at hr <;> exact hr
      | step σ =>
        obtain ⟨-, -, i3, -⟩ := member_inv cd gs id leader (newGroup ps me leader t) t (by simp [hgs]) rfl rfl h
        obtain ⟨g, hg', -, hlr⟩ := member_GInv cd t id gs (newGroup ps me leader t) (by simp [hgs]) rfl h
        have hown : (own (runMember cd t id gs h) id).bind Group.leaderResponse = (answers cd id leader h).getLast? := by
          simp [own, hg', hlr, newGroup, NewPeerStatus]
        simp only [memberStep, hown] at hr
        split at hr
        · rename_i hans
          split at hr
          · rename_i hp
            exact ⟨h, σ, [], rfl, i3 (by rw [hp]; simp), hr0, by simpa using hans⟩
          · exact absurd hr hold
        · split at hr
          · split at hr
            · simp at hr
            · exact absurd hr hold
          · split at hr
            · split at hr
              · simp at hr
              · exact absurd hr hold
            · simp at hr
          · split at hr <;> simp at hr
          · exact absurd hr hold

/-- Witness for C21: the leader is silent until the timeout. -/
example : (runMember demoCodec 2 "m" (Map.set [] "m" (newGroup [1] 2 "px" 2)) [.timeout, .step keep,
    .incoming "m" (.response 1 ⟨.success, ["px", "pxx"]⟩)]).result = some ⟨[], some .leaderNotReady⟩ := by decide

def memberGroups : Groups Nat := Map.set [] "m" (newGroup [1] 2 "px" 2)
example : createJoinPartyGroups demoCodec 2 [] "m" "px" ["px"] 2 = .ok memberGroups := rfl

/-- Witness for C21: the leader (peer 1) announces 1, 2, 3. -/
example : (runMember demoCodec 2 "m" memberGroups [.incoming "m" (.response 3 ⟨.success, ["pxxx"]⟩),
    .incoming "m" (.response 1 ⟨.success, ["px", "pxx", "pxxx"]⟩), .wake keep, .step keep, .step keep, .step keep]).result
      = some ⟨[1, 2, 3], none⟩ := by decide

/-- C21 is false as stated: the answer is read three times. The leader first answers Timeout with the list 1, 2, 3 and,
after the list was read, Success with an empty list; the member joins 1, 2, 3, which the leader never announced as a success. -/
theorem c21_mixed_answers :
    (runMember demoCodec 2 "m" memberGroups [.incoming "m" (.response 1 ⟨.timeout, ["px", "pxx", "pxxx"]⟩), .wake keep,
      .step keep, .step keep, .incoming "m" (.response 1 ⟨.success, []⟩), .step keep]).result = some ⟨[1, 2, 3], none⟩ := by
  decide

/-! ## C22 -/

/-- C22 is false: a member notified of the signature before any answer of the leader reports "leader not reachable". -/
theorem c22_signature_reported_as_leader_failure :
    (runMember demoCodec 2 "m" memberGroups [.sig "signature received", .step keep]).result
      = some ⟨[], some .leaderNotReady⟩ := by decide

/-- C22 (partial): if the leader has answered (anything) before the member goes on, the signature notification is reported.
Missing: no answer of the leader yet. -/
theorem c22_signature_reported_partial (cd : PeerCodec P) (me : P) (gs0 gs : Groups P) (id leader : String) (t : Int)
    (hstart : createJoinPartyGroups cd me gs0 id leader [leader] t = .ok gs)
    (h : List (Event P)) (hw : (runMember cd t id gs h).phase = .waiting) (ha : answers cd id leader h ≠ []) (σ : JoinParty.Shuffle P) :
    (runMember cd t id gs (h ++ [.sig "signature received"] ++ [.step σ])).result = some ⟨[], some .signReceived⟩ := by
  obtain ⟨ps, hps, rfl⟩ := createJoin_ok hstart
  obtain ⟨g, hg', hps', hlr⟩ := member_GInv cd t id _ (newGroup ps me leader t) (Map.get_set_self _ _ _) rfl h
  rw [runMember_snoc, runMember_snoc]
  set st := runMember cd t id (Map.set gs0 id (newGroup ps me leader t)) h with hst
  have h1 : memberStep cd t id st (.sig "signature received") = { st with sigNotify := "signature received", phase := .ended } := by
    simp [memberStep, hw]
  rw [h1]
  have hlr' : g.leaderResponse = (answers cd id leader h).getLast? := hlr
  have hsome : ∃ a, g.leaderResponse = some a := by
    rw [hlr']
    rcases hh : (answers cd id leader h).getLast? with _ | a
    · simp at hh; exact absurd hh ha
    · exact ⟨a, rfl⟩
  obtain ⟨a, hsa⟩ := hsome
  simp [memberStep, own, hg', hsa]

/-- C22 for the leader: a signature notification received while waiting, and not followed by another one, makes the leader
return ErrSignReceived, and it sends no verdict. -/
theorem c22_leader_signature (cd : PeerCodec P) (me : P) (t : Int) (id : String) (gs : Groups P) (h1 h2 : List (Event P))
    (hw : (runLeader cd me t id gs h1).phase = .waiting) (hs : ∀ s, Event.sig s ∉ h2) (r : Result P)
    (hr : (runLeader cd me t id gs (h1 ++ [.sig "signature received"] ++ h2)).result = some r) :
    r = ⟨[], some .signReceived⟩ ∧ (runLeader cd me t id gs (h1 ++ [.sig "signature received"] ++ h2)).sent = none := by
  have start0 : ∀ h, (runLeader cd me t id gs h).phase ≠ .done →
      (runLeader cd me t id gs h).result = none ∧ (runLeader cd me t id gs h).sent = none := by
    intro h
    induction h using List.reverseRecOn with
    | nil => intro _; exact ⟨rfl, rfl⟩
    | append_singleton h e ih =>
      rw [runLeader_snoc]
      cases e with
      | incoming id' b => exact ih
      | other id' b => exact ih
      | wake σ =>
        simp only [leaderStep]; split
        · next hw => split <;> (intro _; exact ih (by rw [hw]; simp))
        · exact ih
      | timeout =>
        simp only [leaderStep]; split
        · next hw => intro _; exact ih (by rw [hw]; simp)
        · exact ih
      | sig s => simp only [leaderStep]; split <;> exact ih
      | step σ =>
        simp only [leaderStep]; split
        · intro h; exact absurd rfl h
        · exact ih
  have key : ∀ h2 : List (Event P), (∀ s, Event.sig s ∉ h2) →
      let st := runLeader cd me t id gs (h1 ++ [.sig "signature received"] ++ h2)
      st.sigNotify = "signature received" ∧ (st.result = none ∨ st.result = some ⟨[], some .signReceived⟩) ∧ st.sent = none := by
    intro h2
    induction h2 using List.reverseRecOn with
    | nil =>
      intro _
      rw [List.append_nil, runLeader_snoc]
      obtain ⟨a, b⟩ := start0 h1 (by rw [hw]; simp)
      simp [leaderStep, hw, a, b]
    | append_singleton h e ih =>
      intro hs
      have ih := ih (fun s hh => hs s (by simp [hh]))
      rw [← List.append_assoc, runLeader_snoc]
      cases e with
      | incoming id' b => exact ih
      | other id' b => exact ih
      | wake σ => simp only [leaderStep]; split <;> [split; skip] <;> exact ih
      | timeout => simp only [leaderStep]; split <;> exact ih
      | sig s => exact absurd (by simp) (hs s)
      | step σ =>
        simp only [leaderStep]
        split
        · obtain ⟨i1, i2, i3⟩ := ih
          simp only [leaderFinish, i1, if_true]
          exact ⟨trivial, Or.inr trivial, trivial⟩
        · exact ih
  obtain ⟨_, k2, k3⟩ := key h2 hs
  rw [hr] at k2
  rcases k2 with k2 | k2
  · cases k2
  · cases k2; exact ⟨rfl, k3⟩

/-! ## C23 leaderless -/

/-- C23: whatever the schedule, JoinPartyWithRetry returns the local peer and exactly the members heard from, each once; the
error is nil exactly when that is everybody, and ErrJoinPartyTimeout otherwise. (`h1` are the events before it returns. The committee
has no repetitions and contains the local node.) -/
theorem c23_leaderless_verdict (cd : PeerCodec P) (me : P) (gs0 gs : Groups P) (id : String) (peers : List String)
    (committee : List P) (hdec : getPeerIDs cd peers = .ok committee) (hnd : committee.Nodup) (hme : me ∈ committee)
    (hstart : createJoinPartyGroups cd me gs0 id "NONE" peers 1 = .ok gs)
    (h : List (Event P)) (r : Result P) (hr : (runRetry cd me peers.length id gs h).result = some r) :
    ∃ h1 σ h2, h = h1 ++ .step σ :: h2 ∧ (runRetry cd me peers.length id gs h1).result = none ∧
      (runRetry cd me peers.length id gs (h1 ++ [.step σ])).result = some r ∧ r.online.Nodup ∧ (∀ p, p ∈ r.online ↔ p = me ∨ (p ∈ committee ∧ p ∈ heard id h1)) ∧
      (r.err = none ∨ r.err = some .timeout) ∧
      (r.err = none ↔ ∀ p ∈ committee, p ≠ me → p ∈ heard id h1) := by
  obtain ⟨ps, hps, rfl⟩ := createJoin_ok hstart
  rw [hdec] at hps; cases hps
  have hlen : committee.length = peers.length := by
    clear hstart hr h r hme hnd
    induction peers generalizing committee with
    | nil => simp [getPeerIDs] at hdec; simp [← hdec]
    | cons x xs ih =>
      simp only [getPeerIDs] at hdec
      split at hdec
      · cases hdec
      · rw [Res.bind_eq_ok] at hdec
        obtain ⟨l, h1, h2⟩ := hdec
        cases h2
        simp [ih l h1]
  set gs := Map.set gs0 id (newGroup committee me "NONE" 1) with hgs
  induction h using List.reverseRecOn with
  | nil => simp [runRetry, start] at hr
  | append_singleton h e ih =>
    by_cases hold : (runRetry cd me peers.length id gs h).result = some r
    · obtain ⟨h1, σ, h2, hp, hh⟩ := ih hold
      exact ⟨h1, σ, h2 ++ [e], by rw [hp]; simp, hh⟩
    · have hr0 := hr
      rw [runRetry_snoc] at hr
      cases e with
      | incoming id' b => exact absurd hr hold
      | other id' b => exact absurd hr hold
      | wake σ =>
        exfalso; apply hold
        simp only [retryStep] at hr
        split at hr
        · split at hr <;> exact hr
        · exact hr
      | timeout =>
        exfalso; apply hold
        simp only [retryStep] at hr
        split at hr <;> exact hr
      | sig s => exact absurd hr hold
      | step σ =>
        simp only [retryStep] at hr
        split at hr
        · next hp =>
          simp only [Option.some.injEq] at hr
          rcases retry_GInv cd me peers.length id gs (newGroup committee me "NONE" 1) (by simp [hgs]) rfl h with
            ⟨_, hnr, g, hg, hps, _⟩ | ⟨hd, _⟩
          · have hv : visit (runRetry cd me peers.length id gs h).groups id σ = σ.f g.ps.peersResponse := by
              simp [visit, hg]
            rw [hv] at hr
            have hperm : (σ.f g.ps.peersResponse).Perm
                (PeerBook.book committee me "NONE" 1 (heard id h)).peersResponse := by
              have := σ.perm g.ps.peersResponse
              rwa [hps] at this ⊢
            have hon := PeerBook.c17_online_leaderless committee me 1 (heard id h) _ hperm
            have hpart := (PeerBook.c17_partition committee me "NONE" 1 (heard id h) _ hperm).2
            set online := (getPeersStatus (σ.f g.ps.peersResponse)).1 with honl
            have hnod : (online ++ [me]).Nodup := by
              rw [List.nodup_append]
              refine ⟨List.Nodup.of_append_left hpart, by simp, ?_⟩
              intro a ha b hb hab
              simp at hb
              exact ((hon a).1 ha).2.1 (hab.trans hb)
            have hmem : ∀ p, p ∈ online ++ [me] ↔ p = me ∨ (p ∈ committee ∧ p ∈ heard id h) := by
              intro p
              rw [List.mem_append, hon]
              by_cases hpm : p = me
              · simp [hpm]
              · simp [hpm]
            refine ⟨h, σ, [], rfl, hnr, hr0, ?_, ?_, ?_, ?_⟩
            · rw [← hr]; exact hnod
            · rw [← hr]; exact hmem
            · rw [← hr]; simp only; split <;> simp
            · rw [← hr]
              simp only
              have hsub : (online ++ [me]) ⊆ committee := by
                intro p hp
                rcases (hmem p).1 hp with h1 | h1
                · rw [h1]; exact hme
                · exact h1.1
              have hsp : (online ++ [me]).Subperm committee := List.subperm_of_subset hnod hsub
              constructor
              · intro he p hpc hpm
                split at he
                · next hl =>
                  have hp2 := hsp.perm_of_length_le (by omega)
                  have := (hmem p).1 (hp2.mem_iff.2 hpc)
                  rcases this with h1 | h1
                  · exact absurd h1 hpm
                  · exact h1.2
                · cases he
              · intro hall
                rw [if_pos]
                have hsub2 : committee ⊆ (online ++ [me]) := by
                  intro p hp
                  rw [hmem]
                  by_cases hpm : p = me
                  · exact Or.inl hpm
                  · exact Or.inr ⟨hp, hall p hp hpm⟩
                have := (List.subperm_of_subset hnd hsub2).length_le
                have := hsp.length_le
                omega
          · rw [hp] at hd; cases hd
        · exact absurd hr hold

/-- Witness for C23: node 1 of 1..3 hears 2 and 3. -/
def retryGroups : Groups Nat := Map.set [] "m" (newGroup [1, 2, 3] 1 "NONE" 1)
example : createJoinPartyGroups demoCodec 1 [] "m" "NONE" ["px", "pxx", "pxxx"] 1 = .ok retryGroups := rfl
example : (runRetry demoCodec 1 3 "m" retryGroups [.incoming "m" (.leaderless 3), .incoming "m" (.leaderless 2),
    .timeout, .step keep]).result = some ⟨[2, 3, 1], none⟩ := by decide

/-- Why C23 needs the committee to be without repetitions: with a repeated peer the verdict is a timeout although everybody
was heard from. -/
theorem c23_repeated_peer_times_out :
    (runRetry demoCodec 1 3 "m" (Map.set [] "m" (newGroup [1, 2, 2] 1 "NONE" 1)) [.incoming "m" (.leaderless 2),
      .timeout, .step keep]).result = some ⟨[2, 1], some .timeout⟩ := by decide

/-! ## C24 -/

/-- C24 holds for the leaderless protocol: when it has returned, there is no group for the message id. -/
theorem c24_leaderless_forgets_partial (cd : PeerCodec P) (me : P) (gs0 gs : Groups P) (id : String) (peers : List String)
    (hstart : createJoinPartyGroups cd me gs0 id "NONE" peers 1 = .ok gs)
    (h : List (Event P)) (r : Result P) (hr : (runRetry cd me peers.length id gs h).result = some r) :
    Map.get (runRetry cd me peers.length id gs h).groups id = none := by
  obtain ⟨ps, hps, rfl⟩ := createJoin_ok hstart
  rcases retry_GInv cd me peers.length id _ (newGroup ps me "NONE" 1) (Map.get_set_self _ _ _) rfl h with ⟨_, h2, _⟩ | ⟨_, h2⟩
  · rw [hr] at h2; cases h2
  · exact h2

/-- C24 is false for the leader: whatever happens, its group stays in the coordinator for ever. -/
theorem c24_leader_group_leaks (cd : PeerCodec P) (me : P) (gs0 gs : Groups P) (id leader : String) (peers : List String)
    (t : Int) (hstart : createJoinPartyGroups cd me gs0 id leader peers t = .ok gs) (h : List (Event P)) :
    Map.get (runLeader cd me t id gs h).groups id ≠ none := by
  obtain ⟨ps, hps, rfl⟩ := createJoin_ok hstart
  obtain ⟨g, hg, _⟩ := leader_GInv cd me t id _ (newGroup ps me leader t) (Map.get_set_self _ _ _) rfl h
  rw [hg]; simp

/-- C24 is false for a member, likewise. -/
theorem c24_member_group_leaks (cd : PeerCodec P) (me : P) (gs0 gs : Groups P) (id leader : String) (t : Int)
    (hstart : createJoinPartyGroups cd me gs0 id leader [leader] t = .ok gs) (h : List (Event P)) :
    Map.get (runMember cd t id gs h).groups id ≠ none := by
  obtain ⟨ps, hps, rfl⟩ := createJoin_ok hstart
  obtain ⟨g, hg, _⟩ := member_GInv cd t id _ (newGroup ps me leader t) (Map.get_set_self _ _ _) rfl h
  rw [hg]; simp

/-! ## C69 -/

/-- a history in which the peers use the leaderless protocol only -/
def leaderlessOnly (id : String) (h : List (Event P)) : Prop :=
  ∀ p, Event.incoming id (Body.request p) ∉ h

/-- C69 is false, for every history: as the leaderless handler signals a channel which the join call does not read, the join
call returns only after its timeout, even if everybody is online. -/
theorem c69_leaderless_waits_for_timeout (cd : PeerCodec P) (me : P) (gs0 gs : Groups P) (id : String) (peers : List String)
    (hstr : ∀ p, cd.str p ≠ "NONE")
    (hstart : createJoinPartyGroups cd me gs0 id "NONE" peers 1 = .ok gs)
    (h : List (Event P)) (hl : leaderlessOnly id h) (r : Result P)
    (hr : (runRetry cd me peers.length id gs h).result = some r) : Event.timeout ∈ h := by
  obtain ⟨ps, hps, rfl⟩ := createJoin_ok hstart
  set gs := Map.set gs0 id (newGroup ps me "NONE" 1) with hgs
  suffices hs : Event.timeout ∈ h ∨ ((runRetry cd me peers.length id gs h).phase = .waiting ∧
      (runRetry cd me peers.length id gs h).result = none ∧
      ∃ g, Map.get (runRetry cd me peers.length id gs h).groups id = some g ∧ g.notify.len = 0 ∧ g.notify.blocked = 0 ∧
        g.ps.leader = "NONE") by
    rcases hs with hs | ⟨_, hs, _⟩
    · exact hs
    · rw [hr] at hs; cases hs
  clear hr
  induction h using List.reverseRecOn with
  | nil => right; exact ⟨rfl, rfl, newGroup ps me "NONE" 1, by simp [runRetry, start, hgs], rfl, rfl, rfl⟩
  | append_singleton h e ih =>
    rcases ih (fun p hp => hl p (by simp [hp])) with ih | ⟨h1, h2, g, hg, h3, h4, h5⟩
    · left; simp [ih]
    · rw [runRetry_snoc]
      cases e with
      | incoming id' b =>
        right
        refine ⟨h1, h2, ?_⟩
        simp only [retryStep, handle]
        by_cases he : id' = id
        · subst he
          simp only [hg, Map.get_set_self]
          refine ⟨_, rfl, ?_⟩
          cases b with
          | leaderless p =>
            have hl2 : (updatePeer g.ps p).1.leader = "NONE" := by rw [updatePeer_leader, h5]
            simp only [Group.handle]; split <;> exact ⟨h3, h4, hl2⟩
          | request p => exact absurd (by simp) (hl p)
          | response p r => simp only [Group.handle, h5, hstr p, if_false]; exact ⟨h3, h4, trivial⟩
        · refine ⟨g, ?_, h3, h4, h5⟩
          split
          · exact hg
          · rw [Map.get_set_ne _ _ (Ne.symm he)]; exact hg
      | other id' o =>
        right
        refine ⟨h1, h2, g, ?_, h3, h4, h5⟩
        simp only [retryStep, otherJoin]
        by_cases he : id' = id
        · simp only [he, if_true]; exact hg
        · simp only [he, if_false]
          cases o with
          | none => simp only; rw [Map.get_del_ne _ (Ne.symm he)]; exact hg
          | some g3 => simp only; rw [Map.get_set_ne _ _ (Ne.symm he)]; exact hg
      | wake σ =>
        right
        have hrn : recvNotify (runRetry cd me peers.length id gs h).groups id = none := by
          simp [recvNotify, hg, Chan.recv, h3, h4]
        simp only [retryStep, hrn]
        split <;> exact ⟨h1, h2, g, hg, h3, h4, h5⟩
      | timeout => left; simp
      | sig s => right; exact ⟨h1, h2, g, hg, h3, h4, h5⟩
      | step σ =>
        right
        simp only [retryStep, h1]
        exact ⟨h1, h2, g, hg, h3, h4, h5⟩

/-- Witness for C69: everybody is online, the select cannot proceed, only the timeout ends the wait. -/
example : (runRetry demoCodec 1 3 "m" retryGroups [.incoming "m" (.leaderless 3), .incoming "m" (.leaderless 2),
    .wake keep, .step keep]).result = none := by decide

/-- C69 (partial): if the peers answer by the leader protocol's request message, the wait can end as soon as all are online. -/
theorem c69_request_wakes_partial :
    (runRetry demoCodec 1 3 "m" retryGroups [.incoming "m" (.leaderless 3), .incoming "m" (.request 2),
      .wake keep, .step keep]).result = some ⟨[2, 3, 1], none⟩ := by decide

end Verif.Props.Join
