import Verif.Model.JoinTimer
import Verif.Props.C19_C24
import Mathlib.Tactic.Ring

/-! # C111: joining a party ends within the configured time -/
set_option linter.unusedSectionVars false
namespace Verif.Props.JoinTime
open Verif.Go Verif.Peers Verif.JoinParty Verif.JoinTimer Verif.Spec Verif.Props.Join

variable {P : Type} [DecidableEq P]

section generic
variable (step : State P → Event P → State P) (hasSig : Bool) (id : String)

/-- how often the select took a case -/
def turns : State P → List (Nat × Event P) → Nat
  | _, [] => 0
  | st, (_, e) :: l => (if taken hasSig id st e then 1 else 0) + turns (step st e) l

theorem turns_snoc : ∀ (st : State P) (h : List (Nat × Event P)) (x : Nat × Event P),
    turns step hasSig id st (h ++ [x]) =
      turns step hasSig id st h + (if taken hasSig id ((untimed h).foldl step st) x.2 then 1 else 0)
  | st, [], x => by simp [turns, untimed]
  | st, (t, e) :: h, x => by
    have := turns_snoc (step st e) h x
    simp only [List.cons_append, turns, this]
    rw [Nat.add_assoc]
    rfl

theorem not_waiting_foldl (hstay : ∀ st e, st.phase ≠ .waiting → (step st e).phase ≠ .waiting) :
    ∀ (l : List (Event P)) (st : State P), st.phase ≠ .waiting → (l.foldl step st).phase ≠ .waiting
  | [], _, h => h
  | e :: l, st, h => not_waiting_foldl hstay l _ (hstay st e h)

/-- whatever happens while the call waits happens within one period for each turn of its loop -/
theorem timely_bound (hstay : ∀ st e, st.phase ≠ .waiting → (step st e).phase ≠ .waiting) (T : Nat) :
    ∀ (h : List (Nat × Event P)) (armed : Nat) (st : State P) (t : Nat) (e : Event P),
      Timely step hasSig id T armed st (h ++ [(t, e)]) → ((untimed h).foldl step st).phase = .waiting →
      armed ≤ t ∧ t ≤ armed + (1 + turns step hasSig id st h) * T
  | [], armed, st, t, e, hT, hw => by
    obtain ⟨h0, h1, -⟩ := hT
    have := (h1 hw).1
    simp only [turns]
    omega
  | (t', e') :: h, armed, st, t, e, hT, hw => by
    obtain ⟨h0, h1, h2⟩ := hT
    have hst : st.phase = .waiting := by
      by_contra hne
      exact not_waiting_foldl step hstay (untimed ((t', e') :: h)) st hne hw
    obtain ⟨h3, h4⟩ := timely_bound hstay T h _ _ t e h2 hw
    obtain ⟨h5, -⟩ := h1 hst
    simp only [turns]
    cases hk : taken hasSig id st e' with
    | false =>
      rw [hk] at h3 h4
      simp only [Bool.false_eq_true, if_false] at h3 h4 ⊢
      exact ⟨h3, by rwa [Nat.zero_add]⟩
    | true =>
      rw [hk] at h3 h4
      simp only [if_true] at h3 h4 ⊢
      refine ⟨by omega, ?_⟩
      calc t ≤ t' + (1 + turns step hasSig id (step st e') h) * T := h4
        _ ≤ armed + T + (1 + turns step hasSig id (step st e') h) * T := by omega
        _ = armed + (1 + (1 + turns step hasSig id (step st e') h)) * T := by ring

end generic

/-! ## The three kinds of calls -/

/-- the timed histories of a leader's, a member's and a leaderless call that began to wait at time `t₀` -/
def LeaderTimely (cd : PeerCodec P) (me : P) (threshold : Int) (id : String) (gs : Groups P) (T t₀ : Nat) (h : List (Nat × Event P)) : Prop :=
  Timely (leaderStep cd me threshold id) true id T t₀ (start gs) h
@[inherit_doc LeaderTimely]
def MemberTimely (cd : PeerCodec P) (threshold : Int) (id : String) (gs : Groups P) (T t₀ : Nat) (h : List (Nat × Event P)) : Prop :=
  Timely (memberStep cd threshold id) true id T t₀ (start gs) h
@[inherit_doc LeaderTimely]
def RetryTimely (cd : PeerCodec P) (me : P) (npeers : Nat) (id : String) (gs : Groups P) (T t₀ : Nat) (h : List (Nat × Event P)) : Prop :=
  Timely (retryStep cd me npeers id) false id T t₀ (start gs) h

/-- notices on the signature channel -/
def notices (h : List (Nat × Event P)) : Nat := h.countP fun e => match e.2 with | .sig _ => true | _ => false

/-- join requests of the protocol with a leader for message `id` -/
def requests (id : String) (h : List (Nat × Event P)) : Nat :=
  h.countP fun e => match e.2 with | .incoming id' (.request _) => decide (id' = id) | _ => false

theorem member_stay (cd : PeerCodec P) (threshold : Int) (id : String) (st : State P) (e : Event P) (h : st.phase ≠ .waiting) :
    (memberStep cd threshold id st e).phase ≠ .waiting := by
  cases e with
  | incoming id' b => exact h
  | other id' g => exact h
  | wake σ => simp only [memberStep, if_neg h]; exact h
  | timeout => simp only [memberStep, if_neg h]; exact h
  | sig s => simp only [memberStep, if_neg h]; exact h
  | step σ =>
    simp only [memberStep]
    rcases (own st id).bind JoinParty.Group.leaderResponse with _ | r
    · dsimp only; split
      · simp
      · exact h
    · dsimp only
      rcases hp : st.phase <;> simp only
      · exact absurd hp h
      · split <;> simp
      · rcases getPeerIDs cd r.peerIDs <;> simp only
        · split <;> simp
        · simp
        · simp
      · split <;> simp
      · rw [hp]; simp

theorem leader_stay (cd : PeerCodec P) (me : P) (threshold : Int) (id : String) (st : State P) (e : Event P) (h : st.phase ≠ .waiting) :
    (leaderStep cd me threshold id st e).phase ≠ .waiting := by
  cases e with
  | incoming id' b => exact h
  | other id' g => exact h
  | wake σ => simp only [leaderStep, if_neg h]; exact h
  | timeout => simp only [leaderStep, if_neg h]; exact h
  | sig s => simp only [leaderStep, if_neg h]; exact h
  | step σ =>
    simp only [leaderStep]
    split
    · simp
    · exact h

theorem retry_stay (cd : PeerCodec P) (me : P) (npeers : Nat) (id : String) (st : State P) (e : Event P) (h : st.phase ≠ .waiting) :
    (retryStep cd me npeers id st e).phase ≠ .waiting := by
  cases e with
  | incoming id' b => exact h
  | other id' g => exact h
  | wake σ => simp only [retryStep, if_neg h]; exact h
  | timeout => simp only [retryStep, if_neg h]; exact h
  | sig s => exact h
  | step σ =>
    simp only [retryStep]
    split
    · simp
    · exact h

/-- the select of a member takes one case only -/
theorem member_taken (cd : PeerCodec P) (threshold : Int) (id : String) (st : State P) (e : Event P)
    (h : taken true id st e = true) : (memberStep cd threshold id st e).phase ≠ .waiting := by
  cases e with
  | incoming id' b => cases h
  | other id' g => cases h
  | step σ => cases h
  | timeout =>
    simp only [taken, decide_eq_true_eq] at h
    simp [memberStep, h]
  | sig s =>
    simp only [taken, Bool.and_true, decide_eq_true_eq] at h
    simp [memberStep, h]
  | wake σ =>
    simp only [taken, Bool.and_eq_true, decide_eq_true_eq] at h
    obtain ⟨h1, h2⟩ := h
    obtain ⟨gs, hgs⟩ := Option.isSome_iff_exists.1 h2
    simp [memberStep, h1, hgs]

/-- **C111, member**: while a member's join call waits, no more than the configured time has passed since it began to wait. (The timer then
ends the wait: `c111_member_ends`.) -/
theorem c111_member (cd : PeerCodec P) (threshold : Int) (id : String) (gs : Groups P) (T t₀ : Nat) (h : List (Nat × Event P)) (t : Nat)
    (e : Event P) (hT : MemberTimely cd threshold id gs T t₀ (h ++ [(t, e)]))
    (hw : (runMember cd threshold id gs (untimed h)).phase = .waiting) : t ≤ t₀ + T := by
  have hb := (timely_bound _ true id (member_stay cd threshold id) T h t₀ (start gs) t e hT hw).2
  have h0 : turns (memberStep cd threshold id) true id (start gs) h = 0 := by
    clear hT hb
    induction h using List.reverseRecOn with
    | nil => rfl
    | append_singleton h x ih =>
      have hsn : runMember cd threshold id gs (untimed (h ++ [x])) = memberStep cd threshold id (runMember cd threshold id gs (untimed h)) x.2 := by
        simp [runMember, untimed, List.foldl_append]
      rw [hsn] at hw
      rw [turns_snoc, ih (by
        by_contra hne
        exact member_stay cd threshold id _ _ hne hw)]
      cases hk : taken true id ((untimed h).foldl (memberStep cd threshold id) (start gs)) x.2 with
      | false => rfl
      | true => exact absurd hw (member_taken cd threshold id _ _ hk)
  rw [h0] at hb
  omega

/-- turns of a leader's loop that did not end the wait come from its signature channel -/
theorem leader_turns (cd : PeerCodec P) (me : P) (threshold : Int) (id : String) (gs : Groups P) (h : List (Nat × Event P))
    (hw : (runLeader cd me threshold id gs (untimed h)).phase = .waiting) :
    turns (leaderStep cd me threshold id) true id (start gs) h = notices h := by
  induction h using List.reverseRecOn with
  | nil => rfl
  | append_singleton h x ih =>
    obtain ⟨t, e⟩ := x
    have hsn : runLeader cd me threshold id gs (untimed (h ++ [(t, e)])) =
        leaderStep cd me threshold id (runLeader cd me threshold id gs (untimed h)) e := by
      simp [runLeader, untimed, List.foldl_append]
    rw [hsn] at hw
    have hw' : (runLeader cd me threshold id gs (untimed h)).phase = .waiting := by
      by_contra hne
      exact leader_stay cd me threshold id _ _ hne hw
    have hrun : (untimed h).foldl (leaderStep cd me threshold id) (start gs) = runLeader cd me threshold id gs (untimed h) := rfl
    rw [turns_snoc, ih hw', hrun]
    have hn : notices (h ++ [(t, e)]) = notices h + notices [(t, e)] := by simp [notices]
    rw [hn]
    generalize runLeader cd me threshold id gs (untimed h) = st at hw hw'
    cases e with
    | incoming id' b => rfl
    | other id' g => rfl
    | step σ => rfl
    | timeout => simp [leaderStep, hw'] at hw
    | sig s => simp [taken, hw', notices]
    | wake σ =>
      rcases hr : recvNotify st.groups id with _ | gs'
      · simp [taken, hr, notices]
      · simp [leaderStep, hw', hr] at hw

/-- **C111, leader (partial)**: while a leader's join call waits, no more than the configured time has passed since it began to wait or since the
last notice on its signature channel. -/
theorem c111_leader_partial (cd : PeerCodec P) (me : P) (threshold : Int) (id : String) (gs : Groups P) (T t₀ : Nat)
    (h : List (Nat × Event P)) (t : Nat) (e : Event P) (hT : LeaderTimely cd me threshold id gs T t₀ (h ++ [(t, e)]))
    (hw : (runLeader cd me threshold id gs (untimed h)).phase = .waiting) : t ≤ t₀ + (1 + notices h) * T := by
  have hb := (timely_bound _ true id (leader_stay cd me threshold id) T h t₀ (start gs) t e hT hw).2
  rwa [leader_turns cd me threshold id gs h hw] at hb

/-- **C111, leader of a key generation**: without notices (nothing is ever sent on the channel a `Keygen` call passes) the leader waits at most the
configured time. -/
theorem c111_leader_keygen (cd : PeerCodec P) (me : P) (threshold : Int) (id : String) (gs : Groups P) (T t₀ : Nat)
    (h : List (Nat × Event P)) (t : Nat) (e : Event P) (hT : LeaderTimely cd me threshold id gs T t₀ (h ++ [(t, e)]))
    (hn : ∀ t' s, (t', Event.sig s) ∉ h)
    (hw : (runLeader cd me threshold id gs (untimed h)).phase = .waiting) : t ≤ t₀ + T := by
  have hb := c111_leader_partial cd me threshold id gs T t₀ h t e hT hw
  have h0 : notices h = 0 := by
    unfold notices
    rw [List.countP_eq_zero]
    rintro ⟨t', e'⟩ hm
    cases e' with
    | sig s => exact absurd hm (hn t' s)
    | _ => simp
  rw [h0] at hb
  omega

/-- the elements in a channel and at its door -/
def load (c : Chan) : Nat := c.len + c.blocked

theorem load_send (c : Chan) : load c.send = load c + 1 := by
  unfold load Chan.send; split <;> simp <;> omega

theorem load_recv {c c' : Chan} (h : c.recv = some c') : load c' + 1 = load c := by
  unfold Chan.recv at h
  unfold load
  split at h
  · cases h; simp; omega
  · split at h
    · cases h; simp; omega
    · cases h

theorem handle_load (cd : PeerCodec P) (g : JoinParty.Group P) (b : Body P) (hb : ∀ p r, b = .response p r → cd.str p ≠ g.ps.leader) :
    load (g.handle cd b).notify = load g.notify + (match b with | .request p => (if (updatePeer g.ps p).2 = .ok true then 1 else 0) | _ => 0) ∧
    load (g.handle cd b).newFound = load g.newFound + (match b with | .leaderless p => (if (updatePeer g.ps p).2 = .ok true then 1 else 0) | _ => 0) := by
  cases b with
  | leaderless p =>
    simp only [JoinParty.Group.handle]
    split
    · next h => rw [if_pos h]; exact ⟨rfl, load_send _⟩
    · next h => rw [if_neg (by simpa using h)]; exact ⟨rfl, rfl⟩
  | request p =>
    simp only [JoinParty.Group.handle]
    split
    · next h => rw [if_pos h]; exact ⟨load_send _, rfl⟩
    · next h => rw [if_neg (by simpa using h)]; exact ⟨rfl, rfl⟩
  | response p r =>
    simp only [JoinParty.Group.handle, if_neg (hb p r rfl)]
    exact ⟨rfl, rfl⟩

/-- in a leaderless call every turn of the loop and every element waiting in a channel is due to another member heard of -/
theorem retry_turns (cd : PeerCodec P) (me : P) (npeers : Nat) (gs0 : Groups P) (id : String) (committee : List P)
    (hstr : ∀ p, cd.str p ≠ "NONE") (h : List (Nat × Event P)) :
    let gs := Map.set gs0 id (newGroup committee me "NONE" 1)
    let st := runRetry cd me npeers id gs (untimed h)
    st.phase = .waiting → ∃ g, Map.get st.groups id = some g ∧
      turns (retryStep cd me npeers id) false id (start gs) h + load g.notify ≤ requests id h ∧
      turns (retryStep cd me npeers id) false id (start gs) h + load g.notify + load g.newFound ≤
        (arrivals committee me (heard id (untimed h))).length := by
  intro gs st hw
  have hgs : Map.get gs id = some (newGroup committee me "NONE" 1) := by simp [gs]
  subst st
  induction h using List.reverseRecOn with
  | nil => exact ⟨_, hgs, by simp [turns, load, newGroup, requests], by simp [turns, load, newGroup]⟩
  | append_singleton h x ih =>
    obtain ⟨t, e⟩ := x
    have hun : untimed (h ++ [(t, e)]) = untimed h ++ [e] := by simp [untimed]
    rw [hun, runRetry_snoc] at hw
    rw [hun, runRetry_snoc]
    have hw' : (runRetry cd me npeers id gs (untimed h)).phase = .waiting := by
      by_contra hne
      exact retry_stay cd me npeers id _ _ hne hw
    obtain ⟨g, hg, h1, h2⟩ := ih hw'
    have hrun : (untimed h).foldl (retryStep cd me npeers id) (start gs) = runRetry cd me npeers id gs (untimed h) := rfl
    have hps : g.ps = psAfter (newGroup committee me "NONE" 1).ps (heard id (untimed h)) := by
      rcases retry_GInv cd me npeers id gs (newGroup committee me "NONE" 1) hgs rfl (untimed h) with ⟨_, _, g', hg', hps, _⟩ | ⟨_, hnone⟩
      · rw [hg] at hg'; cases hg'; exact hps
      · rw [hg] at hnone; cases hnone
    rw [turns_snoc, hrun]
    have hreq : requests id (h ++ [(t, e)]) = requests id h + requests id [(t, e)] := by simp [requests]
    rw [hreq, heard_append]
    generalize hst : runRetry cd me npeers id gs (untimed h) = st at hw hw' hg ⊢
    cases e with
    | incoming id' b =>
      simp only [taken, Bool.false_eq_true, if_false, Nat.add_zero]
      by_cases he : id' = id
      · subst he
        refine ⟨g.handle cd b, by simp [retryStep, JoinParty.handle, hg], ?_⟩
        have hl : g.ps.leader = "NONE" := by rw [hps, psAfter_leader]; rfl
        obtain ⟨l1, l2⟩ := handle_load cd g b (fun p r _ => by rw [hl]; exact hstr p)
        rw [l1, l2]
        have upd : ∀ p, (updatePeer g.ps p).2 = .ok true →
            (arrivals committee me (heard id' (untimed h) ++ [p])).length = (arrivals committee me (heard id' (untimed h))).length + 1 := by
          intro p hp
          rw [hps] at hp
          have := (PeerBook.c18_leaderless_new_peer committee me 1 (heard id' (untimed h)) p).1 hp
          rw [arrivals_snoc, if_pos ⟨⟨this.1, this.2.1⟩, fun hh => this.2.2 ((mem_arrivals _ _ _ _).1 hh).1⟩]
          simp
        have grow : ∀ p, (arrivals committee me (heard id' (untimed h))).length ≤
            (arrivals committee me (heard id' (untimed h) ++ [p])).length := by
          intro p; rw [arrivals_snoc]; split <;> simp
        cases b with
        | leaderless p =>
          have hp : heard id' [Event.incoming id' (Body.leaderless p)] = [p] := by simp [heard]
          rw [hp]
          dsimp only
          refine ⟨by omega, ?_⟩
          have := grow p
          split
          · next hu => have := upd p hu; omega
          · omega
        | request p =>
          have hp : heard id' [Event.incoming id' (Body.request p)] = [p] := by simp [heard]
          have hq : requests id' [(t, Event.incoming id' (Body.request p))] = 1 := by simp [requests]
          rw [hp, hq]
          dsimp only
          have := grow p
          split
          · next hu => have := upd p hu; omega
          · omega
        | response p r =>
          have hp : heard id' [Event.incoming id' (Body.response p r)] = [] := by simp [heard]
          rw [hp, List.append_nil]
          dsimp only
          exact ⟨by omega, by omega⟩
      · refine ⟨g, ?_, ?_, ?_⟩
        · simp only [retryStep, JoinParty.handle]
          split
          · exact hg
          · rw [Map.get_set_ne _ _ (Ne.symm he)]; exact hg
        · omega
        · have : heard id [Event.incoming id' b] = [] := by cases b <;> simp [heard, he]
          rw [this, List.append_nil]; exact h2
    | other id' o =>
      simp only [taken, Bool.false_eq_true, if_false, Nat.add_zero]
      refine ⟨g, ?_, by omega, by simpa [heard] using h2⟩
      simp only [retryStep, otherJoin]
      by_cases he : id' = id
      · simp only [he, if_true]; exact hg
      · simp only [he, if_false]
        cases o with
        | none => simp only; rw [Map.get_del_ne _ (Ne.symm he)]; exact hg
        | some g3 => simp only; rw [Map.get_set_ne _ _ (Ne.symm he)]; exact hg
    | wake σ =>
      simp only [retryStep, hw', if_true]
      rcases hc : g.notify.recv with _ | c
      · have hrn : recvNotify st.groups id = none := by simp [recvNotify, hg, hc]
        simp only [taken, hrn, Option.isSome_none, Bool.and_false, Bool.false_eq_true, if_false, Nat.add_zero]
        exact ⟨g, hg, by omega, by simpa [heard] using h2⟩
      · have hrn : recvNotify st.groups id = some (Map.set st.groups id { g with notify := c }) := by simp [recvNotify, hg, hc]
        simp only [taken, hw', hrn, Option.isSome_some, decide_true, Bool.and_true, if_true]
        have := load_recv hc
        refine ⟨{ g with notify := c }, by simp, ?_, ?_⟩
        · show _ + 1 + load c ≤ _
          omega
        · simp only [heard, List.append_nil]
          show _ + 1 + load c + load g.newFound ≤ _
          omega
    | timeout => simp [retryStep, hw'] at hw
    | sig s =>
      simp only [taken, Bool.and_false, Bool.false_eq_true, if_false, Nat.add_zero]
      exact ⟨g, hg, by omega, by simpa [heard] using h2⟩
    | step σ =>
      simp only [taken, Bool.false_eq_true, if_false, Nat.add_zero]
      refine ⟨g, ?_, by omega, by simpa [heard] using h2⟩
      simp [retryStep, hw', hg]

theorem getPeerIDs_length (cd : PeerCodec P) : ∀ (l : List String) (r : List P), getPeerIDs cd l = .ok r → r.length = l.length
  | [], r, h => by cases h; rfl
  | s :: l, r, h => by
    simp only [getPeerIDs] at h
    split at h
    · cases h
    · rcases hl : getPeerIDs cd l with r' | m | _
      · rw [hl] at h
        cases h
        simp [getPeerIDs_length cd l r' hl]
      · rw [hl] at h; cases h
      · rw [hl] at h; cases h

/-- **C111, leaderless (partial)**: while a leaderless join call waits, no more than the configured time times one more than the number of *leader
protocol* requests that came in has passed; these count at most once for each other member. -/
theorem c111_leaderless_partial (cd : PeerCodec P) (me : P) (gs0 gs : Groups P) (id : String) (peers : List String)
    (hstr : ∀ p, cd.str p ≠ "NONE") (hstart : createJoinPartyGroups cd me gs0 id "NONE" peers 1 = .ok gs) (T t₀ : Nat)
    (h : List (Nat × Event P)) (t : Nat) (e : Event P) (hT : RetryTimely cd me peers.length id gs T t₀ (h ++ [(t, e)]))
    (hw : (runRetry cd me peers.length id gs (untimed h)).phase = .waiting) :
    t ≤ t₀ + (1 + requests id h) * T ∧ t ≤ t₀ + (1 + peers.length) * T := by
  obtain ⟨committee, hdec, rfl⟩ := createJoin_ok hstart
  have hb := (timely_bound _ false id (retry_stay cd me peers.length id) T h t₀ _ t e hT hw).2
  obtain ⟨g, -, h1, h2⟩ := retry_turns cd me peers.length gs0 id committee hstr h hw
  have bound : (arrivals committee me (heard id (untimed h))).length ≤ committee.length :=
    (List.subperm_of_subset (nodup_arrivals _ _ _) (fun p hp => ((mem_arrivals _ _ _ _).1 hp).2.1)).length_le
  have hlen : committee.length = peers.length := getPeerIDs_length cd peers committee hdec
  set n := turns (retryStep cd me peers.length id) false id (start (Map.set gs0 id (newGroup committee me "NONE" 1))) h
  constructor
  · refine hb.trans (Nat.add_le_add_left (Nat.mul_le_mul_right _ ?_) _); omega
  · refine hb.trans (Nat.add_le_add_left (Nat.mul_le_mul_right _ ?_) _); omega

/-- **C111, leaderless**: if its peers speak the leaderless protocol, the call waits at most the configured time. -/
theorem c111_leaderless (cd : PeerCodec P) (me : P) (gs0 gs : Groups P) (id : String) (peers : List String)
    (hstr : ∀ p, cd.str p ≠ "NONE") (hstart : createJoinPartyGroups cd me gs0 id "NONE" peers 1 = .ok gs) (T t₀ : Nat)
    (h : List (Nat × Event P)) (t : Nat) (e : Event P) (hT : RetryTimely cd me peers.length id gs T t₀ (h ++ [(t, e)]))
    (hl : leaderlessOnly id (untimed h))
    (hw : (runRetry cd me peers.length id gs (untimed h)).phase = .waiting) : t ≤ t₀ + T := by
  have hb := (c111_leaderless_partial cd me gs0 gs id peers hstr hstart T t₀ h t e hT hw).1
  have h0 : requests id h = 0 := by
    unfold requests
    rw [List.countP_eq_zero]
    rintro ⟨t', e'⟩ hm
    have hm' : e' ∈ untimed h := List.mem_map.2 ⟨_, hm, rfl⟩
    cases e' with
    | incoming id' b =>
      cases b with
      | request p =>
        simp only [decide_eq_true_eq]
        rintro rfl
        exact hl p hm'
      | _ => simp
    | _ => simp
  rw [h0] at hb
  omega

/-! ## The timer ends the wait -/

/-- **C111, the call returns**: when the timer of a waiting call fires, the call goes on and returns, whatever has happened before. -/
theorem c111_leader_returns (cd : PeerCodec P) (me : P) (threshold : Int) (id : String) (gs : Groups P) (h : List (Event P)) (σ : JoinParty.Shuffle P)
    (hw : (runLeader cd me threshold id gs h).phase = .waiting) :
    (runLeader cd me threshold id gs (h ++ [.timeout, .step σ])).result.isSome := by
  have : runLeader cd me threshold id gs (h ++ [.timeout, .step σ]) =
      leaderStep cd me threshold id (leaderStep cd me threshold id (runLeader cd me threshold id gs h) .timeout) (.step σ) := by
    simp [runLeader, List.foldl_append]
  rw [this]
  simp [leaderStep, hw]

@[inherit_doc c111_leader_returns]
theorem c111_member_returns (cd : PeerCodec P) (threshold : Int) (id : String) (gs : Groups P) (h : List (Event P)) (σ : JoinParty.Shuffle P)
    (hw : (runMember cd threshold id gs h).phase = .waiting) :
    (runMember cd threshold id gs (h ++ [.timeout, .step σ, .step σ, .step σ])).result.isSome := by
  have : runMember cd threshold id gs (h ++ [.timeout, .step σ, .step σ, .step σ]) =
      memberStep cd threshold id (memberStep cd threshold id (memberStep cd threshold id
        (memberStep cd threshold id (runMember cd threshold id gs h) .timeout) (.step σ)) (.step σ)) (.step σ) := by
    simp [runMember, List.foldl_append]
  rw [this]
  generalize runMember cd threshold id gs h = st at hw
  have h1 : memberStep cd threshold id st .timeout = { st with phase := .ended } := by simp [memberStep, hw]
  rw [h1]
  rcases hl : (own st id).bind JoinParty.Group.leaderResponse with _ | r
  · have hs : ∀ (st' : State P), st'.groups = st.groups → st'.phase = .done → memberStep cd threshold id st' (.step σ) = st' := by
      intro st' hg hp
      have : (own st' id).bind JoinParty.Group.leaderResponse = none := by rw [← hl]; simp [own, hg]
      simp [memberStep, this, hp]
    have h2 : memberStep cd threshold id { st with phase := .ended } (.step σ) =
        { st with phase := .done, result := some ⟨[], some .leaderNotReady⟩ } := by
      have : (own { st with phase := .ended } id).bind JoinParty.Group.leaderResponse = none := by rw [← hl]; rfl
      simp [memberStep, this]
    rw [h2, hs ⟨_, .done, _, _, _, _⟩ rfl rfl, hs ⟨_, .done, _, _, _, _⟩ rfl rfl]
    rfl
  · have hlr : ∀ (st' : State P), st'.groups = st.groups → (own st' id).bind JoinParty.Group.leaderResponse = some r := by
      intro st' hg; rw [← hl]; simp [own, hg]
    have hs : ∀ (st' : State P), st'.groups = st.groups → st'.phase = .done → memberStep cd threshold id st' (.step σ) = st' := by
      intro st' hg hp
      simp [memberStep, hlr st' hg, hp]
    have h2 : memberStep cd threshold id { st with phase := .ended } (.step σ) =
        if st.sigNotify = "signature received" then { st with phase := .done, result := some ⟨[], some .signReceived⟩ }
        else { st with phase := .checked } := by
      simp only [memberStep]
      rw [hlr { st with phase := .ended } rfl]
    rw [h2]
    split
    · rw [hs ⟨_, .done, _, _, _, _⟩ rfl rfl, hs ⟨_, .done, _, _, _, _⟩ rfl rfl]
      rfl
    · have h3 : memberStep cd threshold id { st with phase := .checked } (.step σ) =
          match getPeerIDs cd r.peerIDs with
          | .ok pIDs =>
            if (pIDs.length : Int) < threshold then { st with phase := .done, result := some ⟨pIDs, some .notEnough⟩ }
            else { st with phase := .listed, list := pIDs }
          | _ => { st with phase := .done, result := some ⟨[], some .decode⟩ } := by
        simp only [memberStep]
        rw [hlr { st with phase := .checked } rfl]
        dsimp only
        rcases getPeerIDs cd r.peerIDs <;> rfl
      rw [h3]
      rcases getPeerIDs cd r.peerIDs with pIDs | m | _
      · dsimp only
        split
        · rw [hs] <;> rfl
        · simp only [memberStep]
          rw [hlr { st with phase := .listed, list := pIDs } rfl]
          dsimp only
          split <;> rfl
      · rw [hs] <;> rfl
      · rw [hs] <;> rfl

@[inherit_doc c111_leader_returns]
theorem c111_leaderless_returns (cd : PeerCodec P) (me : P) (npeers : Nat) (id : String) (gs : Groups P) (h : List (Event P)) (σ : JoinParty.Shuffle P)
    (hw : (runRetry cd me npeers id gs h).phase = .waiting) :
    (runRetry cd me npeers id gs (h ++ [.timeout, .step σ])).result.isSome := by
  have : runRetry cd me npeers id gs (h ++ [.timeout, .step σ]) =
      retryStep cd me npeers id (retryStep cd me npeers id (runRetry cd me npeers id gs h) .timeout) (.step σ) := by
    simp [runRetry, List.foldl_append]
  rw [this]
  simp [retryStep, hw]

/-! ## Cases -/

/-- a member that hears nothing waits until its timer fires, and not longer -/
def silent : List (Nat × Event Nat) := [(3, .incoming "other" (.request 4)), (10, .timeout)]
example : MemberTimely demoCodec 2 "m" memberGroups 10 0 silent := by
  simp [MemberTimely, Timely, silent, taken, start, memberStep]
example : (runMember demoCodec 2 "m" memberGroups (untimed silent)).phase = .ended := by decide
example : ∀ t, 10 < t → ¬ MemberTimely demoCodec 2 "m" memberGroups 10 0 [(3, .incoming "other" (.request 4)), (t, .timeout)] := by
  intro t ht h
  have := c111_member demoCodec 2 "m" memberGroups 10 0 [(3, .incoming "other" (.request 4))] t .timeout h (by decide)
  omega

/-- a leader that is waiting when a notice arrives at time 7 -/
def noticed : List (Nat × Event Nat) := [(2, .incoming "m" (.request 3)), (7, .sig "signature generated"), (16, .incoming "m" (.request 9))]

/-- **C111 is false for a leader that gets a notice**: with a configured time of 10, begun at time 0, the leader still waits at time 17. -/
theorem c111_leader_waits_longer :
    LeaderTimely demoCodec 1 2 "m" demoGroups 10 0 (noticed ++ [(17, .timeout)]) ∧
    (runLeader demoCodec 1 2 "m" demoGroups (untimed noticed)).phase = .waiting := by
  refine ⟨?_, by decide⟩
  simp [LeaderTimely, Timely, noticed, taken, start, leaderStep]

/-- a leaderless call which one of its three peers asks by the protocol with a leader -/
def strayed : List (Nat × Event Nat) := [(8, .incoming "m" (.request 3)), (8, .wake keep), (16, .incoming "m" (.leaderless 2))]

/-- **C111 is false for a leaderless call that a peer asks by the other protocol**: with a configured time of 10, begun at time 0, it still waits
at time 18. -/
theorem c111_leaderless_waits_longer :
    RetryTimely demoCodec 1 4 "m" (Map.set [] "m" (newGroup [1, 2, 3, 4] 1 "NONE" 1)) 10 0 (strayed ++ [(18, .timeout)]) ∧
    (runRetry demoCodec 1 4 "m" (Map.set [] "m" (newGroup [1, 2, 3, 4] 1 "NONE" 1)) (untimed strayed)).phase = .waiting := by
  refine ⟨?_, by decide⟩
  have h1 : taken false "m" (retryStep demoCodec 1 4 "m" (start (Map.set [] "m" (newGroup [1, 2, 3, 4] 1 "NONE" 1)))
    (.incoming "m" (.request 3))) (.wake keep) = true := by decide
  have h2 : (retryStep demoCodec 1 4 "m" (retryStep demoCodec 1 4 "m" (start (Map.set [] "m" (newGroup [1, 2, 3, 4] 1 "NONE" 1)))
    (.incoming "m" (.request 3))) (.wake keep)).phase = .waiting := by decide
  simp only [RetryTimely, strayed, List.cons_append, List.nil_append, Timely, h1, if_true]
  refine ⟨by omega, fun _ => ⟨by omega, fun h => by cases h⟩, by simp [taken], fun _ => ⟨by simp [taken], fun h => by cases h⟩, by omega,
    fun _ => ⟨by omega, fun h => by cases h⟩, by simp [taken], fun _ => ⟨by simp [taken], fun _ => by simp [taken]⟩, trivial⟩

end Verif.Props.JoinTime
