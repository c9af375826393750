import Verif.Lemmas.Session
import Verif.Spec.DemoSession

/-!
# C72, C73: what a session sends while it processes messages, and which answers it accepts
-/
set_option linter.unusedSectionVars false
namespace Verif.Props.Sent
open Verif.Go Verif.Conversion Verif.Messages Verif.Blame Verif.TssCommon Verif.Threshold Verif.Spec

variable {K P : Type} [DecidableEq K] [DecidableEq P]

/-- Specification: the type of the confirmation of a share that came in a message of type `t` -/
def confirmType (t : MsgType) : MsgType := if t = TSSKeyGenMsg then TSSKeyGenVerMsg else TSSKeySignVerMsg

/-- Specification: `x` is a confirmation of a signed broadcast message received, with its digest, for all peers of the session except the
owner of the message -/
def IsConfirmation (env : Env K P) (m : Manager K P) (h : List (Event P)) (x : Sent P) : Prop :=
  ∃ e ∈ h, ∃ t w i owner, Delivers env e t w ∧ Signed env m.partyIDMap w ∧ w.sender = some i ∧ w.isBroadcast = true ∧
    Map.get m.partyIDtoP2PID i = some owner ∧
    x.payload = .confirm (confirmType t) (cacheKey i w.roundInfo) (env.hash w.message) ∧
    ∀ p, p ∈ x.peers ↔ p ∈ env.p2pPeers ∧ p ≠ owner

/-- Specification: `x` is a request for the message with digest `d` of some round, to different peers, at least threshold - 1, who all
have reported that very digest for that round -/
def IsRequest (env : Env K P) (m : Manager K P) (h : List (Event P)) (d : String) (x : Sent P) : Prop :=
  ∃ key t th, x.payload = .control ⟨d, key, t, none⟩ ∧ (t = TSSKeyGenMsg ∨ t = TSSKeySignMsg) ∧
    GetThreshold m.partyIDMap.length = .ok th ∧ x.peers.Nodup ∧ th - 1 ≤ (x.peers.length : Int) ∧
    ∀ p ∈ x.peers, Voted env m.partyIDMap h p key d

/-- Specification: `x` is the answer to a request received, to the requester only, with a broadcast message of the requested round that was received,
is signed and has won its vote -/
def IsAnswer (env : Env K P) (m : Manager K P) (h : List (Event P)) (x : Sent P) : Prop :=
  ∃ e ∈ h, ∃ peer c w i, Requests env e peer c ∧ x = ⟨.control { c with msg := some w }, [peer]⟩ ∧
    (∃ e' ∈ h, Carries env e' w) ∧ Signed env m.partyIDMap w ∧ Quorum env m h w ∧ w.sender = some i ∧ w.isBroadcast = true ∧
    c.reqKey = cacheKey i w.roundInfo

theorem IsConfirmation.mono {env : Env K P} {m : Manager K P} {h : List (Event P)} {x : Sent P} (e : Event P)
    (hx : IsConfirmation env m h x) : IsConfirmation env m (h ++ [e]) x := by
  obtain ⟨e', he, r⟩ := hx
  exact ⟨e', by simp [he], r⟩

theorem IsRequest.mono {env : Env K P} {m : Manager K P} {h : List (Event P)} {d : String} {x : Sent P} (e : Event P)
    (hx : IsRequest env m h d x) : IsRequest env m (h ++ [e]) d x := by
  obtain ⟨key, t, th, h1, h2, h3, h4, h5, h6⟩ := hx
  exact ⟨key, t, th, h1, h2, h3, h4, h5, fun p hp => (h6 p hp).mono e⟩

theorem IsAnswer.mono {env : Env K P} {m : Manager K P} {h : List (Event P)} {x : Sent P} (e : Event P)
    (hx : IsAnswer env m h x) : IsAnswer env m (h ++ [e]) x := by
  obtain ⟨e', he, peer, c, w, i, h1, h2, ⟨e'', he2, h3⟩, h4, h5, h6⟩ := hx
  exact ⟨e', by simp [he], peer, c, w, i, h1, h2, ⟨e'', by simp [he2], h3⟩, h4, h5.mono e, h6⟩

theorem stepJob_sent (env : Env K P) (id : Nat) (s : St K P) :
    (stepJob env id s).sent = s.sent ∧ (stepJob env id s).mgr.requested = s.mgr.requested := by
  unfold stepJob
  split
  · exact ⟨rfl, rfl⟩
  · split
    · exact ⟨rfl, rfl⟩
    · refine ⟨rfl, ?_⟩
      simp only [Manager.updateAcceptShare]
      split <;> rfl
    · unfold processInvalidMsgBlame
      dsimp only
      split <;> exact ⟨rfl, rfl⟩

/-- the voters asked -/
theorem voters_spec {env : Env K P} {m : Manager K P} {h : List (Event P)} {key d : String} {item : Item P} {t : Int}
    (hg : GoodItem env m h key item) (hd : ∃ σ, getMsgHash σ item t = .ok d) (o : Shuffle (P × String)) :
    (((o.f item.confirmed).filter (fun e => e.2 = d)).map Prod.fst).Nodup ∧
    t - 1 ≤ ((((o.f item.confirmed).filter (fun e => e.2 = d)).map Prod.fst).length : Int) ∧
    ∀ p ∈ ((o.f item.confirmed).filter (fun e => e.2 = d)).map Prod.fst, Voted env m.partyIDMap h p key d := by
  obtain ⟨σ, hσ⟩ := hd
  obtain ⟨h1, -, -⟩ := getMsgHash_ok σ item t d hσ
  have hperm := o.perm item.confirmed
  refine ⟨?_, ?_, ?_⟩
  · have hwf : ((o.f item.confirmed).map Prod.fst).Nodup := (hperm.map Prod.fst).nodup_iff.2 hg.wf
    exact hwf.sublist (List.filter_sublist.map _)
  · rw [List.length_map, (hperm.filter _).length_eq]
    have : ((item.confirmed.map Prod.snd).count d) = (item.confirmed.filter (fun e => e.2 = d)).length := by
      rw [List.count, List.countP_map, List.countP_eq_length_filter]
      congr 1
    rw [← this]; exact h1
  · intro p hp
    obtain ⟨e, he, rfl⟩ := List.mem_map.1 hp
    obtain ⟨he1, he2⟩ := List.mem_filter.1 he
    have he2 : e.2 = d := by simpa using he2
    have : Map.get item.confirmed e.1 = some e.2 := Map.get_of_mem hg.wf ((o.mem).1 he1)
    rw [he2] at this
    exact hg.votes _ _ this

/-- C72. Everything a session sends while processing a history of messages is a confirmation of a message it received, a request for a missing
message to those who have it, or an answer to a request with a message that has won its vote. -/
theorem c72_sent (env : Env K P) (m : Manager K P) (hm : m.storedMsg = []) (h : List (Event P)) (x : Sent P)
    (hx : x ∈ (run env (newTssCommon m) h).sent) :
    IsConfirmation env m h x ∨ (∃ d, IsRequest env m h d x) ∨ IsAnswer env m h x := by
  refine run_invariant_good env m (fun h s => ∀ x ∈ s.sent, IsConfirmation env m h x ∨ (∃ d, IsRequest env m h d x) ∨ IsAnswer env m h x)
    (by simp [newTssCommon]) ?_ ?_ h x hx
  · intro h e s hI x hx
    rcases hI x hx with h1 | ⟨d, h1⟩ | h1
    · exact Or.inl (h1.mono e)
    · exact Or.inr (Or.inl ⟨d, h1.mono e⟩)
    · exact Or.inr (Or.inr (h1.mono e))
  · intro h e s s' hg hI hmic
    cases hmic with
    | work id => rw [(stepJob_sent env id s).1]; exact hI
    | ask key item t d mt o hk hn ht hd hmt =>
      intro x hx
      rcases List.mem_append.1 hx with hx | hx
      · exact hI x hx
      · obtain rfl := List.mem_singleton.1 hx
        obtain ⟨h1, h2, h3⟩ := voters_spec (hg.cache key item hk) hd o
        exact Or.inr (Or.inl ⟨d, key, mt, t, rfl, hmt, by rw [← hg.ids]; exact ht, h1, h2, h3⟩)
    | sendConfirm mt w i peer hw hs hi hb hp =>
      intro x hx
      rcases List.mem_append.1 hx with hx | hx
      · exact hI x hx
      · obtain rfl := List.mem_singleton.1 hx
        refine Or.inl ⟨e, by simp, mt, w, i, peer, hw, by rw [← hg.ids]; exact hs, hi, hb, by rw [← hg.peers]; exact hp, ?_, ?_⟩
        · obtain ⟨_, _, _, _, _, _, hmt, _⟩ := hw
          rcases hmt with rfl | rfl <;> rfl
        · intro p; simp
    | sendAnswer peer c w hc hw =>
      intro x hx
      rcases List.mem_append.1 hx with hx | hx
      · exact hI x hx
      · obtain rfl := List.mem_singleton.1 hx
        obtain ⟨hj, hb, i, hi, hkey⟩ := hg.stored hm _ w hw
        exact Or.inr (Or.inr ⟨e, by simp, peer, c, w, i, hc, rfl, hj.carried, hj.signed, hj.quorum hb, hi, hb, hkey⟩)
    | queue => exact hI
    | arrive => exact hI
    | vote => exact hI
    | blameOwner => exact hI
    | blameSplit => exact hI
    | dropMsg => exact hI
    | store => exact hI
    | unicast => exact hI
    | forget => exact hI
    | askSilent => exact hI
    | answer => exact hI
    | done => exact hI
    | crash => exact hI

/-- the example network: member 1's broadcast, its confirmation, a request for it and the answer -/
def netS : DemoNet where
  wires := [bcast 1 [5]]
  confirms := [⟨none, "1-R", demoHash [5]⟩]
  bulks := [([5], [inner 1 [50]])]
  controls := [⟨demoHash [5], "1-R", 0, some (bcast 1 [5])⟩, ⟨demoHash [5], "1-R", 0, none⟩]

/-- all three kinds of messages are sent: requests to those who confirmed, ... -/
example : (run (demoEnv netS 10) (newTssCommon (demoManager 0)) [recv 2 0 12, recv 2 0 13]).sent =
    [⟨.control ⟨demoHash [5], "1-R", 0, none⟩, [12]⟩, ⟨.control ⟨demoHash [5], "1-R", 0, none⟩, [12, 13]⟩] := by decide +kernel

/-- ... a confirmation and an answer -/
example : (run (demoEnv netS 10 [11, 12, 13]) (newTssCommon (demoManager 0)) [recv 0 0 11, recv 2 0 12, recv 4 1 13]).sent =
    [⟨.confirm 2 "1-R" (demoHash [5]), [12, 13]⟩, ⟨.control ⟨demoHash [5], "1-R", 0, some (bcast 1 [5])⟩, [13]⟩] := by decide +kernel

/-- Specification: at least threshold - 1 different peers have reported the digest `d` for one and the same round message -/
def Reported (env : Env K P) (m : Manager K P) (h : List (Event P)) (d : String) : Prop :=
  ∃ (key : String) (voters : List P) (th : Int), GetThreshold m.partyIDMap.length = .ok th ∧ voters.Nodup ∧ th - 1 ≤ (voters.length : Int) ∧
    ∀ p ∈ voters, Voted env m.partyIDMap h p key d

theorem shareSet_requested (m : Manager K P) (d d' : String) :
    Map.get (m.shareSet d).requested d' = if d' = d then some true else Map.get m.requested d' := by
  simp only [Manager.shareSet, Map.get_set]

theorem requested_only_true (env : Env K P) (m : Manager K P) (hm : m.requested = []) (h : List (Event P)) :
    ∀ d v, Map.get (run env (newTssCommon m) h).mgr.requested d = some v → v = true ∧ Reported env m h d := by
  refine run_invariant_good env m (fun h s => ∀ d v, Map.get s.mgr.requested d = some v → v = true ∧ Reported env m h d)
    (by simp [newTssCommon, hm]) ?_ ?_ h
  · intro h e s hI d v hd
    obtain ⟨h1, key, voters, th, h2, h3, h4, h5⟩ := hI d v hd
    exact ⟨h1, key, voters, th, h2, h3, h4, fun p hp => (h5 p hp).mono e⟩
  · intro h e s s' hg hI hmic
    have ask : ∀ (key : String) (item : Item P) (t : Int) (d : String), Map.get s.cache key = some item →
        GetThreshold s.mgr.partyIDMap.length = .ok t → (∃ σ, getMsgHash σ item t = .ok d) →
        ∀ d' v, Map.get (s.mgr.shareSet d).requested d' = some v → v = true ∧ Reported env m (h ++ [e]) d' := by
      intro key item t d hk ht hd d' v hv
      rw [shareSet_requested] at hv
      split at hv
      · rename_i he
        subst he
        obtain ⟨h1, h2, h3⟩ := voters_spec (hg.cache key item hk) hd (Shuffle.id _)
        exact ⟨by simpa using hv.symm, key, _, t, by rw [← hg.ids]; exact ht, h1, h2, h3⟩
      · exact hI d' v hv
    cases hmic with
    | work id => rw [(stepJob_sent env id s).2]; exact hI
    | ask key item t d mt o hk hn ht hd hmt => exact ask key item t d hk ht hd
    | askSilent key item t d hk hn ht hd ho => exact ask key item t d hk ht hd
    | sendConfirm => exact hI
    | sendAnswer => exact hI
    | queue => exact hI
    | arrive => exact hI
    | vote => exact hI
    | blameOwner => exact hI
    | blameSplit => exact hI
    | dropMsg => exact hI
    | store => exact hI
    | unicast w i peer hs hi hp hb =>
      intro d v hd
      apply hI d v
      have : (s.mgr.setLastUnicastPeer peer w.roundInfo).requested = s.mgr.requested := by
        simp only [Manager.setLastUnicastPeer]; split <;> rfl
      simpa [this] using hd
    | forget => exact hI
    | answer d₀ =>
      intro d v hd
      simp only [Manager.queryAndDelete, Map.get_del] at hd
      split at hd
      · cases hd
      · exact hI d v hd
    | done => exact hI
    | crash => exact hI

theorem del_of_none {α β : Type} [DecidableEq α] {m : Map α β} {k : α} (h : Map.get m k = none) : Map.del m k = m := by
  induction m with
  | nil => rfl
  | cons p m ih =>
    obtain ⟨k', v⟩ := p
    by_cases hk : k' = k
    · simp [Map.get, hk] at h
    · simp [Map.get, hk] at h
      simp [Map.del, hk]
      exact ih h

/-- an answer nobody asked for changes nothing -/
theorem unasked (env : Env K P) (s : St K P) (e : Event P) (c : Control) (he : Answers env e c)
    (hn : Map.get s.mgr.requested c.reqHash = none) : step env s e = s := by
  obtain ⟨raw, peer, sch, pl, w, rfl, hraw, hc, hw⟩ := he
  unfold step
  split
  · rfl
  · have h1 : ¬ (TSSControlMsg = TSSKeyGenMsg ∨ TSSControlMsg = TSSKeySignMsg) := by decide
    have h2 : ¬ (TSSControlMsg = TSSKeyGenVerMsg ∨ TSSControlMsg = TSSKeySignVerMsg) := by decide
    have h3 : ¬ (TSSControlMsg = TSSTaskDone) := by decide
    simp only [hraw, ProcessOneMessage, if_neg h1, if_neg h2, if_neg h3, if_pos, hc, hw, Manager.queryAndDelete, hn, Option.getD_none,
      Bool.false_eq_true, if_false, del_of_none hn]

/-- C73, unsolicited answers. A message that answers a request for the digest `d` changes nothing, unless at least threshold - 1 different
peers have reported this digest for one round message. -/
theorem c73_unsolicited (env : Env K P) (m : Manager K P) (hm : m.requested = []) (h : List (Event P)) (e : Event P) (c : Control)
    (he : Answers env e c) (hn : ¬ Reported env m h c.reqHash) : run env (newTssCommon m) (h ++ [e]) = run env (newTssCommon m) h := by
  have : run env (newTssCommon m) (h ++ [e]) = step env (run env (newTssCommon m) h) e := by simp [run]
  rw [this]
  apply unasked env _ e c he
  rcases hg : Map.get (run env (newTssCommon m) h).mgr.requested c.reqHash with _ | v
  · rfl
  · exact absurd (requested_only_true env m hm h _ _ hg).2 hn

/-- Specification: a request for the digest `d` -/
def requestFor (d : String) (x : Sent P) : Prop := ∃ key t, x.payload = .control ⟨d, key, t, none⟩

theorem unasked_micros (env : Env K P) (e : Event P) (ho : ¬ OddAnswer env e) (d : String) (n : Nat) {s s' : St K P} (hm : Micros env e s s')
    (h : n ≤ s.sent.length ∧ (Map.get s.mgr.requested d = none ∨ ∃ x ∈ s.sent.drop n, requestFor d x)) :
    n ≤ s'.sent.length ∧ (Map.get s'.mgr.requested d = none ∨ ∃ x ∈ s'.sent.drop n, requestFor d x) := by
  induction hm with
  | refl => exact h
  | @tail s₁ s₂ _ hmic ih =>
    have app : ∀ y, n ≤ (s₁.sent ++ [y]).length ∧ ((Map.get s₁.mgr.requested d = none) ∨ ∃ x ∈ (s₁.sent ++ [y]).drop n, requestFor d x) := by
      intro y
      refine ⟨by simp; omega, ?_⟩
      rcases ih.2 with h1 | ⟨x, hx, h1⟩
      · exact Or.inl h1
      · exact Or.inr ⟨x, by rw [List.drop_append_of_le_length ih.1]; simp [hx], h1⟩
    cases hmic with
    | work id => rw [(stepJob_sent env id s₁).1, (stepJob_sent env id s₁).2]; exact ih
    | ask key item t d' mt o hk hn ht hd hmt =>
      refine ⟨(app _).1, ?_⟩
      by_cases hdd : d = d'
      · subst hdd
        refine Or.inr ⟨⟨.control ⟨d, key, mt, none⟩, ((o.f item.confirmed).filter (fun e => e.2 = d)).map Prod.fst⟩, ?_, key, mt, rfl⟩
        dsimp only
        rw [List.drop_append_of_le_length ih.1]
        exact List.mem_append_right _ (List.mem_singleton.2 rfl)
      · dsimp only
        rw [shareSet_requested, if_neg hdd]
        exact (app _).2
    | askSilent key item t d' hk hn ht hd ho' => exact absurd ho' ho
    | sendConfirm => exact app _
    | sendAnswer => exact app _
    | queue => exact ih
    | arrive => exact ih
    | vote => exact ih
    | blameOwner => exact ih
    | blameSplit => exact ih
    | dropMsg => exact ih
    | store => exact ih
    | unicast w i peer hs hi hp hb =>
      have : (s₁.mgr.setLastUnicastPeer peer w.roundInfo).requested = s₁.mgr.requested := by
        simp only [Manager.setLastUnicastPeer]; split <;> rfl
      dsimp only
      rw [this]; exact ih
    | forget => exact ih
    | answer d₀ =>
      refine ⟨ih.1, ?_⟩
      rcases ih.2 with h1 | h1
      · refine Or.inl ?_
        simp only [Manager.queryAndDelete, Map.get_del]
        split
        · rfl
        · exact h1
      · exact Or.inr h1
    | done => exact ih
    | crash => exact ih

/-- after an answer for `d` was processed, the request is gone or a new one was sent -/
theorem answered (env : Env K P) (s : St K P) (hc0 : s.crashed = false) (e : Event P) (c : Control) (he : Answers env e c)
    (ho : ¬ OddAnswer env e) :
    s.sent.length ≤ (step env s e).sent.length ∧
    (Map.get (step env s e).mgr.requested c.reqHash = none ∨ ∃ x ∈ (step env s e).sent.drop s.sent.length, requestFor c.reqHash x) := by
  obtain ⟨raw, peer, sch, pl, w, rfl, hraw, hc, hw⟩ := he
  have h1 : ¬ (TSSControlMsg = TSSKeyGenMsg ∨ TSSControlMsg = TSSKeySignMsg) := by decide
  have h2 : ¬ (TSSControlMsg = TSSKeyGenVerMsg ∨ TSSControlMsg = TSSKeySignVerMsg) := by decide
  have h3 : ¬ (TSSControlMsg = TSSTaskDone) := by decide
  have base : s.sent.length ≤ ({ s with mgr := (s.mgr.queryAndDelete c.reqHash).1 } : St K P).sent.length ∧
      (Map.get ({ s with mgr := (s.mgr.queryAndDelete c.reqHash).1 } : St K P).mgr.requested c.reqHash = none ∨
        ∃ x ∈ ({ s with mgr := (s.mgr.queryAndDelete c.reqHash).1 } : St K P).sent.drop s.sent.length, requestFor c.reqHash x) := by
    refine ⟨Nat.le_refl _, Or.inl ?_⟩
    simp [Manager.queryAndDelete]
  have hpl : Plain env (.msg raw peer sch) c.requestType := by
    by_cases hp : c.requestType ∈ [TSSKeyGenMsg, TSSKeySignMsg, TSSKeyGenVerMsg, TSSKeySignVerMsg]
    · exact Or.inl hp
    · exact absurd ⟨c, ⟨raw, peer, sch, pl, w, rfl, hraw, hc, hw⟩, hp⟩ ho
  have hmic := processTSSMsg_micro env (.msg raw peer sch) sch w c.requestType true { s with mgr := (s.mgr.queryAndDelete c.reqHash).1 }
    ⟨raw, peer, sch, _, pl, rfl, hraw, Or.inr ⟨rfl, c, hc, hw⟩⟩ (fun h => by cases h) hpl
  have hfin := unasked_micros env _ ho c.reqHash s.sent.length hmic base
  unfold step
  rw [if_neg (by rw [hc0]; exact Bool.false_ne_true)]
  by_cases hq : (s.mgr.queryAndDelete c.reqHash).2 = true
  · simp only [hraw, ProcessOneMessage, if_neg h1, if_neg h2, if_neg h3, if_pos, hc, hw, if_pos hq]
    rcases hp : processTSSMsg env sch w c.requestType true { s with mgr := (s.mgr.queryAndDelete c.reqHash).1 } with ⟨s1, r⟩
    rw [hp] at hfin
    cases r <;> exact hfin
  · simp only [hraw, ProcessOneMessage, if_neg h1, if_neg h2, if_neg h3, if_pos, hc, hw, if_neg hq]
    exact base

theorem unasked_run (env : Env K P) (d : String) (n : Nat) (h : List (Event P)) (ho : ∀ e ∈ h, ¬ OddAnswer env e) (s : St K P)
    (hs : n ≤ s.sent.length ∧ (Map.get s.mgr.requested d = none ∨ ∃ x ∈ s.sent.drop n, requestFor d x)) :
    n ≤ (run env s h).sent.length ∧ (Map.get (run env s h).mgr.requested d = none ∨ ∃ x ∈ (run env s h).sent.drop n, requestFor d x) := by
  induction h generalizing s with
  | nil => exact hs
  | cons e h ih =>
    have : run env s (e :: h) = run env (step env s e) h := by simp [run]
    rw [this]
    exact ih (fun e' he' => ho e' (by simp [he'])) _ (unasked_micros env e (ho e (by simp)) d n (step_micro env s e) hs)

theorem step_crashed (env : Env K P) (s : St K P) (e : Event P) (h : s.crashed = true) : step env s e = s := by
  unfold step; rw [if_pos h]

/-- C73, repeated answers. After an answer for the digest `d` was received, later answers for `d` change nothing as long as the node has not
sent another request for `d`.

Missing: no answer in this part of the history may name a message type that no request names; see `c73_odd_answer`. -/
theorem c73_once_partial (env : Env K P) (m : Manager K P) (h h₂ : List (Event P)) (e e' : Event P) (c c' : Control)
    (he : Answers env e c) (he' : Answers env e' c') (hd : c'.reqHash = c.reqHash) (ho : ∀ x ∈ e :: h₂, ¬ OddAnswer env x)
    (hno : ∀ x ∈ (run env (newTssCommon m) (h ++ e :: h₂)).sent.drop (run env (newTssCommon m) h).sent.length, ¬ requestFor c.reqHash x) :
    run env (newTssCommon m) (h ++ e :: h₂ ++ [e']) = run env (newTssCommon m) (h ++ e :: h₂) := by
  have h1 : run env (newTssCommon m) (h ++ e :: h₂ ++ [e']) = step env (run env (newTssCommon m) (h ++ e :: h₂)) e' := by simp [run]
  rw [h1]
  by_cases hcr : (run env (newTssCommon m) (h ++ e :: h₂)).crashed = true
  · exact step_crashed _ _ _ hcr
  · have h2 : run env (newTssCommon m) (h ++ e :: h₂) = run env (step env (run env (newTssCommon m) h) e) h₂ := by simp [run]
    by_cases hcr0 : (run env (newTssCommon m) h).crashed = true
    · exfalso
      apply hcr
      rw [h2, step_crashed _ _ _ hcr0]
      clear h1 h2 hno hcr ho
      induction h₂ with
      | nil => exact hcr0
      | cons a l ih =>
        have : run env (run env (newTssCommon m) h) (a :: l) = run env (run env (newTssCommon m) h) l := by
          show List.foldl _ _ _ = _
          rw [List.foldl_cons, step_crashed _ _ _ hcr0]; rfl
        rw [this]; exact ih
    · have ha := answered env (run env (newTssCommon m) h) (by simpa using hcr0) e c he (ho e (by simp))
      have hr := unasked_run env c.reqHash _ h₂ (fun x hx => ho x (by simp [hx])) _ ha
      rw [← h2] at hr
      apply unasked env _ e' c' he'
      rw [hd]
      rcases hr.2 with h3 | ⟨x, hx, h3⟩
      · exact h3
      · exact absurd h3 (hno x hx)

/-- the session state changes when the requested answer arrives, and not when it arrives again or without a request -/
example : (run (demoEnv netS 10) (newTssCommon (demoManager 0)) [recv 2 0 12, recv 2 0 13, recv 4 0 12]).log.length = 1 ∧
    (run (demoEnv netS 10) (newTssCommon (demoManager 0)) [recv 4 0 12]).log = [] := by decide +kernel

example : Answers (demoEnv netS 10) (recv 4 0 12) ⟨demoHash [5], "1-R", 0, some (bcast 1 [5])⟩ := ⟨_, _, _, _, _, rfl, rfl, rfl, rfl⟩

example : run (demoEnv netS 10) (newTssCommon (demoManager 0)) [recv 4 0 12] = newTssCommon (demoManager 0) := by
  refine c73_unsolicited (demoEnv netS 10) (demoManager 0) rfl [] (recv 4 0 12) _ ⟨_, _, _, _, _, rfl, rfl, rfl, rfl⟩ ?_
  rintro ⟨key, voters, th, ht, -, hl, hv⟩
  rcases voters with _ | ⟨p, _⟩
  · have : th = 2 := by
      have h2 : GetThreshold (demoManager 0 : Manager Nat Nat).partyIDMap.length = .ok 2 := by decide +kernel
      rw [h2] at ht; cases ht; rfl
    simp [this] at hl
  · have := hv p (by simp)
    simp [Voted, Confirms] at this

example : run (demoEnv netS 10) (newTssCommon (demoManager 0)) [recv 2 0 12, recv 2 0 13, recv 4 0 12, recv 4 0 13] =
    run (demoEnv netS 10) (newTssCommon (demoManager 0)) [recv 2 0 12, recv 2 0 13, recv 4 0 12] := by
  refine c73_once_partial (demoEnv netS 10) (demoManager 0) [recv 2 0 12, recv 2 0 13] [] (recv 4 0 12) (recv 4 0 13) _ _
    ⟨_, _, _, _, _, rfl, rfl, rfl, rfl⟩ ⟨_, _, _, _, _, rfl, rfl, rfl, rfl⟩ rfl ?_ ?_
  · rintro x hx ⟨c, ⟨raw, peer, sch, pl, w, he, hr, hc, hw⟩, ho⟩
    obtain rfl := List.mem_singleton.1 hx
    cases he; cases hr; cases hc
    exact ho (by decide)
  · have : (run (demoEnv netS 10) (newTssCommon (demoManager 0)) ([recv 2 0 12, recv 2 0 13] ++ [recv 4 0 12])).sent.drop
        (run (demoEnv netS 10) (newTssCommon (demoManager 0)) [recv 2 0 12, recv 2 0 13]).sent.length = [] := by decide +kernel
    rw [this]; simp

/-- The whole of C73 is false: an answer that names another message type, with a message that is not the one asked for, leaves the request open
without a new request being sent; a second answer is processed. -/
theorem c73_odd_answer : ∃ (env : Env Nat Nat) (m : Manager Nat Nat) (h : List (Event Nat)) (e e' : Event Nat) (c c' : Control),
    Committee env.codec m ∧ Answers env e c ∧ Answers env e' c' ∧ c'.reqHash = c.reqHash ∧
    (run env (newTssCommon m) (h ++ [e])).sent = (run env (newTssCommon m) h).sent ∧
    (run env (newTssCommon m) (h ++ [e, e'])).log ≠ (run env (newTssCommon m) (h ++ [e])).log :=
  ⟨demoEnv { netS with controls := [⟨demoHash [5], "1-R", 9, some (bcast 1 [6])⟩, ⟨demoHash [5], "1-R", 0, some (bcast 1 [5])⟩] } 10,
    demoManager 0, [recv 2 0 12, recv 2 0 13], recv 4 0 12, recv 4 1 12, _, _, demoCommittee 0 (by decide),
    ⟨_, _, _, _, _, rfl, rfl, rfl, rfl⟩, ⟨_, _, _, _, _, rfl, rfl, rfl, rfl⟩, rfl, by decide +kernel, by decide +kernel⟩

end Verif.Props.Sent
