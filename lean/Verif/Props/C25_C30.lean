import Verif.Lemmas.Session
import Verif.Spec.DemoSession
import Mathlib.Data.Finset.Card

/-!
# C25–C30: shares applied to the local party

`run env (newTssCommon m) h` is the state of a session with committee `m` after history `h`. The `log` of a state records the calls
that hand a share to the local tss-lib party. What the events of a history mean is said in `Verif.Spec.Session`.
-/
set_option linter.unusedSectionVars false
namespace Verif.Props.Session
open Verif.Go Verif.Conversion Verif.Messages Verif.Blame Verif.Threshold Verif.Spec Verif.TssCommon Relation

variable {K P : Type} [DecidableEq K] [DecidableEq P]

/-! ## C25 -/

/-- C25: every share handed to the local party is contained in a wire message which was received, and which is signed (payload and
session id) by the committee member named as its sender. -/
theorem c25_applied_signed (env : Env K P) (m : Manager K P) (h : List (Event P)) (en : Entry)
    (hen : en ∈ (run env (newTssCommon m) h).log) :
    ∃ e ∈ h, Carries env e en.carrier ∧ Signed env m.partyIDMap en.carrier ∧
      Contains env m.partyIDMap en.carrier en.share en.round := by
  obtain ⟨hj, hc⟩ := (good_run env m h).log en hen
  obtain ⟨e, he, hca⟩ := hj.carried
  exact ⟨e, he, hca, hj.signed, hc⟩

/-- the message of member 1 and the confirmations used in the examples -/
def net1 : DemoNet where
  wires := [bcast 1 [5], bcast 1 [6], ⟨some ⟨some (some 1), [], false⟩, "R", [5], [2]⟩, ⟨some ⟨some (some 1), [], true⟩, "R", [5], [9]⟩]
  confirms := [⟨none, "1-R", demoHash [5]⟩, ⟨some 13, "1-R", demoHash [6]⟩]
  bulks := [([5], [inner 1 [50]]), ([6], [inner 1 [60]])]

/-- member 0 receives a share and a confirmation of it and applies the share -/
example : (run (demoEnv net1 10) (newTssCommon (demoManager 0)) [recv 0 0 11, recv 2 0 12]).log =
    [⟨⟨"m", 1, true, [50]⟩, ⟨0, KEYGEN1, "m"⟩, bcast 1 [5], true⟩] := by decide +kernel

/-- with a wrong signature nothing happens -/
example : (run (demoEnv net1 10) (newTssCommon (demoManager 0)) [recv 0 3 11, recv 2 0 12, recv 2 0 13]).log = [] := by decide +kernel

/-! ## C26 -/

/-- C26, the part that holds: a share carried by a wire message marked as broadcast is applied only if that wire message has won
the vote: at least threshold peers other than the owner reported a digest, none is more frequent than the digest of this very
message, and that digest has at least threshold - 1 votes.

Missing: shares which are broadcast shares by their own flag and type, but come in a wire message marked as unicast; see
`c26_unicast_wrapping`. -/
theorem c26_quorum_partial (env : Env K P) (m : Manager K P) (h : List (Event P)) (en : Entry)
    (hen : en ∈ (run env (newTssCommon m) h).log) (hb : en.carrier.isBroadcast = true) :
    Quorum env m h en.carrier ∧ Contains env m.partyIDMap en.carrier en.share en.round := by
  obtain ⟨hj, hc⟩ := (good_run env m h).log en hen
  exact ⟨hj.quorum hb, hc⟩

example : (run (demoEnv net1 10) (newTssCommon (demoManager 0)) [recv 0 0 11, recv 2 0 12]).log.all
    (fun en => en.carrier.isBroadcast) = true := by decide +kernel

/-- without the second vote the share waits -/
example : (run (demoEnv net1 10) (newTssCommon (demoManager 0)) [recv 0 0 11]).log = [] := by decide +kernel

/-- The whole of C26 is false: neither the routing of the wire message nor the flag of the share in it is covered by the signature
or compared with the type of the share, so one message marked as unicast gets a broadcast share applied with no confirmation at
all. -/
theorem c26_unicast_wrapping : ∃ (env : Env Nat Nat) (m : Manager Nat Nat) (e : Event Nat) (en : Entry),
    Committee env.codec m ∧ (run env (newTssCommon m) [e]).log = [en] ∧ en.share.isBroadcast = true ∧
    env.parse en.share.bytes = some .KGRound1Message ∧ ∀ p key d, ¬ Confirms env e p key d := by
  refine ⟨demoEnv net1 10, demoManager 0, recv 0 2 11,
    ⟨⟨"m", 1, true, [50]⟩, ⟨0, KEYGEN1, "m"⟩, ⟨some ⟨some (some 1), [], false⟩, "R", [5], [2]⟩, true⟩, demoCommittee 0 (by decide),
    by decide +kernel, rfl, rfl, ?_⟩
  rintro p key d ⟨raw, sch, t, pl, he, hraw, ht, _⟩
  cases he
  cases hraw
  revert ht
  decide

/-! ## C27 -/

/-- C27: the votes counted for a round message are those of different peers, and the vote of a peer is a digest which came over the
stream from that very peer, whatever identity is written in the message (the local node's vote is the digest of what it
received). -/
theorem c27_one_vote_each_partial (env : Env K P) (m : Manager K P) (h : List (Event P)) (key : String) (item : Item P)
    (hk : Map.get (run env (newTssCommon m) h).cache key = some item) :
    (Map.keys item.confirmed).Nodup ∧
    ∀ p d, Map.get item.confirmed p = some d → Voted env m.partyIDMap h p key d :=
  ⟨((good_run env m h).cache key item hk).wf, ((good_run env m h).cache key item hk).votes⟩

/-- C27: a repeated confirmation, the same or another digest, changes nothing while the message is waiting. -/
theorem c27_repeat_ignored_partial (env : Env K P) (s : St K P) (e : Event P) (p : P) (key d : String) (item : Item P)
    (hc : Confirms env e p key d) (hk : Map.get s.cache key = some item) (hp : p ∈ Map.keys item.confirmed) :
    step env s e = s := by
  obtain ⟨raw, sch, t, pl, rfl, hraw, ht, b, hb, rfl, rfl⟩ := hc
  unfold step
  split
  · rfl
  · have h1 : ¬ (t = TSSKeyGenMsg ∨ t = TSSKeySignMsg) := by
      rcases ht with rfl | rfl <;> decide
    have hd : checkDup s b p = none := by
      unfold checkDup
      rw [hk]
      exact if_pos hp
    simp only [hraw, ProcessOneMessage, if_neg h1, if_pos ht, hb, hd]

/-- C27: the first vote of a peer stays until the round message is applied; only the owner of the message loses its vote before.
(`storedMsg` keeps the round messages that have been applied.) -/
theorem c27_first_vote_kept_partial (env : Env K P) (m : Manager K P) (h : List (Event P)) (e : Event P) (p : P) (key d : String)
    (hl : p ≠ env.localPeer)
    (hv : ∃ item, Map.get (run env (newTssCommon m) h).cache key = some item ∧ Map.get item.confirmed p = some d) :
    let s' := step env (run env (newTssCommon m) h) e
    (∃ item, Map.get s'.cache key = some item ∧ Map.get item.confirmed p = some d) ∨
    (∃ w, Map.get s'.mgr.storedMsg key = some w) ∨
    (∃ i ri, Map.get m.partyIDtoP2PID i = some p ∧ key = cacheKey i ri) := by
  refine step_invariant_good e (fun s' => (∃ item, Map.get s'.cache key = some item ∧ Map.get item.confirmed p = some d) ∨
    (∃ w, Map.get s'.mgr.storedMsg key = some w) ∨ (∃ i ri, Map.get m.partyIDtoP2PID i = some p ∧ key = cacheKey i ri))
    (Or.inl hv) ?_
  rintro s s' hg (⟨it, hk, hpd⟩ | ⟨w, hw⟩ | hi) hmic
  · cases hmic with
    | work id => left; rw [(stepJob_frame env id s).cache]; exact ⟨it, hk, hpd⟩
    | queue => exact Or.inl ⟨it, hk, hpd⟩
    | arrive w i hc hs hi hb =>
      left
      by_cases hke : key = cacheKey i w.roundInfo
      · subst hke
        refine ⟨_, Map.get_set_self _ _ _, ?_⟩
        rw [hk]
        simp only [arrived]
        split <;> (rw [Map.get_set_ne _ _ hl]; exact hpd)
      · refine ⟨it, ?_, hpd⟩
        dsimp only
        rw [Map.get_set_ne _ _ hke]; exact hk
    | vote peer key' d' hc hd =>
      left
      by_cases hke : key = key'
      · subst hke
        have hpp : p ≠ peer := by
          rintro rfl
          exact hd it hk ((Map.get_isSome_iff _ _).1 (by rw [hpd]; rfl))
        refine ⟨_, Map.get_set_self _ _ _, ?_⟩
        rw [hk]
        simp only [confirmedItem]
        rw [Map.get_set_ne _ _ hpp]; exact hpd
      · refine ⟨it, ?_, hpd⟩
        dsimp only
        rw [Map.get_set_ne _ _ hke]; exact hk
    | blameOwner key' item w i peer t hk' hm hi hp ht hn hv =>
      by_cases hke : key = key'
      · subst hke
        by_cases hpp : p = peer
        · subst hpp
          obtain ⟨_, _, _, ⟨i', hi', hkey⟩, _⟩ := (hg.cache key item hk').msg w hm
          exact Or.inr (Or.inr ⟨i', w.roundInfo, by rw [hi] at hi'; cases hi'; rw [← hg.peers]; exact hp, hkey⟩)
        · left
          refine ⟨_, Map.get_set_self _ _ _, ?_⟩
          rw [hk] at hk'; cases hk'
          dsimp only
          rw [Map.get_del, if_neg hpp]; exact hpd
      · left
        refine ⟨it, ?_, hpd⟩
        dsimp only
        rw [Map.get_set_ne _ _ hke]; exact hk
    | blameSplit => exact Or.inl ⟨it, hk, hpd⟩
    | dropMsg key' item hk' =>
      left
      by_cases hke : key = key'
      · subst hke
        rw [hk] at hk'; cases hk'
        exact ⟨_, Map.get_set_self _ _ _, hpd⟩
      · refine ⟨it, ?_, hpd⟩
        dsimp only
        rw [Map.get_set_ne _ _ hke]; exact hk
    | store => exact Or.inl ⟨it, hk, hpd⟩
    | unicast => exact Or.inl ⟨it, hk, hpd⟩
    | forget key' item w hk' hm hw hst =>
      by_cases hke : key = key'
      · subst hke; exact Or.inr (Or.inl ⟨w, hst⟩)
      · left
        refine ⟨it, ?_, hpd⟩
        dsimp only
        rw [Map.get_del, if_neg hke]; exact hk
    | ask => exact Or.inl ⟨it, hk, hpd⟩
    | answer => exact Or.inl ⟨it, hk, hpd⟩
    | sendConfirm => exact Or.inl ⟨it, hk, hpd⟩
    | askSilent => exact Or.inl ⟨it, hk, hpd⟩
    | sendAnswer => exact Or.inl ⟨it, hk, hpd⟩
    | done => exact Or.inl ⟨it, hk, hpd⟩
    | crash => exact Or.inl ⟨it, hk, hpd⟩
  · right; left
    cases hmic with
    | work id => rw [(stepJob_frame env id s).stored]; exact ⟨w, hw⟩
    | store key' item w' hk' hm' hw' =>
      dsimp only [Manager.roundSet]
      rw [Map.get_set]
      split
      · exact ⟨_, rfl⟩
      · exact ⟨w, hw⟩
    | unicast => dsimp only; rw [(setLastUnicastPeer_maps _ _ _).2.2.1]; exact ⟨w, hw⟩
    | _ => exact ⟨w, hw⟩
  · exact Or.inr (Or.inr hi)

/-- peer 12 confirms one digest and then another: the first one counts -/
example : ((run (demoEnv net1 10) (newTssCommon (demoManager 0)) [recv 2 0 12, recv 2 1 12]).cache.map
    (fun e => (e.1, e.2.confirmed))) = [("1-R", [(12, demoHash [5])])] := by decide +kernel

/-- an identity written in the message (13) is ignored -/
example : ((run (demoEnv net1 10) (newTssCommon (demoManager 0)) [recv 2 1 12]).cache.map
    (fun e => (e.1, e.2.confirmed))) = [("1-R", [(12, demoHash [6])])] := by decide +kernel

/-- The whole of C27 is false: once the message is applied its votes are forgotten, and a repeated confirmation is counted as if it
were the first (peer 12 changes its vote to another digest, and the node asks peer 12 for a share with that digest). -/
theorem c27_repeat_after_apply : ∃ (env : Env Nat Nat) (m : Manager Nat Nat) (h : List (Event Nat)) (e e' : Event Nat)
    (key d d' : String), Committee env.codec m ∧ Confirms env e 12 key d ∧ Confirms env e' 12 key d' ∧ d ≠ d' ∧
    ((Map.get (run env (newTssCommon m) (h ++ [e, e'])).cache key).bind fun it => Map.get it.confirmed 12) = some d' := by
  refine ⟨demoEnv net1 10, demoManager 0, [recv 0 0 11], recv 2 0 12, recv 2 1 12, "1-R", demoHash [5], demoHash [6],
    demoCommittee 0 (by decide), ⟨_, _, _, _, rfl, rfl, by decide, _, rfl, rfl, rfl⟩,
    ⟨_, _, _, _, rfl, rfl, by decide, _, rfl, rfl, rfl⟩, by decide, by decide +kernel⟩

/-! ## C28 -/

theorem step_eq {env : Env K P} {s s1 : St K P} {raw pl : Bytes} {p : P} {sch : Sched P} {t : MsgType} {r : Res Unit}
    (hcr : s.crashed = false) (hraw : env.decWrapped raw = some (t, pl))
    (h : ProcessOneMessage env sch t pl p s = (s1, r)) (hr : r ≠ .panic) : step env s (.msg raw p sch) = s1 := by
  unfold step
  rw [hcr]
  simp only [hraw, h]
  rcases r with _ | _ | _
  · rfl
  · rfl
  · exact absurd rfl hr

/-- when the votes are counted and the owner's is among them -/
theorem applyShare_owner (env : Env K P) (sch : Sched P) (item : Item P) (t : Int) (key : String) (mt : MsgType) (s : St K P)
    (w : WireMessage) (i : Nat) (op : P) (hm : item.msg = some w) (hi : w.sender = some i)
    (hp : Map.get s.mgr.partyIDtoP2PID i = some op) (ht : t ≤ (item.confirmed.length : Int))
    (ho : op ∈ Map.keys item.confirmed) :
    applyShare env sch item t key mt s =
      blameShareOwner env w { s with cache := Map.set s.cache key { item with confirmed := Map.del item.confirmed op } } := by
  have h1 : ¬ (item.confirmed.length : Int) < t := by omega
  simp only [applyShare, hm, hi, hashCheck, hp, if_neg h1, if_pos ho]

/-- the blame of the owner of a message -/
theorem blameShareOwner_named {env : Env K P} {w : WireMessage} {s : St K P} {i : Nat} (hn : Nameable env.codec s.mgr.partyIDMap)
    (hi : w.sender = some i) (hk : i ∈ Map.keys s.mgr.partyIDMap) :
    ∃ pk, Named env.codec s.mgr.partyIDMap i pk ∧ blameShareOwner env w s =
      ({ s with mgr := { s.mgr with blame := s.mgr.blame.setBlame HashCheckFail [⟨pk, w.message, w.sig⟩] (!w.isBroadcast) } },
        .err HashCheckFail) := by
  obtain ⟨p, hp⟩ := Option.isSome_iff_exists.1 ((Map.get_isSome_iff _ _).2 hk)
  obtain ⟨k, hk'⟩ := hn i p hp
  refine ⟨k, ⟨p, hp, hk'⟩, ?_⟩
  have : s.mgr.tssWrongShareBlame env.codec w = .ok k := by
    simp only [Manager.tssWrongShareBlame, hi, hp, hk']
  simp only [blameShareOwner, this]

/-- C28: the votes on a cached message `w` are counted because of a confirmation, and one of them is the vote of its owner (the
new one or an earlier one). Then nothing is applied, the owner's vote is removed, the other votes stay, and the owner is blamed
with the message as evidence. -/
theorem c28_confirmation (env : Env K P) (m : Manager K P) (hc : Committee env.codec m) (h : List (Event P)) (e : Event P) (p : P)
    (key d : String) (item : Item P) (w : WireMessage) (i : Nat) (op : P) (t : Int)
    (hcr : (run env (newTssCommon m) h).crashed = false) (he : Confirms env e p key d)
    (hk : Map.get (run env (newTssCommon m) h).cache key = some item) (hfirst : p ∉ Map.keys item.confirmed)
    (hm : item.msg = some w) (hi : w.sender = some i) (hop : Map.get m.partyIDtoP2PID i = some op)
    (ht : GetThreshold m.partyIDMap.length = .ok t) (hlen : t ≤ (item.confirmed.length : Int) + 1)
    (ho : op = p ∨ op ∈ Map.keys item.confirmed) :
    let s := run env (newTssCommon m) h
    let s' := step env s e
    s'.log = s.log ∧ s'.jobs = s.jobs ∧ s'.crashed = false ∧
    (∃ item', Map.get s'.cache key = some item' ∧ item'.msg = some w ∧ Map.get item'.confirmed op = none ∧
      ∀ q, q ≠ op → Map.get item'.confirmed q = if q = p then some d else Map.get item.confirmed q) ∧
    ∃ pk, Named env.codec m.partyIDMap i pk ∧ s'.mgr.blame = s.mgr.blame.setBlame "hash check failed" [⟨pk, w.message, w.sig⟩] false := by
  have hg := good_run env m h
  generalize hs : run env (newTssCommon m) h = s at *
  intro s0 s'
  obtain ⟨_, _, hb, _, _⟩ := (hg.cache key item hk).msg w hm
  obtain ⟨raw, sch, ty, pl, rfl, hraw, hty, b, hbm, rfl, rfl⟩ := he
  have h1 : ¬ (ty = TSSKeyGenMsg ∨ ty = TSSKeySignMsg) := by
    rcases hty with rfl | rfl <;> decide
  have hd : checkDup s b p = some { b with p2pid := some p } := by
    unfold checkDup
    rw [hk]
    exact if_neg hfirst
  have hik : i ∈ Map.keys s.mgr.partyIDMap := by
    rw [hg.ids]
    exact (hc.same i).1 ((Map.get_isSome_iff _ _).1 (by rw [hop]; rfl))
  have hmem : op ∈ Map.keys (Map.set item.confirmed p b.hash) := by
    rw [Map.mem_keys_set]
    rcases ho with rfl | ho
    · exact Or.inl rfl
    · exact Or.inr ho
  have hl : t ≤ ((Map.set item.confirmed p b.hash).length : Int) := by
    rw [Map.set_of_not_mem hfirst]; simp; omega
  obtain ⟨pk, hpk, hbl⟩ := blameShareOwner_named (env := env) (w := w) (i := i)
    (s := { s with
      cache := (Map.set (Map.set s.cache b.key { item with confirmed := Map.set item.confirmed p b.hash }) b.key
        { item with confirmed := Map.del (Map.set item.confirmed p b.hash) op }) })
    (by dsimp only; rw [hg.ids]; exact hc.named) hi hik
  have happ := applyShare_owner env sch { item with confirmed := Map.set item.confirmed p b.hash } t b.key ty
    { s with cache := Map.set s.cache b.key { item with confirmed := Map.set item.confirmed p b.hash } } w i op hm hi
    (by dsimp only; rw [hg.peers]; exact hop) hl hmem
  have hstep : s' = { s with
      cache := Map.set s.cache b.key { item with confirmed := Map.del (Map.set item.confirmed p b.hash) op }
      mgr := { s.mgr with blame := s.mgr.blame.setBlame HashCheckFail [⟨pk, w.message, w.sig⟩] (!w.isBroadcast) } } := by
    show step env s _ = _
    have hci : confirmedItem (Map.get s.cache b.key) p b.hash = { item with confirmed := Map.set item.confirmed p b.hash } := by
      rw [hk]; rfl
    have hmn : item.msg.isNone ≠ true := by rw [hm]; simp
    have ht' : GetThreshold s.mgr.partyIDMap.length = .ok t := by rw [hg.ids]; exact ht
    refine step_eq (r := .err HashCheckFail) hcr hraw ?_ (by simp)
    simp only [ProcessOneMessage, if_neg h1, if_pos hty, hbm, hd, processVerMsg, hci, ht', if_neg hmn]
    rw [happ, hbl]
    simp only [set_set]
  rw [hstep]
  refine ⟨rfl, rfl, hcr, ⟨_, Map.get_set_self _ _ _, hm, ?_, ?_⟩, pk, ?_, ?_⟩
  · dsimp only; rw [Map.get_del, if_pos rfl]
  · intro q hq
    dsimp only
    rw [Map.get_del, if_neg hq, Map.get_set]
  · rw [← hg.ids]; exact hpk
  · show Blame.setBlame _ _ _ _ = _
    rw [hb]; rfl

/-- receiving a signed broadcast message reduces to counting the votes on it -/
theorem deliver_eq {env : Env K P} {s : St K P} {pl : Bytes} {p : P} {sch : Sched P} {ty : MsgType} {w : WireMessage} {i : Nat}
    {t : Int} (hty : ty = TSSKeyGenMsg ∨ ty = TSSKeySignMsg)
    (hw : env.decWire pl = some w) (hs : Signed env s.mgr.partyIDMap w) (hi : w.sender = some i) (hb : w.isBroadcast = true)
    (ht : GetThreshold s.mgr.partyIDMap.length = .ok t) :
    ProcessOneMessage env sch ty pl p s =
      applyShare env sch (arrived env (Map.get s.cache (cacheKey i w.roundInfo)) w) t (cacheKey i w.roundInfo) ty
        { s with
          sent := (receiverBroadcastHash env i (cacheKey i w.roundInfo) (env.hash w.message) ty s).sent
          cache := Map.set s.cache (cacheKey i w.roundInfo) (arrived env (Map.get s.cache (cacheKey i w.roundInfo)) w) } := by
  obtain ⟨i', q, hi', hq, hv⟩ := hs
  rw [hi] at hi'; cases hi'
  have hn : w.noSender ≠ true := by
    unfold WireMessage.noSender
    intro hn
    unfold WireMessage.sender at hi
    rcases hr : w.routing with _ | r
    · rw [hr] at hi; cases hi
    · rw [hr] at hi hn
      simp only [Option.isNone_iff_eq_none] at hn
      simp [Routing.sender, hn] at hi
  have hrec : ∀ key d, receiverBroadcastHash env i key d ty s = { s with sent := (receiverBroadcastHash env i key d ty s).sent } := by
    intro key d
    unfold receiverBroadcastHash
    split
    · rfl
    · dsimp only
      split <;> rfl
  simp only [ProcessOneMessage, if_pos hty, hw, processTSSMsg, if_neg hn, hi, hq, hv, hb, Bool.not_true, Bool.false_eq_true, if_false]
  rw [hrec]
  simp only [ht]

/-- C28, when the votes are counted because the message `w` itself arrives: the owner has confirmed before. The message in question
is the one already waiting, if there is one. -/
theorem c28_arrival (env : Env K P) (m : Manager K P) (hc : Committee env.codec m) (h : List (Event P)) (raw pl : Bytes) (p : P)
    (sch : Sched P) (ty : MsgType) (w : WireMessage) (item : Item P) (i : Nat) (op : P) (t : Int)
    (hcr : (run env (newTssCommon m) h).crashed = false) (hraw : env.decWrapped raw = some (ty, pl))
    (hty : ty = TSSKeyGenMsg ∨ ty = TSSKeySignMsg) (hw : env.decWire pl = some w) (hs : Signed env m.partyIDMap w)
    (hi : w.sender = some i) (hb : w.isBroadcast = true)
    (hk : Map.get (run env (newTssCommon m) h).cache (cacheKey i w.roundInfo) = some item)
    (hop : Map.get m.partyIDtoP2PID i = some op) (ht : GetThreshold m.partyIDMap.length = .ok t)
    (hlen : t ≤ (item.confirmed.length : Int)) (ho : op ∈ Map.keys item.confirmed) :
    let s := run env (newTssCommon m) h
    let s' := step env s (.msg raw p sch)
    let w' := item.msg.getD w
    s'.log = s.log ∧ s'.jobs = s.jobs ∧ s'.crashed = false ∧
    (∃ item', Map.get s'.cache (cacheKey i w.roundInfo) = some item' ∧ item'.msg = some w' ∧ Map.get item'.confirmed op = none ∧
      ∀ q, q ≠ op → Map.get item'.confirmed q = if q = env.localPeer then some (env.hash w.message) else Map.get item.confirmed q) ∧
    ∃ pk, Named env.codec m.partyIDMap i pk ∧ s'.mgr.blame = s.mgr.blame.setBlame "hash check failed" [⟨pk, w'.message, w'.sig⟩] false := by
  have hg := good_run env m h
  generalize hs' : run env (newTssCommon m) h = s at *
  intro s0 s' w'
  have hgi := hg.cache _ item hk
  obtain ⟨it, hit, hmsg, hconf⟩ : ∃ it, arrived env (some item) w = it ∧ it.msg = some w' ∧
      it.confirmed = Map.set item.confirmed env.localPeer (env.hash w.message) := by
    refine ⟨_, rfl, ?_, ?_⟩
    · simp only [arrived, w']
      rcases hm0 : item.msg with _ | w0 <;> simp [hm0]
    · simp only [arrived]
      split <;> rfl
  have hw' : w'.sender = some i ∧ w'.isBroadcast = true := by
    rcases hmm : item.msg with _ | w0
    · simp only [w', hmm]; exact ⟨hi, hb⟩
    · obtain ⟨_, _, hb0, ⟨j, hj, hkey⟩, _⟩ := hgi.msg w0 hmm
      simp only [w', hmm]
      refine ⟨?_, hb0⟩
      obtain ⟨rfl, _⟩ := cacheKey_inj hkey
      exact hj
  have hmem : op ∈ Map.keys it.confirmed := by rw [hconf, Map.mem_keys_set]; exact Or.inr ho
  have hl : t ≤ (it.confirmed.length : Int) := by
    rw [hconf, Map.length_set]
    split <;> (push_cast; omega)
  have hik : i ∈ Map.keys s.mgr.partyIDMap := by
    rw [hg.ids]
    exact (hc.same i).1 ((Map.get_isSome_iff _ _).1 (by rw [hop]; rfl))
  have hdel := deliver_eq (s := s) (p := p) (sch := sch) hty hw (by rw [hg.ids]; exact hs) hi hb (by rw [hg.ids]; exact ht)
  rw [hk, hit, applyShare_owner env sch it t _ ty _ w' i op hmsg hw'.1 (by dsimp only; rw [hg.peers]; exact hop) hl hmem] at hdel
  obtain ⟨pk, hpk, hbl⟩ := blameShareOwner_named (env := env) (w := w') (i := i)
    (s := { s with
      sent := (receiverBroadcastHash env i (cacheKey i w.roundInfo) (env.hash w.message) ty s).sent
      cache := (Map.set (Map.set s.cache (cacheKey i w.roundInfo) it) (cacheKey i w.roundInfo)
        { it with confirmed := Map.del it.confirmed op }) })
    (by dsimp only; rw [hg.ids]; exact hc.named) hw'.1 hik
  have hstep := step_eq (env := env) (s := s) (raw := raw) (p := p) (sch := sch) hcr hraw (hdel.trans hbl) (by simp)
  show s'.log = s.log ∧ _
  rw [show s' = _ from hstep]
  refine ⟨rfl, rfl, hcr, ⟨_, Map.get_set_self _ _ _, hmsg, ?_, ?_⟩, pk, ?_, ?_⟩
  · dsimp only; rw [Map.get_del, if_pos rfl]
  · intro q hq
    dsimp only
    rw [Map.get_del, if_neg hq, hconf, Map.get_set]
  · rw [← hg.ids]; exact hpk
  · show Blame.setBlame _ _ _ _ = _
    rw [hw'.2]; rfl

/-- C28, over a whole session: the votes by which a broadcast message is applied do not include one of its owner. -/
theorem c28_owner_vote_never_used (env : Env K P) (m : Manager K P) (h : List (Event P)) (en : Entry)
    (hen : en ∈ (run env (newTssCommon m) h).log) (hb : en.carrier.isBroadcast = true) :
    ∃ (votes : List (P × String)) (i : Nat) (op : P) (t : Int), en.carrier.sender = some i ∧
      Map.get m.partyIDtoP2PID i = some op ∧ op ∉ votes.map Prod.fst ∧ (votes.map Prod.fst).Nodup ∧
      GetThreshold m.partyIDMap.length = .ok t ∧ t ≤ (votes.length : Int) ∧
      (∀ p d, (p, d) ∈ votes → Voted env m.partyIDMap h p (cacheKey i en.carrier.roundInfo) d) ∧
      t - 1 ≤ ((votes.map Prod.snd).count (env.hash en.carrier.message) : Nat) := by
  obtain ⟨votes, i, op, t, h1, h2, h3, h4, h5, h6, h7, h8, _⟩ := ((good_run env m h).log en hen).1.quorum hb
  exact ⟨votes, i, op, t, h2, h3, h4, h1, h5, h6, h7, h8⟩

/-- member 1 confirms its own share to member 0: nothing is applied, member 1 (public key 21) is blamed -/
example : let s := run (demoEnv net1 10) (newTssCommon (demoManager 0)) [recv 0 0 11, recv 2 0 11]
    s.log = [] ∧ s.mgr.blame = ⟨HashCheckFail, false, [⟨21, [5], [2]⟩]⟩ ∧
    s.cache.map (fun e => e.2.confirmed) = [[(10, demoHash [5])]] := by decide +kernel

/-- the same when the share comes after two confirmations, one of them the owner's -/
example : let s := run (demoEnv net1 10) (newTssCommon (demoManager 0)) [recv 2 0 11, recv 2 0 12, recv 0 0 11]
    s.log = [] ∧ s.mgr.blame = ⟨HashCheckFail, false, [⟨21, [5], [2]⟩]⟩ := by decide +kernel

/-! ## C29 -/

/-- why an owner is blamed for a failed hash check: the last blamed node is the owner `i` of a signed broadcast message `w` that was
received, and `i`'s peer confirmed it itself, or `i` is the local node, or two peers reported other digests -/
def HashBlamed (env : Env K P) (m : Manager K P) (h : List (Event P)) (nodes : List (Node K)) : Prop :=
  ∃ pre w i pk op, nodes = pre ++ [⟨pk, w.message, w.sig⟩] ∧ w.sender = some i ∧ Named env.codec m.partyIDMap i pk ∧
    (∃ e ∈ h, Carries env e w) ∧ Signed env m.partyIDMap w ∧ w.isBroadcast = true ∧ Map.get m.partyIDtoP2PID i = some op ∧
    ((∃ e ∈ h, ∃ d, Confirms env e op (cacheKey i w.roundInfo) d) ∨ op = env.localPeer ∨
     ∃ p q dp dq, p ≠ q ∧ Voted env m.partyIDMap h p (cacheKey i w.roundInfo) dp ∧
       Voted env m.partyIDMap h q (cacheKey i w.roundInfo) dq ∧ dp ≠ env.hash w.message ∧ dq ≠ env.hash w.message)

theorem two_disagree (l : List (P × String)) (hl : (l.map Prod.fst).Nodup) (d : String) (t : Int) (ht : t ≤ (l.length : Int))
    (hc : (((l.map Prod.snd).count d : Nat) : Int) < t - 1) :
    ∃ p q dp dq, p ≠ q ∧ (p, dp) ∈ l ∧ (q, dq) ∈ l ∧ dp ≠ d ∧ dq ≠ d := by
  have hlen : 2 ≤ (l.filter (fun e => e.2 ≠ d)).length := by
    have h1 : (l.map Prod.snd).count d = (l.filter (fun e => e.2 = d)).length := by
      rw [List.count_eq_countP, List.countP_map, List.countP_eq_length_filter]
      congr 1
    have h2 : (l.filter (fun e => e.2 = d)).length + (l.filter (fun e => e.2 ≠ d)).length = l.length := by
      have := List.length_eq_length_filter_add (l := l) (fun e => decide (e.2 = d))
      rw [this]
      congr 2
      apply List.filter_congr
      intro x _
      simp
    omega
  obtain ⟨a, b, rest, hf⟩ : ∃ a b rest, l.filter (fun e => e.2 ≠ d) = a :: b :: rest := by
    rcases hf : l.filter (fun e => e.2 ≠ d) with _ | ⟨a, _ | ⟨b, rest⟩⟩
    · rw [hf] at hlen; simp at hlen
    · rw [hf] at hlen; simp at hlen
    · exact ⟨a, b, rest, hf⟩
  have hsub : ((l.filter (fun e => e.2 ≠ d)).map Prod.fst).Nodup := (List.filter_sublist.map _).nodup hl
  rw [hf] at hsub
  have ha : a ∈ l.filter (fun e => e.2 ≠ d) := by rw [hf]; simp
  have hb : b ∈ l.filter (fun e => e.2 ≠ d) := by rw [hf]; simp
  rw [List.mem_filter] at ha hb
  refine ⟨a.1, b.1, a.2, b.2, ?_, ha.1, hb.1, by simpa using ha.2, by simpa using hb.2⟩
  intro he
  simp [he] at hsub

theorem hashBlame_cases {env : Env K P} {m : Manager K P} (hc : Committee env.codec m) {h : List (Event P)} {s : St K P}
    {w : WireMessage} {key : String} {item : Item P} (hg : Good env m h s) (hk : Map.get s.cache key = some item)
    (hm : item.msg = some w) {i : Nat} (hi : w.sender = some i) :
    ∃ op pk, Map.get m.partyIDtoP2PID i = some op ∧ Named env.codec m.partyIDMap i pk ∧
      hashBlame env s w = s.mgr.blame.setBlame HashCheckFail [⟨pk, w.message, w.sig⟩] (!w.isBroadcast) := by
  obtain ⟨_, ⟨i', p, hi', hp, _⟩, _⟩ := (hg.cache key item hk).msg w hm
  rw [hi] at hi'; cases hi'
  have hik : i ∈ Map.keys m.partyIDMap := (Map.get_isSome_iff _ _).1 (by rw [hp]; rfl)
  obtain ⟨op, hop⟩ := Option.isSome_iff_exists.1 ((Map.get_isSome_iff _ _).2 ((hc.same i).2 hik))
  obtain ⟨k, hk'⟩ := hc.named i p hp
  refine ⟨op, k, hop, ⟨p, hp, hk'⟩, ?_⟩
  have : s.mgr.tssWrongShareBlame env.codec w = .ok k := by
    simp only [Manager.tssWrongShareBlame, hi, hg.ids, hp, hk']
  simp only [hashBlame, this]

theorem hashBlamed_run (env : Env K P) (m : Manager K P) (hc : Committee env.codec m) (h0 : m.blame.failReason ≠ HashCheckFail)
    (h : List (Event P)) : (run env (newTssCommon m) h).mgr.blame.failReason = HashCheckFail →
      HashBlamed env m h (run env (newTssCommon m) h).mgr.blame.nodes := by
  refine run_invariant_good env m (fun h s => s.mgr.blame.failReason = HashCheckFail → HashBlamed env m h s.mgr.blame.nodes)
    (fun hr => absurd hr h0) ?_ ?_ h
  · intro h e s hI hr
    obtain ⟨pre, w, i, pk, op, h1, h2, h3, ⟨e', he', hca⟩, h5, h6, h7, h8⟩ := hI hr
    refine ⟨pre, w, i, pk, op, h1, h2, h3, ⟨e', by simp [he'], hca⟩, h5, h6, h7, ?_⟩
    rcases h8 with ⟨e', he', d, hd⟩ | h8 | ⟨p, q, dp, dq, a, b, c, d⟩
    · exact Or.inl ⟨e', by simp [he'], d, hd⟩
    · exact Or.inr (Or.inl h8)
    · exact Or.inr (Or.inr ⟨p, q, dp, dq, a, b.mono e, c.mono e, d⟩)
  · intro h e s s' hg hI hmic
    cases hmic with
    | work id =>
      intro hr
      rcases hf : s.jobs.find? (fun j => j.id = id) with _ | j
      · rw [stepJob_none hf] at hr ⊢; exact hI hr
      · rcases ho : j.outcome with _ | _ | cs
        · rw [stepJob_wait hf ho] at hr ⊢; exact hI hr
        · rw [stepJob_ok hf ho] at hr ⊢
          dsimp only at hr ⊢
          rw [(updateAcceptShare_maps _ _ _).2.2.2.1] at hr ⊢
          exact hI hr
        · rw [stepJob_bad hf ho] at hr
          unfold processInvalidMsgBlame at hr
          dsimp only at hr
          split at hr <;> exact absurd hr (by simp only [Blame.setBlame]; decide)
    | blameOwner key item w i peer t hk hm hi hp ht hn hv =>
      intro _
      obtain ⟨op, pk, hop, hpk, hbl⟩ := hashBlame_cases hc hg hk hm hi
      have hgi := hg.cache key item hk
      obtain ⟨h1, h2, h3, ⟨i', hi', hkey⟩, hhash⟩ := hgi.msg w hm
      rw [hi] at hi'; cases hi'
      rw [hg.peers, hop] at hp; cases hp
      refine ⟨s.mgr.blame.nodes, w, i, pk, peer, by dsimp only; rw [hbl]; rfl, hi, hpk, h1, h2, h3, hop, ?_⟩
      obtain ⟨d, hd⟩ := Option.isSome_iff_exists.1 ((Map.get_isSome_iff _ _).2 hv)
      rcases hgi.votes peer d hd with ⟨e', he', hc'⟩ | ⟨hl, _⟩
      · exact Or.inl ⟨e', he', d, by rw [← hkey]; exact hc'⟩
      · exact Or.inr (Or.inl hl)
    | blameSplit key item w i t hk hm hi ht hn =>
      intro _
      obtain ⟨op, pk, hop, hpk, hbl⟩ := hashBlame_cases hc hg hk hm hi
      have hgi := hg.cache key item hk
      obtain ⟨h1, h2, h3, ⟨i', hi', hkey⟩, hhash⟩ := hgi.msg w hm
      rw [hi] at hi'; cases hi'
      refine ⟨s.mgr.blame.nodes, w, i, pk, op, by dsimp only; rw [hbl]; rfl, hi, hpk, h1, h2, h3, hop, ?_⟩
      rcases hn with hn | ⟨hn1, hn2⟩
      · rw [hg.peers, hop] at hn; cases hn
      · obtain ⟨p, q, dp, dq, hpq, hpm, hqm, hdp, hdq⟩ := two_disagree item.confirmed hgi.wf (env.hash w.message) t hn1 (hn2 _)
        refine Or.inr (Or.inr ⟨p, q, dp, dq, hpq, ?_, ?_, hdp, hdq⟩)
        · rw [← hkey]; exact hgi.votes p dp (Map.get_of_mem hgi.wf hpm)
        · rw [← hkey]; exact hgi.votes q dq (Map.get_of_mem hgi.wf hqm)
    | unicast => dsimp only; rw [(setLastUnicastPeer_maps _ _ _).2.2.2.1]; exact hI
    | _ => exact hI

/-- C29: a member other than the local node is blamed for a failed hash check (it is then the last blamed node, with the message as
evidence) only if it confirmed its own message, or two peers reported digests different from that of the message received.

Missing: the local node itself; see `c29_self_blame`. -/
theorem c29_reason_partial (env : Env K P) (m : Manager K P) (hc : Committee env.codec m)
    (h0 : m.blame.failReason ≠ "hash check failed") (h : List (Event P))
    (hr : (run env (newTssCommon m) h).mgr.blame.failReason = "hash check failed") :
    ∃ pre w i pk op, (run env (newTssCommon m) h).mgr.blame.nodes = pre ++ [⟨pk, w.message, w.sig⟩] ∧ w.sender = some i ∧
      Named env.codec m.partyIDMap i pk ∧ Signed env m.partyIDMap w ∧ Map.get m.partyIDtoP2PID i = some op ∧
      (op ≠ env.localPeer →
        (∃ e ∈ h, ∃ d, Confirms env e op (cacheKey i w.roundInfo) d) ∨
        ∃ p q dp dq, p ≠ q ∧ Voted env m.partyIDMap h p (cacheKey i w.roundInfo) dp ∧
          Voted env m.partyIDMap h q (cacheKey i w.roundInfo) dq ∧ dp ≠ env.hash w.message ∧ dq ≠ env.hash w.message) := by
  obtain ⟨pre, w, i, pk, op, h1, h2, h3, h4, h5, h6, h7, h8⟩ := hashBlamed_run env m hc h0 h hr
  refine ⟨pre, w, i, pk, op, h1, h2, h3, h5, h7, fun hop => ?_⟩
  rcases h8 with h8 | h8 | h8
  · exact Or.inl h8
  · exact absurd h8 hop
  · exact Or.inr h8

/-- C44: after a failed hash check the last node of the blame is the sender of a received message, with that message and its
signature as evidence. -/
theorem c44_hash_check (env : Env K P) (m : Manager K P) (hc : Committee env.codec m)
    (h0 : m.blame.failReason ≠ "hash check failed") (h : List (Event P))
    (hr : (run env (newTssCommon m) h).mgr.blame.failReason = "hash check failed") :
    ∃ pre w i pk, (run env (newTssCommon m) h).mgr.blame.nodes = pre ++ [⟨pk, w.message, w.sig⟩] ∧ w.sender = some i ∧
      Named env.codec m.partyIDMap i pk ∧ (∃ e ∈ h, Carries env e w) ∧ Signed env m.partyIDMap w := by
  obtain ⟨pre, w, i, pk, op, h1, h2, h3, h4, h5, _⟩ := hashBlamed_run env m hc h0 h hr
  exact ⟨pre, w, i, pk, h1, h2, h3, h4, h5⟩

/-- C29: when all reports for a round message agree, no member confirms its own message and the node's own messages are not sent
back to it, there is no blame for a failed hash check. -/
theorem c29_unanimous (env : Env K P) (m : Manager K P) (hc : Committee env.codec m) (h0 : m.blame.failReason ≠ "hash check failed")
    (h : List (Event P))
    (hag : ∀ p q key d d', Voted env m.partyIDMap h p key d → Voted env m.partyIDMap h q key d' → d = d')
    (hown : ∀ i ri op d, Map.get m.partyIDtoP2PID i = some op → ¬ ∃ e ∈ h, Confirms env e op (cacheKey i ri) d)
    (hloc : ∀ e ∈ h, ∀ w i, Carries env e w → w.sender = some i → Map.get m.partyIDtoP2PID i ≠ some env.localPeer) :
    (run env (newTssCommon m) h).mgr.blame.failReason ≠ "hash check failed" := by
  intro hr
  obtain ⟨pre, w, i, pk, op, h1, h2, h3, ⟨e, he, hca⟩, h5, h6, h7, h8⟩ := hashBlamed_run env m hc h0 h hr
  rcases h8 with ⟨e', he', d, hd⟩ | rfl | ⟨p, q, dp, dq, _, hp, _, hd, _⟩
  · exact hown i _ op d h7 ⟨e', he', hd⟩
  · exact hloc e he w i hca h2 h7
  · exact hd (hag p _ _ dp _ hp (Or.inr ⟨rfl, e, he, w, i, hca, h5, h2, h6, rfl, rfl⟩))

/-- the votes of two liars in a committee of five are enough to have an honest owner blamed -/
example : (run (demoEnv { net1 with confirms := [⟨none, "1-R", "x"⟩, ⟨none, "1-R", "y"⟩] } 10) (newTssCommon (demoManagerN 5 0))
    [recv 0 0 11, recv 2 0 12, recv 2 1 13]).mgr.blame = ⟨HashCheckFail, false, [⟨21, [5], [2]⟩]⟩ := by decide +kernel

/-- The whole of C29 is false: a peer sends the node's own broadcast message back to it and confirms it, and the node blames itself
(its public key is 20), although all reports agree. -/
theorem c29_self_blame : ∃ (env : Env Nat Nat) (m : Manager Nat Nat) (e1 e2 : Event Nat) (w : WireMessage),
    Committee env.codec m ∧ m.localPartyID = 0 ∧ Map.get m.partyIDtoP2PID 0 = some env.localPeer ∧
    Carries env e1 w ∧ w.sender = some 0 ∧ Confirms env e2 12 (cacheKey 0 w.roundInfo) (env.hash w.message) ∧
    (run env (newTssCommon m) [e1, e2]).mgr.blame = ⟨"hash check failed", false, [⟨20, w.message, w.sig⟩]⟩ := by
  refine ⟨demoEnv { wires := [bcast 0 [5]], confirms := [⟨none, "0-R", demoHash [5]⟩] } 10, demoManager 0, recv 0 0 12, recv 2 0 12,
    bcast 0 [5], demoCommittee 0 (by decide), rfl, rfl, ⟨_, _, _, _, _, rfl, rfl, Or.inl ⟨by decide, rfl⟩⟩, rfl,
    ⟨_, _, _, _, rfl, rfl, by decide, _, rfl, by decide, rfl⟩, by decide +kernel⟩

/-! ## C30 -/

/-- C30, the part that holds: two nodes of one committee (`a`, `b` with histories `ha`, `hb`) apply a broadcast message of the same
member and round. Then the payloads are equal provided that only members send confirmations, that the threshold is so high that
`2 (t - 1) > (n - 1) + f`, where `f` is the number of members reporting different digests to the two nodes, and that the digest
does not collide.

Missing: smaller committees, where the vote of a single peer is enough (`c30_two_shares`). -/
theorem c30_agreement_partial (a b : Env K P) (ma mb : Manager K P) (ha hb : List (Event P)) (hc : Committee a.codec ma)
    (hids : mb.partyIDMap = ma.partyIDMap) (hpeers : ∀ i, Map.get mb.partyIDtoP2PID i = Map.get ma.partyIDtoP2PID i)
    (ea eb : Entry) (hea : ea ∈ (run a (newTssCommon ma) ha).log) (heb : eb ∈ (run b (newTssCommon mb) hb).log)
    (hba : ea.carrier.isBroadcast = true) (hbb : eb.carrier.isBroadcast = true)
    (hsame : ea.carrier.sender = eb.carrier.sender) (hround : ea.carrier.roundInfo = eb.carrier.roundInfo)
    (hmem : ∀ p key d, Voted a ma.partyIDMap ha p key d ∨ Voted b mb.partyIDMap hb p key d →
      ∃ i, Map.get ma.partyIDtoP2PID i = some p)
    (liars : Finset P)
    (hliars : ∀ p key d d', p ∉ liars → Voted a ma.partyIDMap ha p key d → Voted b mb.partyIDMap hb p key d' → d = d')
    (t : Int) (ht : GetThreshold ma.partyIDMap.length = .ok t)
    (hbig : 2 * (t - 1) > (ma.partyIDMap.length : Int) - 1 + liars.card)
    (hinj : a.hash ea.carrier.message = b.hash eb.carrier.message → ea.carrier.message = eb.carrier.message) :
    ea.carrier.message = eb.carrier.message := by
  obtain ⟨va, oa, opa, ta, a1, a2, a3, a4, a5, a6, a7, a8, _⟩ := ((good_run a ma ha).log ea hea).1.quorum hba
  obtain ⟨vb, ob, opb, tb, b1, b2, b3, b4, b5, b6, b7, b8, _⟩ := ((good_run b mb hb).log eb heb).1.quorum hbb
  rw [hsame, b2] at a2
  cases a2
  rw [hpeers, a3] at b3
  cases b3
  rw [a5] at ht
  cases ht
  rw [hids, a5] at b5
  cases b5
  -- the voters for the digest that won
  have key : ∀ (v : List (P × String)) (d : String), (v.map Prod.fst).Nodup →
      ∃ S : Finset P, (v.map Prod.snd).count d = S.card ∧ ∀ p, p ∈ S → (p, d) ∈ v := by
    intro v d hv
    have hn : ((v.filter (fun e => e.2 = d)).map Prod.fst).Nodup := (List.filter_sublist.map _).nodup hv
    refine ⟨⟨((v.filter (fun e => e.2 = d)).map Prod.fst : List P), Multiset.coe_nodup.2 hn⟩, ?_, ?_⟩
    · show _ = ((v.filter (fun e => e.2 = d)).map Prod.fst).length
      rw [List.length_map, List.count_eq_countP, List.countP_map, List.countP_eq_length_filter]
      congr 1
    · intro p hp
      have : p ∈ (v.filter (fun e => e.2 = d)).map Prod.fst := hp
      obtain ⟨⟨p', d'⟩, he, rfl⟩ := List.mem_map.1 this
      rw [List.mem_filter] at he
      have : d' = d := by simpa using he.2
      subst this
      exact he.1
  obtain ⟨Sa, hSa, hSam⟩ := key va (a.hash ea.carrier.message) a1
  obtain ⟨Sb, hSb, hSbm⟩ := key vb (b.hash eb.carrier.message) b1
  -- all members but the owner
  have hnd : ((ma.partyIDtoP2PID.map Prod.snd)).Nodup := by
    have hwf : (ma.partyIDtoP2PID.map Prod.fst).Nodup := hc.wfp
    refine (List.nodup_map_iff_inj_on (List.Nodup.of_map _ hwf)).2 ?_
    rintro ⟨i, p⟩ hi ⟨j, q⟩ hj hpq
    dsimp only at hpq
    subst hpq
    have := hc.inj i j p (Map.get_of_mem hc.wfp hi) (Map.get_of_mem hc.wfp hj)
    rw [this]
  have hcard : ma.partyIDtoP2PID.length = ma.partyIDMap.length := by
    have h1 : (Map.keys ma.partyIDtoP2PID).Perm (Map.keys ma.partyIDMap) := (List.perm_ext_iff_of_nodup hc.wfp hc.wf).2 hc.same
    simpa [Map.keys] using h1.length_eq
  let M : Finset P := ⟨(ma.partyIDtoP2PID.map Prod.snd : List P), hnd⟩
  have hM : M.card = ma.partyIDMap.length := by
    show (ma.partyIDtoP2PID.map Prod.snd).length = _
    rw [List.length_map, hcard]
  have hMm : ∀ p i, Map.get ma.partyIDtoP2PID i = some p → p ∈ M := by
    intro p i hp
    show p ∈ ma.partyIDtoP2PID.map Prod.snd
    exact List.mem_map.2 ⟨(i, p), Map.mem_of_get hp, rfl⟩
  have hsub : Sa ∪ Sb ⊆ M.erase opa := by
    intro p hp
    rw [Finset.mem_erase]
    rcases Finset.mem_union.1 hp with hp | hp
    · refine ⟨?_, ?_⟩
      · rintro rfl; exact a4 (List.mem_map.2 ⟨_, hSam _ hp, rfl⟩)
      · obtain ⟨i, hi⟩ := hmem p _ _ (Or.inl (a7 p _ (hSam p hp)))
        exact hMm p i hi
    · refine ⟨?_, ?_⟩
      · rintro rfl; exact b4 (List.mem_map.2 ⟨_, hSbm _ hp, rfl⟩)
      · obtain ⟨i, hi⟩ := hmem p _ _ (Or.inr (b7 p _ (hSbm p hp)))
        exact hMm p i hi
  have hle := Finset.card_le_card hsub
  rw [Finset.card_erase_of_mem (hMm opa _ a3)] at hle
  have hun := Finset.card_union_add_card_inter Sa Sb
  have hpos : 0 < M.card := Finset.card_pos.2 ⟨opa, hMm opa _ a3⟩
  have hlt : liars.card < (Sa ∩ Sb).card := by omega
  obtain ⟨p, hp, hpl⟩ := Finset.exists_mem_notMem_of_card_lt_card hlt
  rw [Finset.mem_inter] at hp
  refine hinj (hliars p _ _ _ hpl (a7 p _ (hSam p hp.1)) ?_)
  rw [hround]
  exact b7 p _ (hSbm p hp.2)

/-- The whole of C30 is false: in a committee of four (threshold 2) member 1 sends different shares to members 0 and 2, who report to
each other truthfully what they received. Each sees one vote for either digest, which is enough, and breaks the tie by the order
in which it happens to visit its map: both apply, and they apply different shares. -/
theorem c30_two_shares : ∃ (a b : Env Nat Nat) (ma mb : Manager Nat Nat) (wa wb : WireMessage) (ea1 ea2 eb1 eb2 : Event Nat)
    (xa xb : Entry), Committee a.codec ma ∧ Committee b.codec mb ∧ ma.partyIDMap = mb.partyIDMap ∧ ma.localPartyID = 0 ∧
    mb.localPartyID = 2 ∧ wa.sender = some 1 ∧ wb.sender = some 1 ∧ wa.roundInfo = wb.roundInfo ∧ wa.message ≠ wb.message ∧
    Carries a ea1 wa ∧ Confirms a ea2 b.localPeer (cacheKey 1 wb.roundInfo) (b.hash wb.message) ∧
    Carries b eb1 wb ∧ Confirms b eb2 a.localPeer (cacheKey 1 wa.roundInfo) (a.hash wa.message) ∧
    (run a (newTssCommon ma) [ea1, ea2]).log = [xa] ∧ (run b (newTssCommon mb) [eb1, eb2]).log = [xb] ∧
    xa.carrier = wa ∧ xb.carrier = wb ∧ xa.share ≠ xb.share ∧ xa.ok = true ∧ xb.ok = true := by
  refine ⟨demoEnv net1 10, demoEnv net1 12, demoManager 0, demoManager 2, bcast 1 [5], bcast 1 [6], recv 0 0 11, recv 2 1 12,
    recv 0 1 11, recv 2 0 10, ⟨⟨"m", 1, true, [50]⟩, ⟨0, KEYGEN1, "m"⟩, bcast 1 [5], true⟩,
    ⟨⟨"m", 1, true, [60]⟩, ⟨0, KEYGEN1, "m"⟩, bcast 1 [6], true⟩, demoCommittee 0 (by decide), demoCommittee 2 (by decide), rfl, rfl,
    rfl, rfl, rfl, rfl, by decide, ⟨_, _, _, _, _, rfl, rfl, Or.inl ⟨by decide, rfl⟩⟩,
    ⟨_, _, _, _, rfl, rfl, by decide, _, rfl, by decide, rfl⟩, ⟨_, _, _, _, _, rfl, rfl, Or.inl ⟨by decide, rfl⟩⟩,
    ⟨_, _, _, _, rfl, rfl, by decide, _, rfl, by decide, rfl⟩, by decide +kernel, by decide +kernel, rfl, rfl, by decide, rfl, rfl⟩

/-! ### the hypotheses of `c30_agreement_partial` and `c29_unanimous` can be met -/

/-- one message of member 1 and one digest -/
def net2 : DemoNet where
  wires := [bcast 1 [5]]
  confirms := [⟨none, "1-R", demoHash [5]⟩]
  bulks := [([5], [inner 1 [50]])]

/-- member 1's message, confirmed by members 2 to 8 of a committee of thirteen -/
def votes13 : List (Event Nat) := recv 0 0 11 :: [12, 13, 14, 15, 16, 17, 18].map (recv 2 0)

theorem net2_confirms (me p : Nat) (e : Event Nat) (he : e ∈ votes13) (key d : String) (h : Confirms (demoEnv net2 me) e p key d) :
    d = demoHash [5] ∧ key = "1-R" ∧ 12 ≤ p ∧ p ≤ 18 := by
  obtain ⟨raw, sch, t, pl, rfl, hraw, ht, b, hb, rfl, rfl⟩ := h
  simp only [votes13, recv, List.map_cons, List.map_nil, List.mem_cons, List.not_mem_nil, or_false] at he
  rcases he with he | he | he | he | he | he | he | he <;> cases he <;> cases hraw
  · exact absurd ht (by decide)
  all_goals (cases hb; exact ⟨rfl, rfl, by decide, by decide⟩)

theorem net2_carries (me : Nat) (e : Event Nat) (he : e ∈ votes13) (w : WireMessage) (h : Carries (demoEnv net2 me) e w) :
    w = bcast 1 [5] := by
  obtain ⟨raw, peer, sch, t, pl, rfl, hraw, ht⟩ := h
  simp only [votes13, recv, List.map_cons, List.map_nil, List.mem_cons, List.not_mem_nil, or_false] at he
  rcases he with he | he | he | he | he | he | he | he <;> cases he <;> cases hraw <;> rcases ht with ⟨ht, hw⟩ | ⟨ht, _⟩
  · cases hw; rfl
  all_goals exact absurd ht (by decide)

theorem net2_voted (c : Map Nat Party) (p : Nat) (key d : String) (h : Voted (demoEnv net2 10) c votes13 p key d) :
    d = demoHash [5] ∧ (p = 10 ∨ (12 ≤ p ∧ p ≤ 18)) := by
  rcases h with ⟨e, he, h⟩ | ⟨hp, e, he, w, i, hc, _, _, _, _, hd⟩
  · obtain ⟨h1, _, h2⟩ := net2_confirms 10 p e he key d h
    exact ⟨h1, Or.inr h2⟩
  · rw [net2_carries 10 e he w hc] at hd
    exact ⟨hd, Or.inl hp⟩

theorem committee13 : Committee demoCodec (demoManagerN 13 0) := by
  have hg : ∀ i p, Map.get (demoManagerN 13 0).partyIDMap i = some p → p = ⟨i, [UInt8.ofNat (i + 1)], i⟩ ∧ i < 13 := by
    intro i p h
    have h' := Map.mem_of_get h
    have e : (demoManagerN 13 0).partyIDMap = (List.range 13).map (fun i => (i, (⟨i, [UInt8.ofNat (i + 1)], i⟩ : Party))) := by
      decide +kernel
    rw [e] at h'
    obtain ⟨j, hj, hje⟩ := List.mem_map.1 h'
    cases hje
    exact ⟨rfl, List.mem_range.1 hj⟩
  have hp : ∀ i p, Map.get (demoManagerN 13 0).partyIDtoP2PID i = some p → p = i + 10 := by
    intro i p h
    have h' := Map.mem_of_get h
    have e : (demoManagerN 13 0).partyIDtoP2PID = (List.range 13).map (fun i => (i, i + 10)) := rfl
    rw [e] at h'
    obtain ⟨j, hj, hje⟩ := List.mem_map.1 h'
    cases hje
    rfl
  refine ⟨?_, ?_, ?_, ?_, ?_, ?_, ?_⟩
  · show (Map.keys (demoManagerN 13 0).partyIDMap).Nodup
    decide +kernel
  · intro i p h; rw [(hg i p h).1]
  · intro i p h
    obtain ⟨rfl, hi⟩ := hg i p h
    have : ∀ j < 13, ∃ k, k < 40 ∧ PartyIDtoPubKey demoCodec ⟨j, [UInt8.ofNat (j + 1)], j⟩ = .ok k := by decide +kernel
    obtain ⟨k, _, hk⟩ := this i hi
    exact ⟨k, hk⟩
  · show (Map.keys (demoManagerN 13 0).partyIDtoP2PID).Nodup
    decide +kernel
  · intro i
    have : Map.keys (demoManagerN 13 0).partyIDtoP2PID = Map.keys (demoManagerN 13 0).partyIDMap := by decide +kernel
    rw [this]
  · intro i j p hi hj
    have := hp i p hi
    have := hp j p hj
    omega
  · decide +kernel

/-- thirteen members, threshold 8: `c30_agreement_partial` applies with no liars to a history in which the share is applied -/
example (ea eb : Entry) (hea : ea ∈ (run (demoEnv net2 10) (newTssCommon (demoManagerN 13 0)) votes13).log)
    (heb : eb ∈ (run (demoEnv net2 10) (newTssCommon (demoManagerN 13 0)) votes13).log) :
    ea.carrier.message = eb.carrier.message := by
  have hcar : ∀ x ∈ (run (demoEnv net2 10) (newTssCommon (demoManagerN 13 0)) votes13).log, x.carrier = bcast 1 [5] := by
    decide +kernel
  refine c30_agreement_partial _ _ _ _ _ _ committee13 rfl (fun _ => rfl) ea eb hea heb ?_ ?_ ?_ ?_ ?_ ∅ ?_ 8 (by decide +kernel)
    (by decide +kernel) ?_
  · rw [hcar ea hea]; rfl
  · rw [hcar eb heb]; rfl
  · rw [hcar ea hea, hcar eb heb]
  · rw [hcar ea hea, hcar eb heb]
  · intro p key d h
    have hr : ∀ p, (p = 10 ∨ (12 ≤ p ∧ p ≤ 18)) → ∃ i, Map.get (demoManagerN 13 0).partyIDtoP2PID i = some p := by
      intro p hp
      refine ⟨p - 10, ?_⟩
      have : ∀ q < 19, q = 10 ∨ (12 ≤ q ∧ q ≤ 18) → Map.get (demoManagerN 13 0).partyIDtoP2PID (q - 10) = some q := by decide +kernel
      exact this p (by omega) hp
    rcases h with h | h <;> exact hr p (net2_voted _ p key d h).2
  · intro p key d d' _ h h'
    rw [(net2_voted _ p key d h).1, (net2_voted _ p key d' h').1]
  · intro _
    rw [hcar ea hea, hcar eb heb]

/-- and the share is applied -/
example : (run (demoEnv net2 10) (newTssCommon (demoManagerN 13 0)) votes13).log.length = 1 := by decide +kernel

/-- `c29_unanimous` applies to the same history -/
example : (run (demoEnv net2 10) (newTssCommon (demoManagerN 13 0)) votes13).mgr.blame.failReason ≠ HashCheckFail := by
  refine c29_unanimous _ _ committee13 (by decide +kernel) _ ?_ ?_ ?_
  · intro p q key d d' h h'
    rw [(net2_voted _ p key d h).1, (net2_voted _ q key d' h').1]
  · rintro i ri op d hop ⟨e, he, hc⟩
    obtain ⟨_, hk, h2⟩ := net2_confirms 10 op e he _ d hc
    obtain ⟨rfl, _⟩ := cacheKey_inj (show cacheKey i ri = cacheKey 1 "R" from hk.trans (by decide))
    have : op = 11 := by
      have : Map.get (demoManagerN 13 0).partyIDtoP2PID 1 = some 11 := by decide +kernel
      rw [this] at hop; cases hop; rfl
    omega
  · intro e he w i hc hi
    rw [net2_carries 10 e he w hc] at hi
    cases hi
    decide +kernel

end Verif.Props.Session
