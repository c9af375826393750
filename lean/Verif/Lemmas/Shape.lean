import Verif.Lemmas.Session

/-! The processing of a message hands at most one wire message to the local party. -/
set_option linter.unusedSectionVars false
namespace Verif.TssCommon
open Verif.Go Verif.Conversion Verif.Messages Verif.Blame Verif.Threshold Verif.Spec Relation

variable {K P : Type} [DecidableEq K] [DecidableEq P]

/-- the parts concerning the application of shares are the same -/
structure Quiet (s s' : St K P) : Prop where
  jobs : s'.jobs = s.jobs
  log : s'.log = s.log
  next : s'.nextJob = s.nextJob
  accepted : s'.mgr.acceptedShares = s.mgr.acceptedShares
  culprits : s'.culprits = s.culprits
  ids : s'.mgr.partyIDMap = s.mgr.partyIDMap
  peers : s'.mgr.partyIDtoP2PID = s.mgr.partyIDtoP2PID
  crashed : s'.crashed = s.crashed

theorem Quiet.refl (s : St K P) : Quiet s s := ⟨rfl, rfl, rfl, rfl, rfl, rfl, rfl, rfl⟩

theorem Quiet.trans {a b c : St K P} (h : Quiet a b) (h' : Quiet b c) : Quiet a c :=
  ⟨h'.1.trans h.1, h'.2.trans h.2, h'.3.trans h.3, h'.4.trans h.4, h'.5.trans h.5, h'.6.trans h.6, h'.7.trans h.7, h'.8.trans h.8⟩

/-- `w` comes with event `e` or is cached in `s` -/
def WireOf (env : Env K P) (e : Event P) (s : St K P) (w : WireMessage) : Prop :=
  (Carries env e w ∧ Signed env s.mgr.partyIDMap w) ∨ ∃ key item, Map.get s.cache key = some item ∧ item.msg = some w

/-- what an event does to state `s`: nothing concerning shares, or it applies a single wire message (`s1` before, `s2` after) -/
inductive Shape (env : Env K P) (e : Event P) (s s' : St K P) (r : Res Unit) : Prop
  | quiet (h : Quiet s s') (hr : r ≠ .panic)
  | apply (s1 : St K P) (w : WireMessage) (ticks : List (List Nat)) (hq : Quiet s s1) (hw : WireOf env e s w)
      (hq' : Quiet (updateLocal env ticks w s1).1 s') (hr : r = .panic → (updateLocal env ticks w s1).2 = .panic)
  | hollow (h : Quiet s s') (w : WireMessage) (hw : Carries env e w ∨ ∃ key item, Map.get s.cache key = some item ∧ item.msg = some w)
      (hn : w.noSender = false) (hs : w.sender = none)

theorem stepJob_crashed (env : Env K P) (id : Nat) (s : St K P) : (stepJob env id s).crashed = s.crashed := by
  unfold stepJob
  split
  · rfl
  · split
    · rfl
    · rfl
    · unfold processInvalidMsgBlame
      dsimp only
      split <;> rfl

theorem stepJobs_crashed (env : Env K P) (ids : List Nat) (s : St K P) : (stepJobs env ids s).crashed = s.crashed := by
  unfold stepJobs
  induction ids generalizing s with
  | nil => rfl
  | cons i ids ih => exact (ih _).trans (stepJob_crashed env i s)

theorem drain_crashed (env : Env K P) (start : Nat) (s : St K P) : (drain env start s).crashed = s.crashed := by
  unfold drain
  generalize s.jobs.filter (fun j => start ≤ j.id) = l
  induction l generalizing s with
  | nil => rfl
  | cons j l ih => exact (ih _).trans ((stepJob_crashed env _ _).trans (stepJob_crashed env _ _))

theorem feed_crashed (env : Env K P) (w : WireMessage) (start : Nat) : ∀ (bulk : List BulkWireMsg) (ticks : List (List Nat))
    (s : St K P), (feed env w start bulk ticks s).1.crashed = s.crashed := by
  intro bulk
  induction bulk with
  | nil => intro ticks s; exact (drain_crashed env start _).trans (stepJobs_crashed env _ s)
  | cons m rest ih =>
    intro ticks s
    have hs := stepJobs_crashed env (ticks.headD []) s
    unfold feed
    dsimp only
    split
    · split
      · exact hs
      · split
        · exact hs
        · split
          · exact hs
          · split
            · exact hs
            · split
              · exact (ih _ _).trans hs
              · split
                · exact hs
                · exact (ih _ _).trans hs
    · exact hs

theorem updateLocal_crashed (env : Env K P) (ticks : List (List Nat)) (w : WireMessage) (s : St K P) :
    (updateLocal env ticks w s).1.crashed = s.crashed := by
  unfold updateLocal
  split
  · rfl
  · split
    · rfl
    · split
      · rfl
      · split
        · rfl
        · dsimp only
          split
          · split <;> rfl
          · rw [feed_crashed]; split <;> rfl

theorem Shape.crashed_eq {env : Env K P} {e : Event P} {s s' : St K P} {r : Res Unit} (h : Shape env e s s' r) :
    s'.crashed = s.crashed := by
  cases h with
  | quiet h _ => exact h.crashed
  | apply s1 w ticks hq _ hq' _ => exact hq'.crashed.trans ((updateLocal_crashed env ticks w s1).trans hq.crashed)
  | hollow h _ _ _ _ => exact h.crashed

theorem processRequest_quiet (s : St K P) (peers : List P) (msg : Control) (b : Bool) :
    Quiet s (processRequestMsgFromPeer s peers msg b) := by
  unfold processRequestMsgFromPeer
  split
  · exact ⟨rfl, rfl, rfl, rfl, rfl, rfl, rfl, rfl⟩
  · split <;> exact ⟨rfl, rfl, rfl, rfl, rfl, rfl, rfl, rfl⟩

theorem requestShare_quiet (sch : Sched P) (item : Item P) (t : Int) (key : String) (mt : MsgType) (s : St K P) :
    Quiet s (requestShareFromPeer sch item t key mt s) := by
  unfold requestShareFromPeer
  split
  · exact Quiet.refl s
  · rename_i d _
    have h0 : Quiet s { s with mgr := s.mgr.shareSet d } := ⟨rfl, rfl, rfl, rfl, rfl, rfl, rfl, rfl⟩
    dsimp only
    split
    · exact h0.trans (processRequest_quiet _ _ _ _)
    · split
      · exact h0.trans (processRequest_quiet _ _ _ _)
      · split
        · exact h0.trans (processRequest_quiet _ _ _ _)
        · exact h0

theorem partyIDtoPubKey_ne_panic (c : Codec K P) (p : Party) : PartyIDtoPubKey c p ≠ .panic := by
  unfold PartyIDtoPubKey
  split <;> (try split) <;> simp

theorem blameShareOwner_quiet (env : Env K P) (w : WireMessage) (s : St K P) (i : Nat) (hi : w.sender = some i) :
    Quiet s (blameShareOwner env w s).1 ∧ (blameShareOwner env w s).2 ≠ .panic := by
  refine ⟨?_, ?_⟩
  · rw [blameShareOwner_eq]; exact ⟨rfl, rfl, rfl, rfl, rfl, rfl, rfl, rfl⟩
  · have : s.mgr.tssWrongShareBlame env.codec w ≠ .panic := by
      unfold Manager.tssWrongShareBlame
      rw [hi]
      dsimp only
      split
      · simp
      · exact partyIDtoPubKey_ne_panic _ _
    unfold blameShareOwner
    rcases h : s.mgr.tssWrongShareBlame env.codec w with _ | _ | _
    · simp
    · simp
    · exact absurd h this

theorem applyShare_shape (env : Env K P) (e : Event P) (sch : Sched P) (item : Item P) (t : Int) (key : String) (mt : MsgType)
    (s0 s : St K P) (hs : Quiet s0 s) (w : WireMessage) (hm : item.msg = some w) (i : Nat) (hi : w.sender = some i)
    (hw : WireOf env e s0 w) :
    Shape env e s0 (applyShare env sch item t key mt s).1 (applyShare env sch item t key mt s).2 := by
  unfold applyShare
  rw [hm]
  simp only [hi]
  rcases hh : hashCheck s sch.f1 item i t with ⟨item', er⟩
  dsimp only
  have h1 : Quiet s0 { s with cache := Map.set s.cache key item' } := hs.trans ⟨rfl, rfl, rfl, rfl, rfl, rfl, rfl, rfl⟩
  rcases er with _ | er
  · dsimp only
    rcases hu : updateLocal env sch.ticks w { s with cache := Map.set s.cache key item', mgr := s.mgr.roundSet key w } with ⟨s1, r⟩
    have h2 : Quiet s0 { s with cache := Map.set s.cache key item', mgr := s.mgr.roundSet key w } :=
      hs.trans ⟨rfl, rfl, rfl, rfl, rfl, rfl, rfl, rfl⟩
    cases r with
    | ok _ => exact Shape.apply _ w sch.ticks h2 hw (by rw [hu]; exact ⟨rfl, rfl, rfl, rfl, rfl, rfl, rfl, rfl⟩) (by simp)
    | err _ => exact Shape.apply _ w sch.ticks h2 hw (by rw [hu]; exact Quiet.refl _) (by simp)
    | panic => exact Shape.apply _ w sch.ticks h2 hw (by rw [hu]; exact Quiet.refl _) (by rw [hu]; simp)
  · have hb := blameShareOwner_quiet env w { s with cache := Map.set s.cache key item' } i hi
    cases er with
    | notEnoughPeer => exact Shape.quiet h1 (by simp)
    | notMajority =>
      refine Shape.quiet (h1.trans (Quiet.trans ?_ (requestShare_quiet _ _ _ _ _ _))) (by simp)
      exact ⟨rfl, rfl, rfl, rfl, rfl, rfl, rfl, rfl⟩
    | _ => exact Shape.quiet (h1.trans hb.1) hb.2

theorem receiverBroadcast_quiet (env : Env K P) (i : Nat) (key d : String) (mt : MsgType) (s : St K P) :
    Quiet s (receiverBroadcastHash env i key d mt s) ∧ (receiverBroadcastHash env i key d mt s).cache = s.cache := by
  unfold receiverBroadcastHash
  split
  · exact ⟨Quiet.refl s, rfl⟩
  · dsimp only
    split
    · exact ⟨Quiet.refl s, rfl⟩
    · exact ⟨⟨rfl, rfl, rfl, rfl, rfl, rfl, rfl, rfl⟩, rfl⟩

theorem getThreshold_ne_panic (n : Int) : GetThreshold n ≠ .panic := by
  unfold GetThreshold
  split <;> simp

theorem arrived_msg (env : Env K P) (old : Option (Item P)) (w : WireMessage) :
    (arrived env old w).msg = some w ∨ ∃ it w0, old = some it ∧ it.msg = some w0 ∧ (arrived env old w).msg = some w0 := by
  rcases old with _ | it
  · exact Or.inl rfl
  · rcases hm : it.msg with _ | w0
    · left; simp [arrived, hm]
    · right; exact ⟨it, w0, rfl, hm, by simp [arrived, hm]⟩

theorem processTSSMsg_shape (env : Env K P) (e : Event P) (sch : Sched P) (w : WireMessage) (mt : MsgType) (fwd : Bool)
    (s0 s : St K P) (hs : Quiet s0 s) (hcache : s.cache = s0.cache) (hc : Carries env e w)
    (hcs : ∀ key item w0, Map.get s0.cache key = some item → item.msg = some w0 → ∃ i, w0.sender = some i) :
    Shape env e s0 (processTSSMsg env sch w mt fwd s).1 (processTSSMsg env sch w mt fwd s).2 := by
  unfold processTSSMsg
  by_cases hn : w.noSender = true
  · rw [if_pos hn]; exact Shape.quiet hs (by simp)
  · rw [if_neg hn]
    rcases hi : w.sender with _ | i
    · exact Shape.hollow hs w (Or.inl hc) (by simpa using hn) hi
    · dsimp only
      rcases hip : Map.get s.mgr.partyIDMap i with _ | p
      · exact Shape.quiet hs (by simp)
      · dsimp only
        by_cases hv : env.verify p.key (w.message ++ env.msgID) w.sig = true
        · rw [if_neg (by simp [hv])]
          have hsig : Signed env s0.mgr.partyIDMap w := ⟨i, p, hi, by rw [← hs.ids]; exact hip, hv⟩
          by_cases hb : w.isBroadcast = true
          · rw [if_neg (by simp [hb])]
            have key : Quiet s (if fwd then s else receiverBroadcastHash env i (cacheKey i w.roundInfo) (env.hash w.message) mt s) ∧
                (if fwd then s else receiverBroadcastHash env i (cacheKey i w.roundInfo) (env.hash w.message) mt s).cache = s.cache := by
              cases fwd
              · exact receiverBroadcast_quiet env i _ _ mt s
              · exact ⟨Quiet.refl s, rfl⟩
            generalize (if fwd then s else receiverBroadcastHash env i (cacheKey i w.roundInfo) (env.hash w.message) mt s) = s1 at key
            obtain ⟨h1, h2⟩ := key
            have h3 : Quiet s0 { s1 with cache := (Map.set s1.cache (cacheKey i w.roundInfo)
                (arrived env (Map.get s1.cache (cacheKey i w.roundInfo)) w)) } := (hs.trans h1).trans ⟨rfl, rfl, rfl, rfl, rfl, rfl, rfl, rfl⟩
            rcases ht : GetThreshold s1.mgr.partyIDMap.length with t | er | _
            · dsimp only
              rcases arrived_msg env (Map.get s1.cache (cacheKey i w.roundInfo)) w with hm | ⟨it, w0, ho, hm0, hm⟩
              · exact applyShare_shape env e sch _ t _ mt s0 _ h3 w hm i hi (Or.inl ⟨hc, hsig⟩)
              · rw [h2, hcache] at ho
                obtain ⟨j, hj⟩ := hcs _ it w0 ho hm0
                exact applyShare_shape env e sch _ t _ mt s0 _ h3 w0 hm j hj (Or.inr ⟨_, it, ho, hm0⟩)
            · dsimp only
              exact Shape.quiet h3 (by simp)
            · exact absurd ht (getThreshold_ne_panic _)
          · rw [if_pos (by simpa using hb)]
            exact Shape.apply s w sch.ticks hs (Or.inl ⟨hc, hsig⟩) (Quiet.refl _) (fun h => h)
        · rw [if_pos (by simpa using hv)]
          exact Shape.quiet hs (by simp)

theorem processVerMsg_shape (env : Env K P) (e : Event P) (sch : Sched P) (b : ConfirmMsg P) (mt : MsgType) (s : St K P)
    (hcs : ∀ key item w0, Map.get s.cache key = some item → item.msg = some w0 → ∃ i, w0.sender = some i) :
    Shape env e s (processVerMsg env sch b mt s).1 (processVerMsg env sch b mt s).2 := by
  unfold processVerMsg
  rcases hp : b.p2pid with _ | peer
  · exact Shape.quiet (Quiet.refl s) (by simp)
  · dsimp only
    have h3 : Quiet s { s with cache := Map.set s.cache b.key (confirmedItem (Map.get s.cache b.key) peer b.hash) } :=
      ⟨rfl, rfl, rfl, rfl, rfl, rfl, rfl, rfl⟩
    rcases ht : GetThreshold s.mgr.partyIDMap.length with t | er | _
    · dsimp only
      split
      · exact Shape.quiet (h3.trans (requestShare_quiet _ _ _ _ _ _)) (by simp)
      · rename_i hmn
        rcases ho : Map.get s.cache b.key with _ | it
        · rw [ho] at hmn; exact absurd rfl hmn
        · rw [ho] at hmn
          rcases hm : it.msg with _ | w0
          · simp [confirmedItem, hm] at hmn
          · obtain ⟨j, hj⟩ := hcs _ it w0 ho hm
            rw [ho] at h3
            exact applyShare_shape env e sch _ t _ mt s _ h3 w0 hm j hj (Or.inr ⟨_, it, ho, hm⟩)
    · exact Shape.quiet h3 (by simp)
    · exact absurd ht (getThreshold_ne_panic _)

/-- the processing of one message; a close of a closed channel is excluded by `hdone` -/
theorem ProcessOneMessage_shape (env : Env K P) (raw : Bytes) (peer : P) (sch : Sched P) (type : MsgType) (payload : Bytes)
    (hraw : env.decWrapped raw = some (type, payload)) (s : St K P)
    (hcs : ∀ key item w0, Map.get s.cache key = some item → item.msg = some w0 → ∃ i, w0.sender = some i)
    (hdone : s.taskDone = true → ((s.finished.length : Int) + 1 ≠ (s.mgr.partyIDMap.length : Int) - 1)) :
    Shape env (.msg raw peer sch) s (ProcessOneMessage env sch type payload peer s).1
      (ProcessOneMessage env sch type payload peer s).2 := by
  unfold ProcessOneMessage
  have hq := Quiet.refl s
  by_cases h1 : type = TSSKeyGenMsg ∨ type = TSSKeySignMsg
  · rw [if_pos h1]
    rcases hw : env.decWire payload with _ | w
    · exact Shape.quiet hq (by simp)
    · exact processTSSMsg_shape env _ sch w type false s s hq rfl ⟨raw, peer, sch, type, payload, rfl, hraw, Or.inl ⟨h1, hw⟩⟩ hcs
  · rw [if_neg h1]
    by_cases h2 : type = TSSKeyGenVerMsg ∨ type = TSSKeySignVerMsg
    · rw [if_pos h2]
      rcases hd : env.decConfirm payload with _ | b
      · exact Shape.quiet hq (by simp)
      · dsimp only
        rcases hdup : checkDup s b peer with _ | b'
        · exact Shape.quiet hq (by simp)
        · exact processVerMsg_shape env _ sch b' type s hcs
    · rw [if_neg h2]
      by_cases h3 : type = TSSTaskDone
      · rw [if_pos h3]
        rcases hd : env.decTask payload with _ | b
        · exact Shape.quiet hq (by simp)
        · cases b
          · exact Shape.quiet hq (by simp)
          · dsimp only
            unfold processTaskDone
            split
            · exact Shape.quiet hq (by simp)
            · dsimp only
              split
              · rename_i hl
                split
                · rename_i hd'
                  exact absurd (by simpa using hl) (hdone hd')
                · exact Shape.quiet ⟨rfl, rfl, rfl, rfl, rfl, rfl, rfl, rfl⟩ (by simp)
              · exact Shape.quiet ⟨rfl, rfl, rfl, rfl, rfl, rfl, rfl, rfl⟩ (by simp)
      · rw [if_neg h3]
        by_cases h4 : type = TSSControlMsg
        · rw [if_pos h4]
          rcases hd : env.decControl payload with _ | c
          · exact Shape.quiet hq (by simp)
          · dsimp only
            rcases hm : c.msg with _ | w
            · dsimp only
              exact Shape.quiet (processRequest_quiet _ _ _ _) (by simp)
            · dsimp only
              have hq' : Quiet s { s with mgr := (s.mgr.queryAndDelete c.reqHash).1 } := ⟨rfl, rfl, rfl, rfl, rfl, rfl, rfl, rfl⟩
              split
              · exact processTSSMsg_shape env _ sch w c.requestType true s _ hq' rfl
                  ⟨raw, peer, sch, type, payload, rfl, hraw, Or.inr ⟨h4, c, hd, hm⟩⟩ hcs
              · exact Shape.quiet hq' (by simp)
        · rw [if_neg h4]
          exact Shape.quiet hq (by simp)

/-- cached messages of a reachable state name their sender -/
theorem Good.cached_sender {env : Env K P} {m : Manager K P} {h : List (Event P)} {s : St K P} (hg : Good env m h s) :
    ∀ key item w0, Map.get s.cache key = some item → item.msg = some w0 → ∃ i, w0.sender = some i := by
  intro key item w0 hk hm
  obtain ⟨_, _, _, ⟨i, hi, _⟩, _⟩ := (hg.cache key item hk).msg w0 hm
  exact ⟨i, hi⟩

/-- wire messages that may be applied were received and are signed -/
theorem WireOf.just {env : Env K P} {m : Manager K P} {h : List (Event P)} {e : Event P} {s : St K P} {w : WireMessage}
    (hg : Good env m h s) (hw : WireOf env e s w) : (∃ e' ∈ h ++ [e], Carries env e' w) ∧ Signed env m.partyIDMap w := by
  rcases hw with ⟨hc, hs⟩ | ⟨key, item, hk, hm⟩
  · exact ⟨⟨e, by simp, hc⟩, by rw [← hg.ids]; exact hs⟩
  · obtain ⟨⟨e', he', hc⟩, hs, _⟩ := (hg.cache key item hk).msg w hm
    exact ⟨⟨e', by simp [he'], hc⟩, hs⟩

end Verif.TssCommon
