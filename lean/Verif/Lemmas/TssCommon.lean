import Verif.Spec.Session
import Verif.Lemmas.Freq
import Mathlib.Logic.Relation
import Mathlib.Tactic.Tauto

/-! Decomposition of the processing of a message into elementary state changes. -/
set_option linter.unusedSectionVars false
namespace Verif.TssCommon
open Verif.Go Verif.Conversion Verif.Messages Verif.Blame Verif.Threshold Verif.Spec Relation

variable {K P : Type} [DecidableEq K] [DecidableEq P]

theorem set_same {α β : Type} [DecidableEq α] {m : Map α β} {k : α} {v : β} (h : Map.get m k = some v) : Map.set m k v = m := by
  induction m with
  | nil => simp at h
  | cons p m ih =>
    obtain ⟨k', v'⟩ := p
    by_cases hk : k' = k
    · simp [Map.get, hk] at h; simp [Map.set, hk, h]
    · simp [Map.get, hk] at h; simp [Map.set, hk, ih h]

theorem set_ne_nil {α β : Type} [DecidableEq α] (m : Map α β) (k : α) (v : β) : Map.set m k v ≠ [] := by
  intro h
  have := Map.get_set_self m k v
  rw [h] at this
  cases this

theorem set_set {α β : Type} [DecidableEq α] (m : Map α β) (k : α) (v w : β) :
    Map.set (Map.set m k v) k w = Map.set m k w := by
  induction m with
  | nil => simp [Map.set]
  | cons p m ih =>
    obtain ⟨k', v'⟩ := p
    by_cases hk : k' = k
    · simp [Map.set, hk]
    · simp [Map.set, hk, ih]

/-- the vote on a cached message is won -/
structure Passed (s : St K P) (item : Item P) (w : WireMessage) : Prop where
  won : ∃ i peer t, w.sender = some i ∧ Map.get s.mgr.partyIDtoP2PID i = some peer ∧
    GetThreshold s.mgr.partyIDMap.length = .ok t ∧ t ≤ (item.confirmed.length : Int) ∧ peer ∉ Map.keys item.confirmed ∧
    ∃ σ, getMsgHash σ item t = .ok item.hash

/-- a wire message whose shares may be handed to the local party -/
def Source (env : Env K P) (e : Event P) (s : St K P) (w : WireMessage) : Prop :=
  (Carries env e w ∧ Signed env s.mgr.partyIDMap w ∧ w.isBroadcast = false) ∨
  ∃ key item, Map.get s.cache key = some item ∧ item.msg = some w ∧ Passed s item w

/-- the blame record after a failed hash check of `w` -/
def hashBlame (env : Env K P) (s : St K P) (w : WireMessage) : Blame K :=
  match s.mgr.tssWrongShareBlame env.codec w with
  | .ok pk => s.mgr.blame.setBlame HashCheckFail [⟨pk, w.message, w.sig⟩] (!w.isBroadcast)
  | .err _ => s.mgr.blame.setBlame HashCheckFail [] (!w.isBroadcast)
  | .panic => s.mgr.blame

/-- the elementary changes an event can cause -/
inductive Micro (env : Env K P) (e : Event P) : St K P → St K P → Prop
  | work (s : St K P) (id : Nat) : Micro env e s (stepJob env id s)
  | queue (s : St K P) (w : WireMessage) (bulk : List BulkWireMsg) (m : BulkWireMsg) (r : Routing) (i : Nat) (p : Party)
      (round : RoundInfo) (hs : Source env e s w) (hb : env.decBulk w.message = some bulk) (hm : m ∈ bulk)
      (hp : m.ident ∈ env.parties) (hr : m.routing = some r) (hi : r.sender = some i)
      (hip : Map.get s.mgr.partyIDMap i = some p) (hround : GetMsgRound env.parse m.wired = some round)
      (hdup : s.mgr.checkMsgDuplication { round with msgIdentifier := m.ident } i = false)
      (hc : s.culprits.any (fun c => c.stored && decide (c.id = i)) = false) :
      Micro env e s { s with
        jobs := s.jobs ++ [⟨s.nextJob, ⟨m.ident, i, r.isBroadcast, m.wired⟩, { round with msgIdentifier := m.ident }, w, none⟩]
        nextJob := s.nextJob + 1 }
  | arrive (s : St K P) (w : WireMessage) (i : Nat) (hc : Carries env e w) (hs : Signed env s.mgr.partyIDMap w)
      (hi : w.sender = some i) (hb : w.isBroadcast = true) :
      Micro env e s { s with
        cache := Map.set s.cache (cacheKey i w.roundInfo) (arrived env (Map.get s.cache (cacheKey i w.roundInfo)) w) }
  | vote (s : St K P) (peer : P) (key d : String) (hc : Confirms env e peer key d) (hd : ∀ it, Map.get s.cache key = some it → peer ∉ Map.keys it.confirmed) :
      Micro env e s { s with cache := Map.set s.cache key (confirmedItem (Map.get s.cache key) peer d) }
  | blameOwner (s : St K P) (key : String) (item : Item P) (w : WireMessage) (i : Nat) (peer : P) (t : Int)
      (hk : Map.get s.cache key = some item) (hm : item.msg = some w) (hi : w.sender = some i)
      (hp : Map.get s.mgr.partyIDtoP2PID i = some peer) (ht : GetThreshold s.mgr.partyIDMap.length = .ok t)
      (hn : t ≤ (item.confirmed.length : Int)) (hv : peer ∈ Map.keys item.confirmed) :
      Micro env e s { s with
        cache := Map.set s.cache key { item with confirmed := Map.del item.confirmed peer }
        mgr := { s.mgr with blame := hashBlame env s w } }
  | blameSplit (s : St K P) (key : String) (item : Item P) (w : WireMessage) (i : Nat) (t : Int)
      (hk : Map.get s.cache key = some item) (hm : item.msg = some w) (hi : w.sender = some i)
      (ht : GetThreshold s.mgr.partyIDMap.length = .ok t)
      (hn : (Map.get s.mgr.partyIDtoP2PID i = none) ∨ (t ≤ (item.confirmed.length : Int) ∧
        ∀ d, (((item.confirmed.map Prod.snd).count d : Nat) : Int) < t - 1)) :
      Micro env e s { s with mgr := { s.mgr with blame := hashBlame env s w } }
  | dropMsg (s : St K P) (key : String) (item : Item P) (hk : Map.get s.cache key = some item) :
      Micro env e s { s with cache := Map.set s.cache key { item with msg := none } }
  | store (s : St K P) (key : String) (item : Item P) (w : WireMessage) (hk : Map.get s.cache key = some item)
      (hm : item.msg = some w) (hw : Passed s item w) : Micro env e s { s with mgr := s.mgr.roundSet key w }
  | unicast (s : St K P) (w : WireMessage) (i : Nat) (peer : P) (hs : Source env e s w) (hi : w.sender = some i)
      (hp : Map.get s.mgr.partyIDtoP2PID i = some peer) (hb : w.isBroadcast = false) :
      Micro env e s { s with mgr := s.mgr.setLastUnicastPeer peer w.roundInfo }
  | forget (s : St K P) (key : String) (item : Item P) (w : WireMessage) (hk : Map.get s.cache key = some item)
      (hm : item.msg = some w) (hw : Passed s item w) (hst : Map.get s.mgr.storedMsg key = some w) :
      Micro env e s { s with cache := Map.del s.cache key }
  | ask (s : St K P) (key : String) (item : Item P) (t : Int) (d : String) (mt : MsgType) (o : Shuffle (P × String))
      (hk : Map.get s.cache key = some item) (hn : item.msg = none) (ht : GetThreshold s.mgr.partyIDMap.length = .ok t)
      (hd : ∃ σ, getMsgHash σ item t = .ok d) (hmt : mt = TSSKeyGenMsg ∨ mt = TSSKeySignMsg) :
      Micro env e s { s with
        mgr := s.mgr.shareSet d
        sent := s.sent ++ [⟨.control ⟨d, key, mt, none⟩, ((o.f item.confirmed).filter (fun e => e.2 = d)).map Prod.fst⟩] }
  | askSilent (s : St K P) (key : String) (item : Item P) (t : Int) (d : String)
      (hk : Map.get s.cache key = some item) (hn : item.msg = none) (ht : GetThreshold s.mgr.partyIDMap.length = .ok t)
      (hd : ∃ σ, getMsgHash σ item t = .ok d) (ho : OddAnswer env e) :
      Micro env e s { s with mgr := s.mgr.shareSet d }
  | answer (s : St K P) (d : String) : Micro env e s { s with mgr := (s.mgr.queryAndDelete d).1 }
  | sendConfirm (s : St K P) (mt : MsgType) (w : WireMessage) (i : Nat) (peer : P) (hw : Delivers env e mt w)
      (hs : Signed env s.mgr.partyIDMap w) (hi : w.sender = some i) (hb : w.isBroadcast = true)
      (hp : Map.get s.mgr.partyIDtoP2PID i = some peer) :
      Micro env e s { s with sent := s.sent ++ [⟨.confirm (getBroadcastMessageType mt) (cacheKey i w.roundInfo) (env.hash w.message),
        env.p2pPeers.filter (fun el => el ≠ peer)⟩] }
  | sendAnswer (s : St K P) (peer : P) (c : Control) (w : WireMessage) (hc : Requests env e peer c)
      (hw : Map.get s.mgr.storedMsg c.reqKey = some w) :
      Micro env e s { s with sent := s.sent ++ [⟨.control { c with msg := some w }, [peer]⟩] }
  | done (s : St K P) (peer : P) (h : ReportsDone env e peer) (hn : peer ∉ s.finished) (b : Bool)
      (hb : b = if ((s.finished.length + 1 : Nat) : Int) = (s.mgr.partyIDMap.length : Int) - 1 then true else s.taskDone) :
      Micro env e s { s with finished := s.finished ++ [peer], taskDone := b }
  | crash (s : St K P) : Micro env e s { s with crashed := true }

abbrev Micros (env : Env K P) (e : Event P) : St K P → St K P → Prop := ReflTransGen (Micro env e)

/-! ### worker steps leave the cache and the committee alone -/

/-- the parts of the state no worker step touches -/
structure SameFrame (s s' : St K P) : Prop where
  cache : s'.cache = s.cache
  ids : s'.mgr.partyIDMap = s.mgr.partyIDMap
  peers : s'.mgr.partyIDtoP2PID = s.mgr.partyIDtoP2PID
  stored : s'.mgr.storedMsg = s.mgr.storedMsg

theorem SameFrame.refl (s : St K P) : SameFrame s s := ⟨rfl, rfl, rfl, rfl⟩

theorem SameFrame.trans {a b c : St K P} (h1 : SameFrame a b) (h2 : SameFrame b c) : SameFrame a c :=
  ⟨h2.1.trans h1.1, h2.2.trans h1.2, h2.3.trans h1.3, h2.4.trans h1.4⟩

theorem updateAcceptShare_maps (m : Manager K P) (r : RoundInfo) (i : Nat) :
    (m.updateAcceptShare r i).partyIDMap = m.partyIDMap ∧ (m.updateAcceptShare r i).partyIDtoP2PID = m.partyIDtoP2PID ∧
    (m.updateAcceptShare r i).storedMsg = m.storedMsg ∧ (m.updateAcceptShare r i).blame = m.blame ∧
    (m.updateAcceptShare r i).localPartyID = m.localPartyID := by
  unfold Manager.updateAcceptShare; split <;> exact ⟨rfl, rfl, rfl, rfl, rfl⟩

theorem setLastUnicastPeer_maps (m : Manager K P) (r : P) (i : String) :
    (m.setLastUnicastPeer r i).partyIDMap = m.partyIDMap ∧ (m.setLastUnicastPeer r i).partyIDtoP2PID = m.partyIDtoP2PID ∧
    (m.setLastUnicastPeer r i).storedMsg = m.storedMsg ∧ (m.setLastUnicastPeer r i).blame = m.blame ∧
    (m.setLastUnicastPeer r i).acceptedShares = m.acceptedShares ∧ (m.setLastUnicastPeer r i).localPartyID = m.localPartyID := by
  unfold Manager.setLastUnicastPeer; split <;> exact ⟨rfl, rfl, rfl, rfl, rfl, rfl⟩

theorem stepJob_frame (env : Env K P) (id : Nat) (s : St K P) : SameFrame s (stepJob env id s) := by
  unfold stepJob
  split
  · exact SameFrame.refl s
  · split
    · exact ⟨rfl, rfl, rfl, rfl⟩
    · exact ⟨rfl, (updateAcceptShare_maps _ _ _).1, (updateAcceptShare_maps _ _ _).2.1, (updateAcceptShare_maps _ _ _).2.2.1⟩
    · unfold processInvalidMsgBlame
      dsimp only
      split <;> exact ⟨rfl, rfl, rfl, rfl⟩

theorem Passed.frame' {s s' : St K P} {item : Item P} {w : WireMessage} (h : Passed s item w)
    (hids : s'.mgr.partyIDMap = s.mgr.partyIDMap) (hpeers : s'.mgr.partyIDtoP2PID = s.mgr.partyIDtoP2PID) :
    Passed s' item w := by
  obtain ⟨i, peer, t, h1, h2, h3, h4⟩ := h.won
  exact ⟨i, peer, t, h1, by rw [hpeers]; exact h2, by rw [hids]; exact h3, h4⟩

theorem Passed.frame {s s' : St K P} {item : Item P} {w : WireMessage} (h : Passed s item w) (hf : SameFrame s s') :
    Passed s' item w := h.frame' hf.ids hf.peers

theorem Source.frame {env : Env K P} {e : Event P} {s s' : St K P} {w : WireMessage} (h : Source env e s w)
    (hf : SameFrame s s') : Source env e s' w := by
  rcases h with ⟨h1, h2, h3⟩ | ⟨key, item, h1, h2, h3⟩
  · left; exact ⟨h1, by rw [hf.ids]; exact h2, h3⟩
  · right; exact ⟨key, item, by rw [hf.cache]; exact h1, h2, h3.frame hf⟩

theorem stepJobs_micro (env : Env K P) (e : Event P) (ids : List Nat) (s : St K P) :
    Micros env e s (stepJobs env ids s) ∧ SameFrame s (stepJobs env ids s) := by
  induction ids generalizing s with
  | nil => exact ⟨ReflTransGen.refl, SameFrame.refl s⟩
  | cons i ids ih =>
    obtain ⟨h1, h2⟩ := ih (stepJob env i s)
    exact ⟨ReflTransGen.head (Micro.work s i) h1, (stepJob_frame env i s).trans h2⟩

theorem drain_micro (env : Env K P) (e : Event P) (start : Nat) (s : St K P) :
    Micros env e s (drain env start s) ∧ SameFrame s (drain env start s) := by
  unfold drain
  generalize s.jobs.filter (fun j => start ≤ j.id) = l
  induction l generalizing s with
  | nil => exact ⟨ReflTransGen.refl, SameFrame.refl s⟩
  | cons j l ih =>
    obtain ⟨h1, h2⟩ := ih (stepJob env j.id (stepJob env j.id s))
    exact ⟨ReflTransGen.head (Micro.work s j.id) (ReflTransGen.head (Micro.work _ j.id) h1),
      ((stepJob_frame env j.id s).trans (stepJob_frame env j.id _)).trans h2⟩

theorem feed_micro (env : Env K P) (e : Event P) (w : WireMessage) (bulk : List BulkWireMsg)
    (hb : env.decBulk w.message = some bulk) (start : Nat) :
    ∀ (rest : List BulkWireMsg) (ticks : List (List Nat)) (s : St K P), (∀ m ∈ rest, m ∈ bulk) → Source env e s w →
      Micros env e s (feed env w start rest ticks s).1 ∧ SameFrame s (feed env w start rest ticks s).1 := by
  intro rest
  induction rest with
  | nil =>
    intro ticks s _ _
    simp only [feed]
    obtain ⟨h1, h2⟩ := stepJobs_micro env e (ticks.headD []) s
    obtain ⟨h3, h4⟩ := drain_micro env e start (stepJobs env (ticks.headD []) s)
    exact ⟨h1.trans h3, h2.trans h4⟩
  | cons m rest ih =>
    intro ticks s hsub hs
    simp only [feed]
    obtain ⟨h1, h2⟩ := stepJobs_micro env e (ticks.headD []) s
    generalize stepJobs env (ticks.headD []) s = s1 at h1 h2
    have hs1 := hs.frame h2
    by_cases hp : m.ident ∈ env.parties
    · rw [if_pos hp]
      rcases hr : m.routing with _ | r
      · exact ⟨h1, h2⟩
      · dsimp only
        rcases hi : r.sender with _ | i
        · exact ⟨h1, h2⟩
        · dsimp only
          rcases hip : Map.get s1.mgr.partyIDMap i with _ | p
          · exact ⟨h1, h2⟩
          · dsimp only
            rcases hround : GetMsgRound env.parse m.wired with _ | round
            · exact ⟨h1, h2⟩
            · dsimp only
              by_cases hdup : s1.mgr.checkMsgDuplication { round with msgIdentifier := m.ident } i = true
              · rw [if_pos hdup]
                obtain ⟨h3, h4⟩ := ih ticks.tail s1 (fun x hx => hsub x (by simp [hx])) hs1
                exact ⟨h1.trans h3, h2.trans h4⟩
              · rw [if_neg hdup]
                by_cases hc : s1.culprits.any (fun c => c.stored && decide (c.id = i)) = true
                · rw [if_pos hc]; exact ⟨h1, h2⟩
                · rw [if_neg hc]
                  have hq := Micro.queue (e := e) s1 w bulk m r i p round hs1 hb (hsub m (by simp)) hp hr hi hip hround
                    (by simpa using hdup) (by simpa using hc)
                  have hf : SameFrame s1 { s1 with
                      jobs := s1.jobs ++ [⟨s1.nextJob, ⟨m.ident, i, r.isBroadcast, m.wired⟩,
                        { round with msgIdentifier := m.ident }, w, none⟩]
                      nextJob := s1.nextJob + 1 } := ⟨rfl, rfl, rfl, rfl⟩
                  obtain ⟨h3, h4⟩ := ih ticks.tail _ (fun x hx => hsub x (by simp [hx])) (hs1.frame hf)
                  exact ⟨(h1.tail hq).trans h3, (h2.trans hf).trans h4⟩
    · rw [if_neg hp]; exact ⟨h1, h2⟩

theorem updateLocal_micro (env : Env K P) (e : Event P) (ticks : List (List Nat)) (w : WireMessage) (s : St K P)
    (hs : Source env e s w) :
    Micros env e s (updateLocal env ticks w s).1 ∧ SameFrame s (updateLocal env ticks w s).1 := by
  unfold updateLocal
  by_cases hn : w.noSender = true
  · rw [if_pos hn]; exact ⟨ReflTransGen.refl, SameFrame.refl s⟩
  · rw [if_neg hn]
    rcases hi : w.sender with _ | i
    · exact ⟨ReflTransGen.refl, SameFrame.refl s⟩
    · dsimp only
      rcases hip : Map.get s.mgr.partyIDMap i with _ | p
      · exact ⟨ReflTransGen.refl, SameFrame.refl s⟩
      · dsimp only
        rcases hpe : Map.get s.mgr.partyIDtoP2PID i with _ | peer
        · exact ⟨ReflTransGen.refl, SameFrame.refl s⟩
        · dsimp only
          have key : Micros env e s (if w.isBroadcast then s else { s with mgr := s.mgr.setLastUnicastPeer peer w.roundInfo }) ∧
              SameFrame s (if w.isBroadcast then s else { s with mgr := s.mgr.setLastUnicastPeer peer w.roundInfo }) := by
            by_cases hb : w.isBroadcast = true
            · rw [if_pos hb]; exact ⟨ReflTransGen.refl, SameFrame.refl s⟩
            · rw [if_neg hb]
              exact ⟨ReflTransGen.single (Micro.unicast s w i peer hs hi hpe (by simpa using hb)),
                rfl, (setLastUnicastPeer_maps _ _ _).1, (setLastUnicastPeer_maps _ _ _).2.1, (setLastUnicastPeer_maps _ _ _).2.2.1⟩
          generalize (if w.isBroadcast then s else { s with mgr := s.mgr.setLastUnicastPeer peer w.roundInfo }) = s1 at key
          obtain ⟨h1, h2⟩ := key
          rcases hd : env.decBulk w.message with _ | bulk
          · exact ⟨h1, h2⟩
          · dsimp only
            obtain ⟨h3, h4⟩ := feed_micro env e w bulk hd s1.nextJob bulk ticks s1 (fun m hm => hm) (hs.frame h2)
            exact ⟨h1.trans h3, h2.trans h4⟩

/-- the message types for which a request can be sent -/
def Plain (env : Env K P) (e : Event P) (mt : MsgType) : Prop :=
  mt ∈ [TSSKeyGenMsg, TSSKeySignMsg, TSSKeyGenVerMsg, TSSKeySignVerMsg] ∨ OddAnswer env e

theorem requestShare_micro (env : Env K P) (e : Event P) (sch : Sched P) (item : Item P) (t : Int) (key : String) (mt : MsgType)
    (s : St K P) (hk : Map.get s.cache key = some item) (hn : item.msg = none) (ht : GetThreshold s.mgr.partyIDMap.length = .ok t)
    (hpl : Plain env e mt) :
    Micros env e s (requestShareFromPeer sch item t key mt s) := by
  unfold requestShareFromPeer
  split
  · exact ReflTransGen.refl
  · dsimp only
    rename_i d hd
    have h' : ∀ mt, mt = TSSKeyGenMsg ∨ mt = TSSKeySignMsg → Micros env e s _ := fun mt hmt =>
      ReflTransGen.single (Micro.ask (env := env) (e := e) s key item t d mt sch.o hk hn ht ⟨_, hd⟩ hmt)
    simp only [processRequestMsgFromPeer, if_true]
    by_cases h1 : mt = TSSKeyGenVerMsg
    · rw [if_pos h1]; exact h' _ (Or.inl rfl)
    · rw [if_neg h1]
      by_cases h2 : mt = TSSKeySignVerMsg
      · rw [if_pos h2]; exact h' _ (Or.inr rfl)
      · rw [if_neg h2]
        by_cases h3 : mt = TSSKeySignMsg ∨ mt = TSSKeyGenMsg
        · rw [if_pos h3]; exact h' _ h3.symm
        · rw [if_neg h3]
          rcases hpl with hpl | ho
          · exact absurd hpl (by simp only [List.mem_cons, List.not_mem_nil, or_false, not_or]; tauto)
          · exact ReflTransGen.single (Micro.askSilent s key item t d hk hn ht ⟨_, hd⟩ ho)

theorem blameShareOwner_eq (env : Env K P) (w : WireMessage) (s : St K P) :
    (blameShareOwner env w s).1 = { s with mgr := { s.mgr with blame := hashBlame env s w } } := by
  unfold blameShareOwner hashBlame
  rcases s.mgr.tssWrongShareBlame env.codec w <;> rfl

theorem applyShare_micro (env : Env K P) (e : Event P) (sch : Sched P) (item : Item P) (t : Int) (key : String) (mt : MsgType)
    (s : St K P) (hk : Map.get s.cache key = some item) (hne : item.confirmed ≠ []) (ht : GetThreshold s.mgr.partyIDMap.length = .ok t)
    (hpl : Plain env e mt) :
    Micros env e s (applyShare env sch item t key mt s).1 := by
  unfold applyShare
  rcases hm : item.msg with _ | w
  · exact ReflTransGen.refl
  · dsimp only
    rcases hi : w.sender with _ | i
    · exact ReflTransGen.refl
    · dsimp only
      unfold hashCheck
      rcases hp : Map.get s.mgr.partyIDtoP2PID i with _ | peer
      · dsimp only
        rw [blameShareOwner_eq, set_same hk]
        exact ReflTransGen.single (Micro.blameSplit s key item w i t hk hm hi ht (Or.inl hp))
      · dsimp only
        by_cases hn : (item.confirmed.length : Int) < t
        · rw [if_pos hn]
          dsimp only
          rw [set_same hk]
        · rw [if_neg hn]
          by_cases hv : peer ∈ Map.keys item.confirmed
          · rw [if_pos hv]
            dsimp only
            rw [blameShareOwner_eq]
            exact ReflTransGen.single (Micro.blameOwner s key item w i peer t hk hm hi hp ht (by omega) hv)
          · rw [if_neg hv]
            rcases hh : getMsgHash sch.f1 item t with er | d
            · dsimp only
              rw [set_same hk]
              cases er with
              | inconsistency =>
                dsimp only
                rw [blameShareOwner_eq]
                exact ReflTransGen.single (Micro.blameSplit s key item w i t hk hm hi ht
                  (Or.inr ⟨by omega, getMsgHash_inconsistency _ _ _ hh⟩))
              | hashCheck => exact absurd (getMsgHash_hashCheck _ _ _ hh) hne
              | noOwner => exact absurd hh (by unfold getMsgHash; split <;> [split <;> simp; simp])
              | notEnoughPeer => exact absurd hh (by unfold getMsgHash; split <;> [split <;> simp; simp])
              | fromOwner => exact absurd hh (by unfold getMsgHash; split <;> [split <;> simp; simp])
              | notMajority => exact absurd hh (by unfold getMsgHash; split <;> [split <;> simp; simp])
            · dsimp only
              by_cases he : item.hash = d
              · rw [if_pos he]
                dsimp only
                rw [set_same hk]
                have hpass : Passed s item w := ⟨i, peer, t, hi, hp, ht, by omega, hv, sch.f1, by rw [hh, he]⟩
                have hst := Micro.store (env := env) (e := e) s key item w hk hm hpass
                obtain ⟨h1, h2⟩ := updateLocal_micro env e sch.ticks w { s with mgr := s.mgr.roundSet key w }
                  (Or.inr ⟨key, item, hk, hm, hpass.frame' rfl rfl⟩)
                rcases hu : updateLocal env sch.ticks w { s with mgr := s.mgr.roundSet key w } with ⟨s1, r⟩
                rw [hu] at h1 h2
                dsimp only
                cases r with
                | ok _ =>
                  refine ((ReflTransGen.head hst h1).tail (Micro.forget s1 key item w ?_ hm
                    ((hpass.frame' (s' := { s with mgr := s.mgr.roundSet key w }) rfl rfl).frame h2) ?_))
                  · rw [h2.cache]; exact hk
                  · rw [h2.stored]; exact Map.get_set_self _ _ _
                | err _ => exact ReflTransGen.head hst h1
                | panic => exact ReflTransGen.head hst h1
              · rw [if_neg he]
                dsimp only
                rw [set_same hk]
                exact ReflTransGen.head (Micro.dropMsg s key item hk)
                  (requestShare_micro _ _ _ _ _ _ _ _ (Map.get_set_self _ _ _) rfl ht hpl)

theorem receiverBroadcast_micro (env : Env K P) (e : Event P) (w : WireMessage) (i : Nat) (mt : MsgType) (s : St K P)
    (hw : Delivers env e mt w) (hs : Signed env s.mgr.partyIDMap w) (hi : w.sender = some i) (hb : w.isBroadcast = true) :
    Micros env e s (receiverBroadcastHash env i (cacheKey i w.roundInfo) (env.hash w.message) mt s) ∧
    SameFrame s (receiverBroadcastHash env i (cacheKey i w.roundInfo) (env.hash w.message) mt s) := by
  unfold receiverBroadcastHash
  split
  · exact ⟨ReflTransGen.refl, SameFrame.refl s⟩
  · rename_i peer hp
    dsimp only
    split
    · exact ⟨ReflTransGen.refl, SameFrame.refl s⟩
    · exact ⟨ReflTransGen.single (Micro.sendConfirm s mt w i peer hw hs hi hb hp), rfl, rfl, rfl, rfl⟩

theorem processTSSMsg_micro (env : Env K P) (e : Event P) (sch : Sched P) (w : WireMessage) (mt : MsgType) (fwd : Bool)
    (s : St K P) (hc : Carries env e w) (hf : fwd = false → Delivers env e mt w)
    (hpl : Plain env e mt) :
    Micros env e s (processTSSMsg env sch w mt fwd s).1 := by
  unfold processTSSMsg
  by_cases hn : w.noSender = true
  · rw [if_pos hn]
  · rw [if_neg hn]
    rcases hi : w.sender with _ | i
    · exact ReflTransGen.refl
    · dsimp only
      rcases hip : Map.get s.mgr.partyIDMap i with _ | p
      · exact ReflTransGen.refl
      · dsimp only
        by_cases hv : env.verify p.key (w.message ++ env.msgID) w.sig = true
        · rw [if_neg (by simp [hv])]
          have hsig : Signed env s.mgr.partyIDMap w := ⟨i, p, hi, hip, hv⟩
          by_cases hb : w.isBroadcast = true
          · rw [if_neg (by simp [hb])]
            have key : Micros env e s (if fwd then s else receiverBroadcastHash env i (cacheKey i w.roundInfo) (env.hash w.message) mt s) ∧
                SameFrame s (if fwd then s else receiverBroadcastHash env i (cacheKey i w.roundInfo) (env.hash w.message) mt s) := by
              cases fwd
              · exact receiverBroadcast_micro env e w i mt s (hf rfl) hsig hi hb
              · exact ⟨ReflTransGen.refl, SameFrame.refl s⟩
            generalize (if fwd then s else receiverBroadcastHash env i (cacheKey i w.roundInfo) (env.hash w.message) mt s) = s1 at key
            obtain ⟨h1, h2⟩ := key
            have har := Micro.arrive (env := env) (e := e) s1 w i hc (by rw [h2.ids]; exact hsig) hi hb
            rcases ht : GetThreshold s1.mgr.partyIDMap.length with t | er | _
            · exact (h1.tail har).trans (applyShare_micro env e sch _ t _ mt _ (Map.get_set_self _ _ _) (set_ne_nil _ _ _) ht hpl)
            · exact h1.tail har
            · exact h1.tail har
          · rw [if_pos (by simpa using hb)]
            exact (updateLocal_micro env e sch.ticks w s (Or.inl ⟨hc, hsig, by simpa using hb⟩)).1
        · rw [if_pos (by simpa using hv)]

theorem processVerMsg_micro (env : Env K P) (e : Event P) (sch : Sched P) (peer : P) (b : ConfirmMsg P) (mt : MsgType)
    (s : St K P) (hp : b.p2pid = some peer) (hc : Confirms env e peer b.key b.hash)
    (hd : ∀ it, Map.get s.cache b.key = some it → peer ∉ Map.keys it.confirmed) (hpl : Plain env e mt) :
    Micros env e s (processVerMsg env sch b mt s).1 := by
  have hvo := Micro.vote (env := env) (e := e) s peer b.key b.hash hc hd
  unfold processVerMsg
  simp only [hp]
  rcases ht : GetThreshold s.mgr.partyIDMap.length with t | er | _
  · dsimp only
    split
    · rename_i hn
      exact ReflTransGen.head hvo (requestShare_micro _ _ _ _ _ _ _ _ (Map.get_set_self _ _ _) (Option.isNone_iff_eq_none.1 hn) ht hpl)
    · exact ReflTransGen.head hvo (applyShare_micro env e sch _ t _ mt _ (Map.get_set_self _ _ _) (set_ne_nil _ _ _) ht hpl)
  · exact ReflTransGen.single hvo
  · exact ReflTransGen.single hvo

theorem checkDup_some {s : St K P} {b b' : ConfirmMsg P} {peer : P} (h : checkDup s b peer = some b') :
    b' = { b with p2pid := some peer } ∧ ∀ it, Map.get s.cache b.key = some it → peer ∉ Map.keys it.confirmed := by
  unfold checkDup at h
  rcases hg : Map.get s.cache b.key with _ | it
  · rw [hg] at h; cases h; exact ⟨rfl, by simp⟩
  · rw [hg] at h
    dsimp only at h
    split at h
    · cases h
    · rename_i hn
      cases h
      refine ⟨rfl, ?_⟩
      intro it' hit; cases hit; exact hn

theorem ProcessOneMessage_micro (env : Env K P) (raw : Bytes) (peer : P) (sch : Sched P) (type : MsgType) (payload : Bytes)
    (hraw : env.decWrapped raw = some (type, payload)) (s : St K P) :
    Micros env (.msg raw peer sch) s (ProcessOneMessage env sch type payload peer s).1 := by
  unfold ProcessOneMessage
  by_cases h1 : type = TSSKeyGenMsg ∨ type = TSSKeySignMsg
  · rw [if_pos h1]
    rcases hw : env.decWire payload with _ | w
    · exact ReflTransGen.refl
    · exact processTSSMsg_micro env _ sch w type false s ⟨raw, peer, sch, type, payload, rfl, hraw, Or.inl ⟨h1, hw⟩⟩
        (fun _ => ⟨raw, peer, sch, payload, rfl, hraw, h1, hw⟩) (Or.inl (by rcases h1 with rfl | rfl <;> simp))
  · rw [if_neg h1]
    by_cases h2 : type = TSSKeyGenVerMsg ∨ type = TSSKeySignVerMsg
    · rw [if_pos h2]
      rcases hd : env.decConfirm payload with _ | b
      · exact ReflTransGen.refl
      · dsimp only
        rcases hdup : checkDup s b peer with _ | b'
        · exact ReflTransGen.refl
        · obtain ⟨rfl, hn⟩ := checkDup_some hdup
          exact processVerMsg_micro env _ sch peer _ type s rfl ⟨raw, sch, type, payload, rfl, hraw, h2, b, hd, rfl, rfl⟩ hn
            (Or.inl (by rcases h2 with rfl | rfl <;> simp))
    · rw [if_neg h2]
      by_cases h3 : type = TSSTaskDone
      · rw [if_pos h3]
        rcases ht : env.decTask payload with _ | b
        · exact ReflTransGen.refl
        · cases b with
          | false => exact ReflTransGen.refl
          | true =>
            dsimp only
            have hrep : ReportsDone env (.msg raw peer sch) peer := ⟨raw, sch, payload, rfl, by rw [hraw, h3], ht⟩
            unfold processTaskDone
            by_cases hf : peer ∈ s.finished
            · rw [if_pos hf]
            · rw [if_neg hf]
              dsimp only
              by_cases hl : (((s.finished ++ [peer]).length : Nat) : Int) = (s.mgr.partyIDMap.length : Int) - 1
              · rw [if_pos hl]
                have hl' : ((s.finished.length + 1 : Nat) : Int) = (s.mgr.partyIDMap.length : Int) - 1 := by simpa using hl
                have hd := Micro.done (env := env) s peer hrep hf true (by rw [if_pos hl'])
                split
                · rename_i htd
                  have : ({ s with finished := s.finished ++ [peer] } : St K P) = { s with finished := s.finished ++ [peer], taskDone := true } := by
                    simp only [htd]
                  rw [this]
                  exact ReflTransGen.single hd
                · exact ReflTransGen.single hd
              · rw [if_neg hl]
                have hl' : ¬ ((s.finished.length + 1 : Nat) : Int) = (s.mgr.partyIDMap.length : Int) - 1 := by simpa using hl
                exact ReflTransGen.single (Micro.done (env := env) s peer hrep hf s.taskDone (by rw [if_neg hl']))
      · rw [if_neg h3]
        by_cases h4 : type = TSSControlMsg
        · rw [if_pos h4]
          rcases hc : env.decControl payload with _ | c
          · exact ReflTransGen.refl
          · dsimp only
            rcases hm : c.msg with _ | w
            · simp only [processRequestMsgFromPeer, Bool.false_eq_true, if_false]
              split
              · exact ReflTransGen.refl
              · rename_i w hw
                exact ReflTransGen.single (Micro.sendAnswer s peer c w ⟨raw, sch, payload, rfl, by rw [hraw, h4], hc, hm⟩ hw)
            · dsimp only
              have han := Micro.answer (env := env) (e := .msg raw peer sch) s c.reqHash
              split
              · exact ReflTransGen.head han (processTSSMsg_micro env _ sch w _ true _
                  ⟨raw, peer, sch, type, payload, rfl, hraw, Or.inr ⟨h4, c, hc, hm⟩⟩ (fun h => by cases h) (by
                    by_cases ho : c.requestType ∈ [TSSKeyGenMsg, TSSKeySignMsg, TSSKeyGenVerMsg, TSSKeySignVerMsg]
                    · exact Or.inl ho
                    · exact Or.inr ⟨c, ⟨raw, peer, sch, payload, w, rfl, by rw [hraw, h4], hc, hm⟩, ho⟩))
              · exact ReflTransGen.single han
        · rw [if_neg h4]

/-- every event acts by elementary changes -/
theorem step_micro (env : Env K P) (s : St K P) (e : Event P) : Micros env e s (step env s e) := by
  unfold step
  split
  · exact ReflTransGen.refl
  · cases e with
    | work j => exact ReflTransGen.single (Micro.work s j)
    | msg raw peer sch =>
      dsimp only
      rcases hraw : env.decWrapped raw with _ | ⟨type, payload⟩
      · exact ReflTransGen.refl
      · dsimp only
        have h := ProcessOneMessage_micro env raw peer sch type payload hraw s
        rcases hp : ProcessOneMessage env sch type payload peer s with ⟨s1, r⟩
        rw [hp] at h
        cases r with
        | panic => exact h.tail (Micro.crash s1)
        | ok _ => exact h
        | err _ => exact h

/-- an invariant of the elementary changes, which may mention the history, holds after every session -/
theorem run_invariant (env : Env K P) (s0 : St K P) (I : List (Event P) → St K P → Prop) (h0 : I [] s0)
    (mono : ∀ h e s, I h s → I (h ++ [e]) s)
    (hstep : ∀ h e s s', I (h ++ [e]) s → Micro env e s s' → I (h ++ [e]) s') (h : List (Event P)) : I h (run env s0 h) := by
  induction h using List.reverseRecOn with
  | nil => exact h0
  | append_singleton h e ih =>
    have hm := step_micro env (run env s0 h) e
    have he : run env s0 (h ++ [e]) = step env (run env s0 h) e := by simp [run]
    rw [he]
    have hI := mono h e _ ih
    generalize step env (run env s0 h) e = s' at hm
    induction hm with
    | refl => exact hI
    | tail _ hlast ih' => exact hstep h e _ _ ih' hlast

end Verif.TssCommon
