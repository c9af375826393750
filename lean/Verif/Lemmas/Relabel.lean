import Verif.Model.TssCommon

/-! # The last message produced by the local parties does not matter for the processing of messages

The loop of a ceremony records the type of the last message of its local party in the blame manager (`SetLastMsg`); nothing in
`Verif.TssCommon` reads it. -/
set_option linter.unusedSectionVars false
namespace Verif.TssCommon
open Verif.Go Verif.Conversion Verif.Messages Verif.Blame Verif.Threshold

variable {K P : Type} [DecidableEq K] [DecidableEq P]

/-- the same session with another last message -/
def relabel (x : Option (String × Bool)) (s : St K P) : St K P := { s with mgr := { s.mgr with lastMsg := x } }

/-- the same for a result -/
def relabelRes (x : Option (String × Bool)) (r : St K P × Res Unit) : St K P × Res Unit := (relabel x r.1, r.2)

theorem relabel_relabel (x y : Option (String × Bool)) (s : St K P) : relabel x (relabel y s) = relabel x s := rfl

theorem relabel_self (s : St K P) : relabel s.mgr.lastMsg s = s := rfl

variable (x : Option (String × Bool))

theorem relabel_map (s : St K P) : (relabel x s).mgr.partyIDMap = s.mgr.partyIDMap := rfl
theorem relabel_p2p (s : St K P) : (relabel x s).mgr.partyIDtoP2PID = s.mgr.partyIDtoP2PID := rfl
theorem relabel_dup (s : St K P) (r : RoundInfo) (i : Nat) :
    (relabel x s).mgr.checkMsgDuplication r i = s.mgr.checkMsgDuplication r i := rfl
theorem relabel_culprits (s : St K P) : (relabel x s).culprits = s.culprits := rfl
theorem relabel_finished (s : St K P) : (relabel x s).finished = s.finished := rfl
theorem relabel_round (s : St K P) (k : String) : (relabel x s).mgr.roundGet k = s.mgr.roundGet k := rfl

theorem relabel_invalid (env : Env K P) (s : St K P) (round : RoundInfo) (c : List Culprit) :
    processInvalidMsgBlame env (relabel x s) round c = relabel x (processInvalidMsgBlame env s round c) := by
  simp only [processInvalidMsgBlame, relabel]
  split <;> rfl

theorem relabel_updateAcceptShare (m : Manager K P) (r : RoundInfo) (i : Nat) :
    ({ m with lastMsg := x } : Manager K P).updateAcceptShare r i = { m.updateAcceptShare r i with lastMsg := x } := by
  simp only [Manager.updateAcceptShare]
  repeat' split
  all_goals rfl

theorem relabel_stepJob (env : Env K P) (id : Nat) (s : St K P) : stepJob env id (relabel x s) = relabel x (stepJob env id s) := by
  unfold stepJob
  have hj : (relabel x s).jobs = s.jobs := rfl
  rw [hj]
  cases h : s.jobs.find? (fun j => j.id = id) with
  | none => rfl
  | some j =>
    dsimp only
    cases j.outcome with
    | none => rfl
    | some c =>
      cases c with
      | none => simp only [relabel, relabel_updateAcceptShare]
      | some c => exact relabel_invalid x env { s with jobs := s.jobs.filter (fun k => k.id ≠ id) } j.round c

theorem relabel_stepJobs (env : Env K P) (ids : List Nat) (s : St K P) : stepJobs env ids (relabel x s) = relabel x (stepJobs env ids s) := by
  unfold stepJobs
  induction ids generalizing s with
  | nil => rfl
  | cons i ids ih => rw [List.foldl_cons, relabel_stepJob, ih]; rfl

theorem relabel_drain (env : Env K P) (start : Nat) (s : St K P) : drain env start (relabel x s) = relabel x (drain env start s) := by
  unfold drain
  show (s.jobs.filter _).foldl _ _ = _
  generalize s.jobs.filter (fun j => start ≤ j.id) = l
  induction l generalizing s with
  | nil => rfl
  | cons j l ih => rw [List.foldl_cons, relabel_stepJob, relabel_stepJob, ih]; rfl

theorem relabel_feed (env : Env K P) (w : WireMessage) (start : Nat) (l : List BulkWireMsg) (ticks : List (List Nat)) (s : St K P) :
    feed env w start l ticks (relabel x s) = relabelRes x (feed env w start l ticks s) := by
  induction l generalizing ticks s with
  | nil =>
    unfold feed relabelRes
    rw [relabel_stepJobs, relabel_drain]
  | cons m l ih =>
    unfold feed
    dsimp only
    rw [relabel_stepJobs]
    generalize stepJobs env (ticks.headD []) s = s'
    split
    · split
      · rfl
      · split
        · rfl
        · rename_i r _ i _
          rw [relabel_map]
          split
          · rfl
          · split
            · rfl
            · rename_i round _
              rw [relabel_dup, relabel_culprits]
              split
              · rename_i h
                rw [ih]
              · split
                · rfl
                · rw [← ih]; rfl
    · rfl

theorem relabel_updateLocal (env : Env K P) (ticks : List (List Nat)) (w : WireMessage) (s : St K P) :
    updateLocal env ticks w (relabel x s) = relabelRes x (updateLocal env ticks w s) := by
  unfold updateLocal
  split
  · rfl
  · split
    · rfl
    · rename_i i _
      rw [relabel_map]
      split
      · rfl
      · rw [relabel_p2p]
        split
        · rfl
        · rename_i peer _
          have hs : (if w.isBroadcast then relabel x s else { relabel x s with mgr := (relabel x s).mgr.setLastUnicastPeer peer w.roundInfo }) =
              relabel x (if w.isBroadcast then s else { s with mgr := s.mgr.setLastUnicastPeer peer w.roundInfo }) := by
            split
            · rfl
            · simp only [relabel, Manager.setLastUnicastPeer]
              split <;> rfl
          dsimp only
          rw [hs]
          generalize (if w.isBroadcast then s else { s with mgr := s.mgr.setLastUnicastPeer peer w.roundInfo }) = s'
          split
          · rfl
          · exact relabel_feed x env w s'.nextJob _ ticks s'

theorem relabel_processRequest (s : St K P) (peers : List P) (msg : Control) (r : Bool) :
    processRequestMsgFromPeer (relabel x s) peers msg r = relabel x (processRequestMsgFromPeer s peers msg r) := by
  unfold processRequestMsgFromPeer
  split
  · rfl
  · rw [relabel_round]
    split <;> rfl

theorem relabel_requestShare (sch : Sched P) (item : Item P) (t : Int) (key : String) (mt : MsgType) (s : St K P) :
    requestShareFromPeer sch item t key mt (relabel x s) = relabel x (requestShareFromPeer sch item t key mt s) := by
  unfold requestShareFromPeer
  split
  · rfl
  · rename_i h _
    dsimp only
    have : ({ relabel x s with mgr := (relabel x s).mgr.shareSet h } : St K P) = relabel x { s with mgr := s.mgr.shareSet h } := rfl
    rw [this]
    split
    · exact relabel_processRequest x _ _ _ _
    · split
      · exact relabel_processRequest x _ _ _ _
      · split
        · exact relabel_processRequest x _ _ _ _
        · rfl

theorem relabel_blameOwner (env : Env K P) (w : WireMessage) (s : St K P) :
    blameShareOwner env w (relabel x s) = relabelRes x (blameShareOwner env w s) := by
  unfold blameShareOwner
  have : (relabel x s).mgr.tssWrongShareBlame env.codec w = s.mgr.tssWrongShareBlame env.codec w := rfl
  rw [this]
  split <;> rfl

theorem relabel_hashCheck (s : St K P) (f : Shuffle (String × Nat)) (item : Item P) (o : Nat) (t : Int) :
    hashCheck (relabel x s) f item o t = hashCheck s f item o t := rfl

theorem relabel_applyShare (env : Env K P) (sch : Sched P) (item : Item P) (t : Int) (key : String) (mt : MsgType) (s : St K P) :
    applyShare env sch item t key mt (relabel x s) = relabelRes x (applyShare env sch item t key mt s) := by
  unfold applyShare
  split
  · rfl
  · rename_i w _
    split
    · rfl
    · rename_i owner _
      rw [relabel_hashCheck]
      rcases hashCheck s sch.f1 item owner t with ⟨item, e⟩
      dsimp only
      rcases e with _ | e
      · dsimp only
        have hu := relabel_updateLocal x env sch.ticks w { s with cache := Map.set s.cache key item, mgr := s.mgr.roundSet key w }
        have he : ({ ({ relabel x s with cache := Map.set (relabel x s).cache key item } : St K P) with mgr := (relabel x s).mgr.roundSet key w } : St K P) =
            relabel x { s with cache := Map.set s.cache key item, mgr := s.mgr.roundSet key w } := rfl
        dsimp only at he hu ⊢
        rw [he, hu]
        generalize updateLocal env sch.ticks w { s with cache := Map.set s.cache key item, mgr := s.mgr.roundSet key w } = q
        rcases q with ⟨s', r⟩
        simp only [relabelRes]
        cases r <;> rfl
      · cases e with
        | notMajority =>
          dsimp only [relabelRes]
          rw [← relabel_requestShare]
          rfl
        | notEnoughPeer => rfl
        | noOwner => exact relabel_blameOwner x env w { s with cache := Map.set s.cache key item }
        | fromOwner => exact relabel_blameOwner x env w { s with cache := Map.set s.cache key item }
        | hashCheck => exact relabel_blameOwner x env w { s with cache := Map.set s.cache key item }
        | inconsistency => exact relabel_blameOwner x env w { s with cache := Map.set s.cache key item }

theorem relabel_receiver (env : Env K P) (o : Nat) (key h : String) (mt : MsgType) (s : St K P) :
    receiverBroadcastHash env o key h mt (relabel x s) = relabel x (receiverBroadcastHash env o key h mt s) := by
  unfold receiverBroadcastHash
  rw [relabel_p2p]
  split
  · rfl
  · dsimp only
    split <;> rfl

theorem relabel_processTSSMsg (env : Env K P) (sch : Sched P) (w : WireMessage) (mt : MsgType) (f : Bool) (s : St K P) :
    processTSSMsg env sch w mt f (relabel x s) = relabelRes x (processTSSMsg env sch w mt f s) := by
  unfold processTSSMsg
  split
  · rfl
  · split
    · rfl
    · rename_i i _
      rw [relabel_map]
      split
      · rfl
      · split
        · rfl
        · split
          · exact relabel_updateLocal x env sch.ticks w s
          · dsimp only
            have hs : (if f then relabel x s else receiverBroadcastHash env i (cacheKey i w.roundInfo) (env.hash w.message) mt (relabel x s)) =
                relabel x (if f then s else receiverBroadcastHash env i (cacheKey i w.roundInfo) (env.hash w.message) mt s) := by
              split
              · rfl
              · exact relabel_receiver x _ _ _ _ _ _
            rw [hs]
            generalize (if f then s else receiverBroadcastHash env i (cacheKey i w.roundInfo) (env.hash w.message) mt s) = s'
            rw [relabel_map]
            split
            · exact relabel_applyShare x env sch _ _ _ _ { s' with cache := Map.set s'.cache (cacheKey i w.roundInfo) (arrived env (Map.get s'.cache (cacheKey i w.roundInfo)) w) }
            · rfl
            · rfl

theorem relabel_processVerMsg (env : Env K P) (sch : Sched P) (b : ConfirmMsg P) (mt : MsgType) (s : St K P) :
    processVerMsg env sch b mt (relabel x s) = relabelRes x (processVerMsg env sch b mt s) := by
  unfold processVerMsg
  split
  · rfl
  · rename_i peer _
    dsimp only
    have hc : (relabel x s).cache = s.cache := rfl
    rw [relabel_map, hc]
    split
    · split
      · dsimp only [relabelRes]
        rw [← relabel_requestShare]; rfl
      · exact relabel_applyShare x env sch _ _ _ _ { s with cache := Map.set s.cache b.key (confirmedItem (Map.get s.cache b.key) peer b.hash) }
    · rfl
    · rfl

theorem relabel_taskDone (peer : P) (s : St K P) : processTaskDone peer (relabel x s) = relabelRes x (processTaskDone peer s) := by
  unfold processTaskDone
  rw [relabel_finished]
  split
  · rfl
  · dsimp only
    rw [relabel_map]
    have ht : (relabel x s).taskDone = s.taskDone := rfl
    rw [ht]
    repeat' split
    all_goals rfl

theorem relabel_queryAndDelete (m : Manager K P) (h : String) :
    ({ m with lastMsg := x } : Manager K P).queryAndDelete h = ({ (m.queryAndDelete h).1 with lastMsg := x }, (m.queryAndDelete h).2) := by
  simp only [Manager.queryAndDelete]

theorem relabel_processOne (env : Env K P) (sch : Sched P) (t : MsgType) (payload : Bytes) (peer : P) (s : St K P) :
    ProcessOneMessage env sch t payload peer (relabel x s) = relabelRes x (ProcessOneMessage env sch t payload peer s) := by
  unfold ProcessOneMessage
  split
  · split
    · rfl
    · exact relabel_processTSSMsg x _ _ _ _ _ _
  · split
    · split
      · rfl
      · rename_i b _
        have hd : checkDup (relabel x s) b peer = checkDup s b peer := rfl
        rw [hd]
        split
        · exact relabel_processVerMsg x _ _ _ _ _
        · rfl
    · split
      · split
        · rfl
        · rfl
        · exact relabel_taskDone x _ _
      · split
        · split
          · rfl
          · rename_i c _
            split
            · show (_, _) = (_, _)
              rw [relabel_processRequest]
            · rename_i w _
              have hq : (relabel x s).mgr.queryAndDelete c.reqHash = _ := relabel_queryAndDelete x s.mgr c.reqHash
              rw [hq]
              rcases s.mgr.queryAndDelete c.reqHash with ⟨mgr, ex⟩
              dsimp only
              split
              · exact relabel_processTSSMsg x env sch w c.requestType true { s with mgr }
              · rfl
        · rfl

/-- an event of the session -/
theorem relabel_step (env : Env K P) (s : St K P) (e : Event P) : step env (relabel x s) e = relabel x (step env s e) := by
  unfold step
  have hc : (relabel x s).crashed = s.crashed := rfl
  rw [hc]
  split
  · rfl
  · cases e with
    | work j => exact relabel_stepJob x env j s
    | msg raw peer sch =>
      dsimp only
      split
      · rfl
      · rw [relabel_processOne]
        rename_i t payload _
        rcases ProcessOneMessage env sch t payload peer s with ⟨s', r⟩
        simp only [relabelRes]
        cases r <;> rfl

end Verif.TssCommon
