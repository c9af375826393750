import Verif.Model.Attempts
import Verif.Props.C102_C106
import Mathlib.Data.List.Induction

set_option linter.unusedSectionVars false
set_option linter.unusedSimpArgs false

/-!
# C125 A new attempt at a ceremony is not influenced by earlier ones
-/
namespace Verif.Props.Retry
open Verif.Go Verif.Messages Verif.TssCommon Verif.SessNet Verif.Spec Verif.Attempts
open Verif.Props.SessionNet (view)

variable {K P : Type} [DecidableEq K] [DecidableEq P]
variable {enc : Encoders P} {site : P → Nat → Site K P} {honest : P → Bool}

/-! ## what is known of a node -/

/-- this share was produced by one of the outputs -/
def Made (outs : List (OutBatch.Sched × OutBatch.Output)) (x : BulkWireMsg) : Prop :=
  ∃ e ∈ outs, ∃ r, e.2.wire = some (x.wired, r) ∧ x.ident = e.2.moniker ∧ x.routing = some r

/-- the session of a node is a run of its history; what it signed is what it sent, and that was produced by `outs` -/
structure Sane (enc : Encoders P) (site : Site K P) (outs : List (OutBatch.Sched × OutBatch.Output)) (n : Node K P) : Prop where
  ses : n.ses = TssCommon.run site.env (newTssCommon site.mgr) n.hist
  signed : n.signed = n.out.sent.map (fun b => enc.bulk b.shares)
  uni : ∀ e ∈ n.out.uni, ∀ x ∈ e.2, Made outs x
  bro : ∀ e ∈ n.out.bro, ∀ x ∈ e.2, Made outs x
  sent : ∀ b ∈ n.out.sent, ∀ x ∈ b.shares, Made outs x

theorem Made.mono {outs outs' : List (OutBatch.Sched × OutBatch.Output)} (h : ∀ e ∈ outs, e ∈ outs') {x : BulkWireMsg} (hx : Made outs x) :
    Made outs' x := by
  obtain ⟨e, he, h1⟩ := hx
  exact ⟨e, h e he, h1⟩

theorem Sane.mono {site : Site K P} {outs outs' : List (OutBatch.Sched × OutBatch.Output)} (h : ∀ e ∈ outs, e ∈ outs') {n : Node K P}
    (hn : Sane enc site outs n) : Sane enc site outs' n :=
  ⟨hn.ses, hn.signed, fun e he x hx => (hn.uni e he x hx).mono h, fun e he x hx => (hn.bro e he x hx).mono h,
    fun b hb x hx => (hn.sent b hb x hx).mono h⟩

theorem sane_start (site : Site K P) (outs : List (OutBatch.Sched × OutBatch.Output)) : Sane enc site outs (start site) :=
  ⟨rfl, rfl, by simp [start, OutBatch.init], by simp [start, OutBatch.init], by simp [start, OutBatch.init]⟩

theorem sane_inbound {site : Site K P} {outs : List (OutBatch.Sched × OutBatch.Output)} {n : Node K P} (hn : Sane enc site outs n)
    (e : TssCommon.Event P) : Sane enc site outs (inbound enc site n e).1 := by
  unfold inbound
  split
  · refine ⟨?_, hn.signed, hn.uni, hn.bro, hn.sent⟩
    dsimp only
    rw [TssCommon.run, List.foldl_append, List.foldl_cons, List.foldl_nil, ← TssCommon.run, ← hn.ses]
  · exact hn

theorem sane_local {site : Site K P} {outs : List (OutBatch.Sched × OutBatch.Output)} {n : Node K P} (hn : Sane enc site outs n)
    (e : LocalEvent) (he : ∀ sch o, e = .output sch o → (sch, o) ∈ outs) : Sane enc site outs (localStep enc site n e).1 := by
  cases e with
  | work job => exact sane_inbound hn _
  | notifyDone => unfold localStep; dsimp only; split <;> exact hn
  | output sch o =>
    unfold localStep
    dsimp only
    split
    · obtain ⟨h1, h2, h3⟩ := processOut_shares (Made outs) site.out sch o site.type n.out
        (fun b r hw => ⟨(sch, o), he sch o rfl, r, hw, rfl, rfl⟩) hn.uni hn.bro hn.sent
      obtain ⟨new, hnew, -⟩ := processOut_sent site.out sch o site.type n.out
      refine ⟨hn.ses, ?_, h1, h2, h3⟩
      dsimp only
      rw [hnew, List.drop_left, List.map_append, hn.signed]
    · exact hn

/-- what an event does to a node -/
theorem netStep_node (site : P → Site K P) (n : Net K P) (e : NetEvent P) (q : P) :
    (netStep enc site honest n e).nodes q = n.nodes q ∨
    (∃ ev, (netStep enc site honest n e).nodes q = (inbound enc (site q) (n.nodes q) ev).1) ∨
    ∃ le, e = .at_ q le ∧ (netStep enc site honest n e).nodes q = (localStep enc (site q) (n.nodes q) le).1 := by
  cases e with
  | at_ q' le =>
    unfold netStep
    dsimp only
    split
    · simp only [Net.update]
      by_cases h : q = q'
      · subst h; right; right; exact ⟨le, rfl, by simp⟩
      · left; simp [h]
    · exact Or.inl rfl
  | deliver i sch =>
    unfold netStep
    dsimp only
    rcases n.pool[i]? with _ | ⟨p, q', raw⟩
    · exact Or.inl rfl
    · dsimp only
      split
      · simp only [Net.update]
        by_cases h : q = q'
        · subst h; right; left; exact ⟨.msg raw p sch, by simp⟩
        · left; simp [h]
      · exact Or.inl rfl
  | foreign p q' raw sch =>
    unfold netStep
    dsimp only
    split
    · simp only [Net.update]
      by_cases h : q = q'
      · subst h; right; left; exact ⟨.msg raw p sch, by simp⟩
      · left; simp [h]
    · exact Or.inl rfl

theorem outputsAt_snoc (q : P) (h : List (NetEvent P)) (e : NetEvent P) : ∀ x ∈ outputsAt q h, x ∈ outputsAt q (h ++ [e]) := by
  intro x hx
  unfold outputsAt at *
  rw [List.filterMap_append]
  exact List.mem_append_left _ hx

theorem sane_net {site : P → Site K P} {n : Net K P} {h : List (NetEvent P)} {q : P} (hn : Sane enc (site q) (outputsAt q h) (n.nodes q))
    (e : NetEvent P) : Sane enc (site q) (outputsAt q (h ++ [e])) ((netStep enc site honest n e).nodes q) := by
  have hn' := hn.mono (outputsAt_snoc q h e)
  rcases netStep_node (enc := enc) (honest := honest) site n e q with h1 | ⟨ev, h1⟩ | ⟨le, rfl, h1⟩
  · rw [h1]; exact hn'
  · rw [h1]; exact sane_inbound hn' ev
  · rw [h1]
    refine sane_local hn' le ?_
    rintro sch o rfl
    simp [outputsAt]

theorem run_snoc (h : List (Attempts.Event P)) (e : Attempts.Event P) : run enc site honest (h ++ [e]) = step enc site honest (Attempts.run enc site honest h) e := by
  rw [Attempts.run, List.foldl_append, List.foldl_cons, List.foldl_nil, ← Attempts.run]

theorem sane_run (h : List (Attempts.Event P)) (q : P) :
    Sane enc (site q ((Attempts.run enc site honest h).attempt q)) (outputsAt q (events h)) ((Attempts.run enc site honest h).net.nodes q) ∧
    ∀ n ∈ (Attempts.run enc site honest h).old q, ∃ k, Sane enc (site q k) (outputsAt q (events h)) n := by
  induction h using List.reverseRecOn with
  | nil => exact ⟨sane_start _ _, by intro n hn; cases hn⟩
  | append_singleton h e ih =>
    rw [run_snoc]
    generalize Attempts.run enc site honest h = s at ih
    obtain ⟨h1, h2⟩ := ih
    cases e with
    | again q' =>
      have hev : events (h ++ [Attempts.Event.again q']) = events h := by simp [events]
      rw [hev]
      unfold Attempts.step
      dsimp only
      split
      · dsimp only [Net.update]
        by_cases hq : q = q'
        · subst hq
          simp only [if_true]
          refine ⟨sane_start _ _, ?_⟩
          intro n hn
          rcases List.mem_append.1 hn with hn | hn
          · exact h2 n hn
          · rw [List.mem_singleton.1 hn]; exact ⟨_, h1⟩
        · simp only [if_neg hq]
          exact ⟨h1, h2⟩
      · exact ⟨h1, h2⟩
    | ev e =>
      have hev : events (h ++ [Attempts.Event.ev e]) = events h ++ [e] := by simp [events]
      rw [hev]
      unfold Attempts.step
      dsimp only
      refine ⟨sane_net (site := fun q => site q (s.attempt q)) h1 e, ?_⟩
      intro n hn
      obtain ⟨k, hk⟩ := h2 n hn
      exact ⟨k, hk.mono (outputsAt_snoc q _ e)⟩

/-! ## the theorems -/

/-- Specification: signatures are not forged: a message that reaches an honest node in its present attempt, with a signature that verifies under
the key of an honest member, carries a payload which that member has signed in one of its attempts -/
def Unforged (site : P → Nat → Site K P) (honest : P → Bool) (s : Attempts.St K P) : Prop :=
  ∀ q, honest q = true → ∀ e ∈ (s.net.nodes q).hist, ∀ w i o, Carries (site q (s.attempt q)).env e w →
    Signed (site q (s.attempt q)).env (site q (s.attempt q)).mgr.partyIDMap w → w.sender = some i →
    Map.get (site q (s.attempt q)).mgr.partyIDtoP2PID i = some o → honest o = true → ∃ n ∈ s.old o ++ [s.net.nodes o], w.message ∈ n.signed

/-- C125, what holds: in every history of attempts, with any number of dishonest nodes, a share that an honest node hands to its local parties from
a message of an honest member was produced by the local parties of that member, in this attempt or in an earlier one.

Missing: that it was produced in this attempt, see `c125_stale_share`. -/
theorem c125_some_attempt_partial (hdec : ∀ q k, honest q = true → ∀ l, (site q k).env.decBulk (enc.bulk l) = some l)
    (h : List (Attempts.Event P)) (hu : Unforged site honest (Attempts.run enc site honest h)) (q o : P) (i : Nat) (hq : honest q = true)
    (ho : honest o = true) (hi : Map.get (site q ((Attempts.run enc site honest h).attempt q)).mgr.partyIDtoP2PID i = some o) (en : Entry)
    (hen : en ∈ ((Attempts.run enc site honest h).net.nodes q).ses.log) (hs : en.carrier.sender = some i) :
    ∃ e ∈ outputsAt o (events h), ∃ r, e.2.wire = some (en.share.bytes, r) ∧ e.2.moniker = en.share.ident ∧
      r.isBroadcast = en.share.isBroadcast ∧ r.sender = some en.share.from_ := by
  obtain ⟨hsane, -⟩ := sane_run (enc := enc) (site := site) (honest := honest) h q
  rw [hsane.ses] at hen
  obtain ⟨e, he, hc, hsg, hcn⟩ := Verif.Props.Session.c25_applied_signed _ _ _ en hen
  obtain ⟨n, hn, hm⟩ := hu q hq e he _ i o hc hsg hs hi ho
  have hno : ∃ k, Sane enc (site o k) (outputsAt o (events h)) n := by
    obtain ⟨h1, h2⟩ := sane_run (enc := enc) (site := site) (honest := honest) h o
    rcases List.mem_append.1 hn with hn | hn
    · exact h2 n hn
    · rw [List.mem_singleton.1 hn]; exact ⟨_, h1⟩
  obtain ⟨k, hk⟩ := hno
  rw [hk.signed] at hm
  obtain ⟨b, hb, hbm⟩ := List.mem_map.1 hm
  obtain ⟨bulk, x, r, ri, c1, c2, c3, -, c5, c6, c7, c8, -⟩ := hcn
  rw [← hbm, hdec q _ hq] at c1
  cases c1
  obtain ⟨e', he', r', k1, k2, k3⟩ := hk.sent b hb x c2
  rw [c6] at k3
  cases k3
  exact ⟨e', he', r, by rw [← c5]; exact k1, by rw [← k2]; exact c3, c8, c7⟩

/-- two networks agree on what honest nodes know and on what is on its way -/
def Agree (honest : P → Bool) (n n' : Net K P) : Prop := n.pool = n'.pool ∧ ∀ q, honest q = true → n.nodes q = n'.nodes q

theorem agree_update {n n' : Net K P} (h : Agree honest n n') (q : P) (x : Node K P) (p p' : List (P × P × Bytes)) (hp : p = p') :
    Agree honest ⟨n.update q x, p⟩ ⟨n'.update q x, p'⟩ := by
  refine ⟨hp, fun r hr => ?_⟩
  simp only [Net.update]
  split
  · rfl
  · exact h.2 r hr

theorem agree_step {st st' : P → Site K P} (hst : ∀ q, honest q = true → st q = st' q) {n n' : Net K P} (h : Agree honest n n') (e : NetEvent P) :
    Agree honest (netStep enc st honest n e) (netStep enc st' honest n' e) := by
  cases e with
  | at_ q le =>
    unfold netStep
    dsimp only
    split
    · rename_i hq
      rw [hst q hq, h.2 q hq, h.1]
      exact agree_update h q _ _ _ rfl
    · exact h
  | deliver i sch =>
    unfold netStep
    dsimp only
    rw [h.1]
    rcases n'.pool[i]? with _ | ⟨p, q, raw⟩
    · exact h
    · dsimp only
      split
      · rename_i hq
        rw [hst q hq, h.2 q hq]
        exact agree_update h q _ _ _ rfl
      · exact ⟨by simp only [h.1], h.2⟩
  | foreign p q raw sch =>
    unfold netStep
    dsimp only
    split
    · rename_i hq
      rw [hst q hq.2, h.2 q hq.2, h.1]
      exact agree_update h q _ _ _ rfl
    · exact h

/-- a sequence of new attempts -/
theorem again_all (s : Attempts.St K P) (qs : List P) (hn : qs.Nodup) (hh : ∀ q ∈ qs, honest q = true) :
    let t := (qs.map Attempts.Event.again).foldl (Attempts.step enc site honest) s
    t.net.pool = s.net.pool ∧ ∀ q, t.attempt q = (if q ∈ qs then s.attempt q + 1 else s.attempt q) ∧
      t.net.nodes q = (if q ∈ qs then start (site q (s.attempt q + 1)) else s.net.nodes q) := by
  induction qs generalizing s with
  | nil => exact ⟨rfl, fun q => ⟨rfl, rfl⟩⟩
  | cons a qs ih =>
    obtain ⟨ha, hn⟩ := List.nodup_cons.1 hn
    have hha : honest a = true := hh a (by simp)
    obtain ⟨h1, h2⟩ := ih (Attempts.step enc site honest s (.again a)) hn (fun q hq => hh q (by simp [hq]))
    simp only [List.map_cons, List.foldl_cons]
    refine ⟨by rw [h1]; simp [Attempts.step, hha], fun q => ?_⟩
    obtain ⟨h3, h4⟩ := h2 q
    rw [h3, h4]
    by_cases hq : q = a
    · subst hq
      simp [ha, Attempts.step, hha, Net.update]
    · simp [hq, Attempts.step, hha, Net.update]

/-- C125, what holds when nothing is left of earlier attempts: if no message is on its way when all honest nodes begin their next attempt, then that
attempt goes exactly as if it were the first one of a network whose nodes know what these nodes know in this attempt. What is proved of a single
attempt (C102 to C106, C112, C121 to C123) then holds of it.

Missing: messages of an earlier attempt may still be on their way, see `c125_stale_share`. -/
theorem c125_fresh_partial (h : List (Attempts.Event P)) (qs : List P) (es : List (NetEvent P)) (hn : qs.Nodup)
    (hq : ∀ q, q ∈ qs ↔ honest q = true) (hp : (Attempts.run enc site honest h).net.pool = []) :
    let s := Attempts.run enc site honest (h ++ qs.map Attempts.Event.again ++ es.map Attempts.Event.ev)
    let n := netRun enc (fun q => site q ((Attempts.run enc site honest h).attempt q + 1)) honest es
    s.net.pool = n.pool ∧ ∀ q, honest q = true → s.net.nodes q = n.nodes q := by
  intro s n
  obtain ⟨h1, h2⟩ := again_all (enc := enc) (site := site) (honest := honest) (Attempts.run enc site honest h) qs hn (fun q hm => (hq q).1 hm)
  have hs : s = (es.map Attempts.Event.ev).foldl (Attempts.step enc site honest)
      ((qs.map Attempts.Event.again).foldl (Attempts.step enc site honest) (Attempts.run enc site honest h)) := by
    simp only [s, Attempts.run, List.foldl_append]
  rw [hs]
  have key : ∀ (es : List (NetEvent P)) (t : Attempts.St K P) (m : Net K P), Agree honest t.net m →
      (∀ q, honest q = true → t.attempt q = (Attempts.run enc site honest h).attempt q + 1) →
      Agree honest ((es.map Attempts.Event.ev).foldl (Attempts.step enc site honest) t).net
        (es.foldl (netStep enc (fun q => site q ((Attempts.run enc site honest h).attempt q + 1)) honest) m) := by
    intro es
    induction es with
    | nil => intro t m h1 _; exact h1
    | cons e es ih =>
      intro t m h1 h2
      simp only [List.map_cons, List.foldl_cons]
      refine ih _ _ ?_ ?_
      · simp only [Attempts.step]
        exact agree_step (fun q hq => by rw [h2 q hq]) h1 e
      · exact h2
  refine key es _ _ ⟨by rw [h1, hp], fun q hh => ?_⟩ (fun q hh => ?_)
  · rw [(h2 q).2, if_pos ((hq q).2 hh)]
  · rw [(h2 q).1, if_pos ((hq q).2 hh)]

/-! ## examples and counterexamples -/

/-- the local parties of the first attempt accept everything; those of later attempts only take a share of their own attempt -/
def site2 (q k : Nat) : Site Nat Nat :=
  { demoSite q with
    env := { (demoSite q).env with upd := fun _ x => if k = 0 ∨ x.bytes ≠ [1, 60] then none else some [⟨1, true⟩] } }

/-- the messages arrive in the order in which they were sent -/
def arrive (n : Nat) : List (Attempts.Event Nat) := List.replicate n (.ev (.deliver 0 ⟨Shuffle.id _, Shuffle.id _, Shuffle.id _, []⟩))

/-- everybody begins the next attempt -/
def restart : List (Attempts.Event Nat) := [10, 11, 12, 13].map Attempts.Event.again

/-- member 1 produces a share for member 0; the attempt is given up while it is on its way -/
def late : List (Attempts.Event Nat) := [.ev (.at_ 11 (.output plainOut (demoUnicast 1 0 60)))] ++ restart

/-- the hypotheses of C125 hold of a history with two attempts in which shares of both are applied -/
example :
    let h : List (Attempts.Event Nat) := [.ev (.at_ 11 (.output plainOut (demoUnicast 1 0 60)))] ++ arrive 1
    let s := Attempts.run demoEnc site2 demoHonest (h ++ restart ++ [.ev (.at_ 11 (.output plainOut (demoUnicast 1 0 61)))] ++ arrive 1)
    (Attempts.run demoEnc site2 demoHonest h).net.pool = [] ∧ view (Attempts.run demoEnc site2 demoHonest h).net 10 = ([(1, [1, 60])], false) ∧
      s.attempt 10 = 1 ∧ view s.net 10 = ([(1, [1, 61])], false) := by decide +kernel

/-- a check that implies `Unforged` for the demo -/
def check (s : Attempts.St Nat Nat) : Bool :=
  [10, 11, 12, 13].all fun q => (s.net.nodes q).hist.all fun e => match Verif.Props.SessionNet.carried (site2 q (s.attempt q)).env e with
    | none => true
    | some w => match w.sender.bind (Map.get demoPeers) with
      | none => true
      | some o => (s.old o ++ [s.net.nodes o]).any fun n => decide (w.message ∈ n.signed)

theorem unforged_of {s : Attempts.St Nat Nat} (h : check s = true) : Unforged site2 demoHonest s := by
  intro q hq e he w i o hc _ hs ho _
  have hq' : q ∈ [10, 11, 12, 13] := by simpa [demoHonest] using hq
  have h1 := List.all_eq_true.1 (List.all_eq_true.1 h q hq') e he
  rw [Verif.Props.SessionNet.carried_of hc] at h1
  have h2 : Map.get demoPeers i = some o := ho
  simp only [hs, Option.bind_some, h2] at h1
  obtain ⟨n, hn, hm⟩ := List.any_eq_true.1 h1
  exact ⟨n, hn, of_decide_eq_true hm⟩

/-- C125 is false: the message id and the signatures of two attempts are the same, so a share of an earlier attempt which is still on its way when
everybody has begun the next one is handed to the local parties of the new attempt. All nodes are honest, nothing is forged, and member 1 has produced
nothing in the new attempt. -/
theorem c125_stale_share :
    let s := Attempts.run demoEnc site2 demoHonest (late ++ arrive 1)
    Unforged site2 demoHonest s ∧ (∀ q ∈ [10, 11, 12, 13], s.attempt q = 1) ∧ (s.net.nodes 11).signed = [] ∧
      (s.net.nodes 10).ses.log.map (fun en => (en.share.from_, en.share.bytes)) = [(1, [1, 60])] :=
  ⟨unforged_of (by decide +kernel), by decide +kernel, by decide +kernel, by decide +kernel⟩

/-- … the local party of the new attempt cannot use the share, and the honest member 1 is blamed with a message of its own as evidence … -/
theorem c125_stale_blame :
    let s := Attempts.run demoEnc site2 demoHonest (late ++ arrive 1)
    (s.net.nodes 10).ses.mgr.blame.failReason = Blame.TssBrokenMsg ∧ (s.net.nodes 10).ses.mgr.blame.nodes.map (·.pubkey) = [21] := by
  decide +kernel

/-- … if the local party does take it, then the share which member 1 produces in the new attempt is dropped as a duplicate, although it arrives and its
sender is welcome … -/
theorem c125_stale_blocks :
    let site := fun q (_ : Nat) => demoSite q
    let h := late ++ arrive 1 ++ [.ev (.at_ 11 (.output plainOut (demoUnicast 1 0 61)))] ++ arrive 1
    let s := Attempts.run demoEnc site demoHonest h
    s.net.pool = [] ∧ (s.net.nodes 11).signed.length = 1 ∧ (s.net.nodes 10).hist.length = 2 ∧ (s.net.nodes 10).alive = true ∧
      (s.net.nodes 10).ses.log.map (fun en => (en.share.from_, en.share.bytes)) = [(1, [1, 60])] := by
  decide +kernel

/-- … and the reports of members that they finished the earlier attempt, which a member missed, tell it in the new attempt that all others are done,
when nobody has done anything in it (the reports carry no attempt either; common/tss.go:356-375). -/
theorem c125_stale_done :
    let site := fun q (_ : Nat) => demoSite q
    let done := [11, 12, 13].map fun q => Attempts.Event.ev (.at_ q .notifyDone)
    let s := Attempts.run demoEnc site demoHonest (done ++ restart ++ arrive 9)
    (∀ q ∈ [10, 11, 12, 13], s.attempt q = 1 ∧ (s.net.nodes q).signed = []) ∧ (s.net.nodes 10).ses.taskDone = true := by
  decide +kernel

end Verif.Props.Retry
