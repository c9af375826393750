import Verif.Lemmas.CeremonySim

/-! An undisturbed ceremony that has come to rest has succeeded. -/
set_option linter.unusedSectionVars false
namespace Verif.Ceremony
open Verif.Go Verif.Messages Verif.TssCommon Verif.SessNet Verif.SessionCall Verif.Session Verif.Spec
open scoped List

variable {K P R σ : Type} [DecidableEq K] [DecidableEq P]
variable {enc : Encoders P} {v : View K P σ} {seat : P → Seat K P R σ} {member : P → Bool} {taken : σ → Nat} {need : Nat}
    {good : P → R → Prop} {base : TssCommon.Env K P} {ids : Map Nat Conversion.Party} {peers : Map Nat P}

/-- two shares of the same type, both broadcasts or both for `q`, belong to the same queue -/
theorem queue_eq (hs : Setting enc base ids peers (fun q => (seat q).site)) {p q : P} (hp : Member peers p) {o o' : OutBatch.Output} {b b' : Bytes}
    {r r' : Routing} (hr : Props.Outgoing.Regular o) (hr' : Props.Outgoing.Regular o') (ho : o.wire = some (b, r)) (ho' : o'.wire = some (b', r'))
    (ht : o.type = o'.type) (hb : r.isBroadcast = r'.isBroadcast)
    (hq : q ∈ Props.Outgoing.receivers (seat p).site.out (Props.Outgoing.queueOf o.type r))
    (hq' : q ∈ Props.Outgoing.receivers (seat p).site.out (Props.Outgoing.queueOf o'.type r')) :
    Props.Outgoing.queueOf o.type r = Props.Outgoing.queueOf o'.type r' := by
  unfold Props.Outgoing.queueOf at *
  by_cases hbr : r'.isBroadcast = true
  · rw [hb, ht]; simp [hbr]
  · have hbf : r.isBroadcast = false := by rw [hb]; simpa using hbr
    have hbf' : r'.isBroadcast = false := by simpa using hbr
    obtain ⟨d, hd⟩ := (hr.dest b r ho).2 hbf
    obtain ⟨d', hd'⟩ := (hr'.dest b' r' ho').2 hbf'
    simp only [hbf, hbf', hd, hd', Bool.false_eq_true, if_false, List.head?_cons, Props.Outgoing.receivers, Option.mem_toList] at hq hq' ⊢
    have hg := (hs.outPeers p hp).2
    rw [hg] at hq hq'
    rw [hs.inj hq hq', ht]

/-- when all local parties of `p` have produced their message of a round for `q`, the messages are sent -/
theorem full_of (hs : Setting enc base ids peers (fun q => (seat q).site)) (hnd : base.parties.Nodup) {c : Net P R σ} {i : Nat} {p q : P}
    (hi : Map.get peers i = some p) (hmsg : (seat p).site.out.msgNum = base.parties.length) {l : List (OutBatch.Sched × OutBatch.Output)}
    (hp : Proper base (seat p).site.out i l) (hl : l.map Prod.snd = made seat c p) {ρ : Round}
    (hall : ∀ j ∈ base.parties, ∃ b r, Produced seat c ρ j p q b r) {e : OutBatch.Sched × OutBatch.Output} (he : e ∈ l) {b : Bytes} {r : Routing}
    (h1 : e.2.type = ρ.type) (h2 : e.2.wire = some (b, r)) (h3 : r.isBroadcast = ρ.broadcast)
    (h4 : q ∈ Props.Outgoing.receivers (seat p).site.out (Props.Outgoing.queueOf e.2.type r)) : Full (seat p).site.out l e.2.type r := by
  unfold Full
  refine le_antisymm (hp.batch _) ?_
  rw [hmsg]
  have hsub : base.parties ⊆ ((l.map Prod.snd).filterMap (Props.Outgoing.shareIn (Props.Outgoing.queueOf e.2.type r))).map (fun x => x.ident) := by
    intro j hj
    obtain ⟨b', r', o, ho, k1, k2, k3, k4, k5⟩ := hall j hj
    rw [← hl] at ho
    obtain ⟨e', he', rfl⟩ := List.mem_map.1 ho
    refine List.mem_map.2 ⟨⟨b', j, some r'⟩, List.mem_filterMap.2 ⟨e'.2, ho, ?_⟩, rfl⟩
    unfold Props.Outgoing.shareIn
    rw [k3]
    dsimp only
    rw [if_pos (queue_eq hs ⟨i, hi⟩ (hp.regular _ he').1 (hp.regular _ he).1 k3 h2 (by rw [k1, h1]) (by rw [k4, h3]) k5 h4), k2]
  have := (List.subperm_of_subset hnd hsub).length_le
  simpa using this

/-- what is proved of every member -/
structure Succeeded (v : View K P σ) (seat : P → Seat K P R σ) (c : Net P R σ) (q : P) : Prop where
  result : (seat q).loop.result (c.nodes q).call.loop = some true
  done : (v.ses (c.nodes q).call.loop).taskDone = true

/-- nobody is blamed, whatever has happened so far -/
theorem sim_safe (hS : Scene enc v seat member taken need good base ids peers) {c : Net P R σ} {g : List (SessNet.NetEvent P)}
    (hs : Sim enc v seat member taken need good c g)
    (hp : ProperOuts base peers (fun q => (seat q).site) (made seat c)) (hw : WelcomeOuts peers (fun q => (seat q).site) (made seat c)) (q : P)
    (hq : Member peers q) :
    (seat q).loop.crashed (c.nodes q).call.loop = false ∧ (seat q).loop.result (c.nodes q).call.loop ≠ some false ∧
    (v.ses (c.nodes q).call.loop).mgr.blame = (seat q).site.mgr.blame ∧ (v.ses (c.nodes q).call.loop).culprits = [] ∧
    ∀ en ∈ (v.ses (c.nodes q).call.loop).log, en.ok = true := by
  have hqm := (hS.members q).2 hq
  have hok := hs.node q hqm
  obtain ⟨h1, h2⟩ := ghost_outs hS.members (fun q hq => (hs.node q hq).calm) hs.outs hp hw
  obtain ⟨⟨-, k1, k2, k3⟩, -⟩ := Props.SessionNet.c103_fault_free hS.setting hS.members g hs.closed h1 h2 q hq
  obtain ⟨x, hx⟩ := hs.ses q hqm
  rw [hx]
  exact ⟨hok.crashed, hok.result, k1, k2, k3⟩

/-- all members have told the others that they are done: then all know -/
theorem all_done (hS : Scene enc v seat member taken need good base ids peers) (hn : 2 ≤ ids.length) {c : Net P R σ} {g : List (SessNet.NetEvent P)}
    (hs : Sim enc v seat member taken need good c g)
    (hp : ProperOuts base peers (fun q => (seat q).site) (made seat c)) (hw : WelcomeOuts peers (fun q => (seat q).site) (made seat c))
    (hpool : c.pool = []) (hall : ∀ q, Member peers q → (seat q).loop.result (c.nodes q).call.loop = some true) (q : P) (hq : Member peers q) :
    Succeeded v seat c q := by
  have hqm := (hS.members q).2 hq
  refine ⟨hall q hq, ?_⟩
  by_cases hi : (c.nodes q).call.inbound = false
  · exact ((hs.node q hqm).stop ((hs.node q hqm).inbound hi)).2
  obtain ⟨h1, h2⟩ := ghost_outs hS.members (fun q hq => (hs.node q hq).calm) hs.outs hp hw
  obtain ⟨x, hx⟩ := hs.ses q hqm
  rw [hx]
  refine (Props.SessionNet.c105_task_done hS.setting hS.members g hs.closed h1 h2 hn q hq).2 ?_ ?_
  · intro y hy heq
    obtain ⟨d, hd, hdi⟩ := hs.pool
    rw [hpool, List.nil_append] at hd
    have := (hdi y (hd.subset hy)).2
    rw [heq] at this
    exact hi this
  · intro p hpm _
    exact (hs.note p ((hS.members p).2 hpm)).2 (hall p hpm)

theorem rest_success (hS : Scene enc v seat member taken need good base ids peers) (hneed : need = base.parties.length) (hnd : base.parties.Nodup)
    (hmsg : ∀ q, Member peers q → (seat q).site.out.msgNum = base.parties.length ∧ base.parties.length ≤ (seat q).caps.fin) (hn : 2 ≤ ids.length)
    {c : Net P R σ} {g : List (SessNet.NetEvent P)} (hs : Sim enc v seat member taken need good c g)
    (hp : ProperOuts base peers (fun q => (seat q).site) (made seat c)) (hw : WelcomeOuts peers (fun q => (seat q).site) (made seat c))
    (hgiven : ∀ q, Member peers q → (Props.SessionCall.given (c.nodes q).hist).length ≤ base.parties.length) {rounds : List Round}
    (hpr : Prompt base peers v seat c rounds) (hrest : Resting peers seat c) (hdr : Drained peers seat c) (q : P) (hq : Member peers q) :
    Succeeded v seat c q := by
  refine all_done hS hn hs hp hw hrest.pool ?_ q hq
  obtain ⟨h1, h2⟩ := ghost_outs hS.members (fun q hq => (hs.node q hq).calm) hs.outs hp hw
  by_cases hin : ∃ q, Member peers q ∧ (c.nodes q).call.inbound = false
  · -- a member has ended its call: all have told it that they are done
    obtain ⟨q0, hq0, hi0⟩ := hin
    have hqm := (hS.members q0).2 hq0
    obtain ⟨k1, k2⟩ := (hs.node q0 hqm).stop ((hs.node q0 hqm).inbound hi0)
    obtain ⟨x, hx⟩ := hs.ses q0 hqm
    rw [hx] at k2
    intro p hpm
    by_cases hpq : p = q0
    · rw [hpq]; exact k1
    exact (hs.note p ((hS.members p).2 hpm)).1
      ((Props.SessionNet.c105_task_done hS.setting hS.members g hs.closed h1 h2 hn q0 hq0).1 k2 p hpm hpq)
  · -- nobody has: all messages have been processed
    have hgpool : (SessNet.netRun enc (fun q => (seat q).site) member g).pool = [] := by
      obtain ⟨d, hd, hdi⟩ := hs.pool
      rw [hrest.pool, List.nil_append] at hd
      rw [List.eq_nil_iff_forall_not_mem]
      intro y hy
      exact hin ⟨_, (hS.members _).1 (hdi y (hd.subset hy)).1, (hdi y (hd.subset hy)).2⟩
    have hout : ∀ p, Member peers p → (c.nodes p).call.outCh = [] := by
      intro p hpm
      by_cases hr : (seat p).loop.result (c.nodes p).call.loop = none
      · exact (hrest.idle p hpm hr).1
      · exact hdr p hpm hr
    have hmade : ∀ p, Member peers p → (outputsAt p g).map Prod.snd = made seat c p := by
      intro p hpm
      have hpm' := (hS.members p).2 hpm
      unfold made
      rw [hs.outs p hpm', Props.SessionCall.c108_in_order, ← (hs.node p hpm').call, hout p hpm, List.append_nil]
    -- what all local parties of a member have produced for another has been handed over
    have hhand : ∀ p q ρ, Member peers p → Member peers q → p ≠ q → (∀ j ∈ base.parties, ∃ b r, Produced seat c ρ j p q b r) →
        ∀ j ∈ base.parties, HandedOver peers v seat c ρ j p q := by
      rintro p q ρ ⟨i, hi⟩ hqm hne hall j hj
      obtain ⟨b, r, hpd⟩ := hall j hj
      refine ⟨i, b, r, hi, hpd, ?_⟩
      obtain ⟨o, ho, k1, k2, k3, k4, k5⟩ := hpd
      rw [← hmade p ⟨i, hi⟩] at ho
      obtain ⟨e, he, rfl⟩ := List.mem_map.1 ho
      have hfull := full_of hS.setting hnd hi (hmsg p ⟨i, hi⟩).1 (h1 i p hi) (hmade p ⟨i, hi⟩) hall he k1 k3 k4 k5
      obtain ⟨en, hen, e1, e2⟩ := (Props.SessionNet.c103_fault_free hS.setting hS.members g hs.closed h1 h2 q hqm).2 hgpool i p hi hne e he b r k3 k5 hfull
      obtain ⟨x, hx⟩ := hs.ses q ((hS.members q).2 hqm)
      rw [hx]
      exact ⟨en, hen, by rw [e1, k2], e2⟩
    -- round by round
    have hround : ∀ (k : Nat) (ρ : Round), rounds[k]? = some ρ → ∀ p q, Member peers p → Member peers q → p ≠ q → ∀ j ∈ base.parties,
        HandedOver peers v seat c ρ j p q := by
      intro k
      induction k using Nat.strong_induction_on with
      | _ k ih =>
        intro ρ hρ p q hpm hqm hne
        refine hhand p q ρ hpm hqm hne ?_
        intro j hj
        exact hpr.round p hpm j hj k ρ hρ (fun k' hk' ρ' hρ' p' hp' hne' => ih k' hk' ρ' hρ' p' p hp' hpm hne' j hj) q hqm hne.symm
    intro q hqm
    have hqm' := (hS.members q).2 hqm
    have hok := hs.node q hqm'
    have hlen := hpr.result q hqm (fun j hj ρ hρ p hpm hne => by
      obtain ⟨k, hk⟩ := List.mem_iff_getElem?.1 hρ
      exact hround k ρ hk p q hpm hqm hne j hj)
    rcases hr : (seat q).loop.result (c.nodes q).call.loop with _ | b
    · exfalso
      have hkept := Props.SessionCall.results_kept (seat q).loop (seat q).caps (seat q).start (c.nodes q).hist (by rw [← hok.call]; exact hok.crashed)
        (le_trans (hgiven q hqm) (hmsg q hqm).2)
      rw [← hok.call, (hrest.idle q hqm hr).2, List.append_nil] at hkept
      have := hok.few hr
      rw [hok.took, hkept, hneed] at this
      omega
    · cases b with
      | true => rfl
      | false => exact absurd hr hok.result

end Verif.Ceremony
