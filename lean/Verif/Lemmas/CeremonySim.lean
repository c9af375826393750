import Verif.Lemmas.Ceremony

/-! Every undisturbed ceremony is a session of several nodes. -/
set_option linter.unusedSectionVars false
namespace Verif.Ceremony
open Verif.Go Verif.Messages Verif.TssCommon Verif.SessNet Verif.SessionCall Verif.Session Verif.Spec
open scoped List

variable {K P R σ : Type} [DecidableEq K] [DecidableEq P]
variable {enc : Encoders P} {v : View K P σ} {seat : P → Seat K P R σ} {member : P → Bool} {taken : σ → Nat} {need : Nat}
    {good : P → R → Prop} {base : TssCommon.Env K P} {ids : Map Nat Conversion.Party} {peers : Map Nat P}

theorem ghost_snoc (g : List (SessNet.NetEvent P)) (x : SessNet.NetEvent P) :
    SessNet.netRun enc (fun q => (seat q).site) member (g ++ [x]) =
      SessNet.netStep enc (fun q => (seat q).site) member (SessNet.netRun enc (fun q => (seat q).site) member g) x := by
  simp [SessNet.netRun]

theorem closed_snoc {g : List (SessNet.NetEvent P)} (h : Closed g) {x : SessNet.NetEvent P} (hx : ∀ p q raw sch, x ≠ .foreign p q raw sch) :
    Closed (g ++ [x]) := by
  intro e he
  rcases List.mem_append.1 he with he | he
  · exact h e he
  · rw [List.mem_singleton.1 he]; exact hx

theorem outputsAt_snoc (q : P) (g : List (SessNet.NetEvent P)) (x : SessNet.NetEvent P) : outputsAt q (g ++ [x]) = outputsAt q g ++ outputsAt q [x] := by
  simp [outputsAt]

theorem looped_snoc {c : Net P R σ} {q : P} (hok : NodeOk v (seat q) taken need (good q) (c.nodes q)) (e : SessionCall.Event P R) :
    Props.SessionCall.looped (seat q).loop (seat q).caps (SessionCall.init (seat q).start) ((c.nodes q).hist ++ [e]) =
      Props.SessionCall.looped (seat q).loop (seat q).caps (SessionCall.init (seat q).start) (c.nodes q).hist ++
        (loopEvent (seat q).loop (c.nodes q).call e).toList := by
  rw [Props.SessionCall.looped_append]
  congr 1
  have : (c.nodes q).hist.foldl (SessionCall.step (seat q).loop (seat q).caps) (SessionCall.init (seat q).start) = (c.nodes q).call := hok.call.symm
  rw [this]
  simp [Props.SessionCall.looped, hok.crashed]

/-- an event that is not an event of the loop -/
theorem sim_quiet (hf : ∀ q, member q = true → Faithful (seat q).loop v (seat q).site taken need (good q)) {c : Net P R σ}
    {g : List (SessNet.NetEvent P)} (hs : Sim enc v seat member taken need good c g) {q : P} (hq : member q = true) (e : SessionCall.Event P R)
    (hcalm : Calm (good q) e) (hle : loopEvent (seat q).loop (c.nodes q).call e = none) (pool : List (P × P × Bytes))
    (hpool : ∃ dropped, (SessNet.netRun enc (fun q => (seat q).site) member g).pool ~ pool ++ dropped ∧
      ∀ x ∈ dropped, member x.2.1 = true ∧ (c.nodes x.2.1).call.inbound = false) :
    Sim enc v seat member taken need good
      ⟨c.update q (happen enc v (seat q) (c.nodes q) e).1, pool ++ (happen enc v (seat q) (c.nodes q) e).2⟩ g := by
  have hok := hs.node q hq
  have hloop : (happen enc v (seat q) (c.nodes q) e).1.call.loop = (c.nodes q).call.loop := by
    show (SessionCall.step (seat q).loop (seat q).caps (c.nodes q).call e).loop = _
    rw [step_of hok.crashed, hle]; rfl
  refine sim_after hs e pool hs.closed (fun _ _ => rfl) (fun _ _ => rfl) (fun _ _ => Iff.rfl) ?_ ?_ ?_ ?_ ?_ ?_
  · exact happen_ok (hf q hq) hok e hcalm (fun te h => by rw [hle] at h; cases h) (fun sch o h => by rw [hle] at h; cases h)
  · rw [hloop]; exact hs.ses q hq
  · rw [hloop]; exact hs.out q hq
  · rw [looped_snoc hok, hle]; simp only [Option.toList_none, List.append_nil]; exact hs.outs q hq
  · rw [hloop]; exact hs.note q hq
  · obtain ⟨d, h1, h2⟩ := hpool
    refine ⟨d, ?_, h2⟩
    have : (happen enc v (seat q) (c.nodes q) e).2 = [] := by
      show emitted enc v (seat q).site (c.nodes q).call.loop (happen enc v (seat q) (c.nodes q) e).1.call.loop = []
      exact emitted_same (by rw [hloop]) (by rw [hloop]) (by rw [hloop])
    rw [this, List.append_nil]
    exact h1

/-- what is assumed throughout -/
structure Scene (enc : Encoders P) (v : View K P σ) (seat : P → Seat K P R σ) (member : P → Bool) (taken : σ → Nat) (need : Nat)
    (good : P → R → Prop) (base : TssCommon.Env K P) (ids : Map Nat Conversion.Party) (peers : Map Nat P) : Prop where
  setting : Setting enc base ids peers (fun q => (seat q).site)
  members : ∀ p, member p = true ↔ Member peers p
  faithful : ∀ q, member q = true → Faithful (seat q).loop v (seat q).site taken need (good q)
  starts : ∀ q, member q = true → Starts v (seat q) taken need

/-- all members of the session are running -/
theorem ghost_alive (hS : Scene enc v seat member taken need good base ids peers) {c : Net P R σ} {g : List (SessNet.NetEvent P)} (hcl : Closed g)
    (hcalm : ∀ q, member q = true → ∀ e ∈ (c.nodes q).hist, Calm (good q) e)
    (houts : ∀ q, member q = true → outputsAt q g = Props.SessionCall.processed (Props.SessionCall.looped (seat q).loop (seat q).caps
      (SessionCall.init (seat q).start) (c.nodes q).hist))
    (hp : ProperOuts base peers (fun q => (seat q).site) (made seat c)) (hw : WelcomeOuts peers (fun q => (seat q).site) (made seat c)) (q : P)
    (hq : member q = true) : ((SessNet.netRun enc (fun q => (seat q).site) member g).nodes q).alive = true := by
  obtain ⟨h1, h2⟩ := ghost_outs hS.members hcalm houts hp hw
  exact (Props.SessionNet.c103_fault_free hS.setting hS.members g hcl h1 h2 q ((hS.members q).1 hq)).1.1

theorem alive_ses {n : SessNet.Node K P} (h : n.alive = true) : n.ses.crashed = false ∧ n.dead = false := by
  unfold SessNet.Node.alive at h
  simp only [Bool.and_eq_true, Bool.not_eq_true'] at h
  exact ⟨h.2, h.1⟩

/-- the history of `q` after an event, the others as before -/
theorem calm_after {c : Net P R σ} {g : List (SessNet.NetEvent P)} (hs : Sim enc v seat member taken need good c g) {q : P}
    (e : SessionCall.Event P R) (hcalm : Calm (good q) e) (pool : List (P × P × Bytes)) :
    ∀ p, member p = true → ∀ x ∈ ((⟨c.update q (happen enc v (seat q) (c.nodes q) e).1, pool⟩ : Net P R σ).nodes p).hist, Calm (good p) x := by
  intro p hp x hx
  by_cases hpq : p = q
  · subst hpq
    simp only [Net.update, if_true] at hx
    rcases List.mem_append.1 hx with hx | hx
    · exact (hs.node p hp).calm x hx
    · rw [List.mem_singleton.1 hx]; exact hcalm
  · simp only [Net.update, if_neg hpq] at hx
    exact (hs.node p hp).calm x hx

/-- outputs after an event -/
theorem outs_after {c : Net P R σ} {g g' : List (SessNet.NetEvent P)} (hs : Sim enc v seat member taken need good c g) {q : P}
    (e : SessionCall.Event P R) (pool : List (P × P × Bytes))
    (h : ∀ p, member p = true → outputsAt p g' = outputsAt p g ++ if p = q then Props.SessionCall.processed (loopEvent (seat q).loop (c.nodes q).call e).toList else []) :
    ∀ p, member p = true → outputsAt p g' = Props.SessionCall.processed (Props.SessionCall.looped (seat p).loop (seat p).caps
      (SessionCall.init (seat p).start) ((⟨c.update q (happen enc v (seat q) (c.nodes q) e).1, pool⟩ : Net P R σ).nodes p).hist) := by
  intro p hp
  rw [h p hp]
  by_cases hpq : p = q
  · subst hpq
    simp only [Net.update, if_true]
    show _ = Props.SessionCall.processed (Props.SessionCall.looped (seat p).loop (seat p).caps (SessionCall.init (seat p).start) ((c.nodes p).hist ++ [e]))
    rw [looped_snoc (hs.node p hp), Props.SessionCall.processed_append, hs.outs p hp]
  · simp only [Net.update, if_neg hpq, List.append_nil]
    exact hs.outs p hp

/-- a message is processed -/
theorem sim_message (hS : Scene enc v seat member taken need good base ids peers) {c : Net P R σ}
    {g : List (SessNet.NetEvent P)} (hs : Sim enc v seat member taken need good c g) {q : P} (hq : member q = true) (te : TssCommon.Event P)
    (hle : loopEvent (seat q).loop (c.nodes q).call (.message te) = some (.inbound te)) (pool : List (P × P × Bytes)) (x : SessNet.NetEvent P)
    (hx : ∀ p q raw sch, x ≠ .foreign p q raw sch) (hx1 : ∀ p, outputsAt p [x] = []) (hx2 : ∀ p, x ≠ .at_ p .notifyDone)
    (gpool : List (P × P × Bytes))
    (hstep : SessNet.netStep enc (fun q => (seat q).site) member (SessNet.netRun enc (fun q => (seat q).site) member g) x =
      ⟨SessNet.Net.update (SessNet.netRun enc (fun q => (seat q).site) member g) q
        (SessNet.inbound enc (seat q).site ((SessNet.netRun enc (fun q => (seat q).site) member g).nodes q) te).1,
        gpool ++ (SessNet.inbound enc (seat q).site ((SessNet.netRun enc (fun q => (seat q).site) member g).nodes q) te).2⟩)
    (hpool : ∃ dropped, gpool ~ pool ++ dropped ∧ ∀ x ∈ dropped, member x.2.1 = true ∧ (c.nodes x.2.1).call.inbound = false)
    (hp : ProperOuts base peers (fun q => (seat q).site) (made seat ⟨c.update q (happen enc v (seat q) (c.nodes q) (.message te)).1,
      pool ++ (happen enc v (seat q) (c.nodes q) (.message te)).2⟩))
    (hw : WelcomeOuts peers (fun q => (seat q).site) (made seat ⟨c.update q (happen enc v (seat q) (c.nodes q) (.message te)).1,
      pool ++ (happen enc v (seat q) (c.nodes q) (.message te)).2⟩))
    (hp0 : ProperOuts base peers (fun q => (seat q).site) (made seat c)) (hw0 : WelcomeOuts peers (fun q => (seat q).site) (made seat c)) :
    Sim enc v seat member taken need good
      ⟨c.update q (happen enc v (seat q) (c.nodes q) (.message te)).1, pool ++ (happen enc v (seat q) (c.nodes q) (.message te)).2⟩ (g ++ [x]) := by
  have hok := hs.node q hq
  have hf := hS.faithful q hq
  have hal := ghost_alive hS hs.closed (fun q hq => (hs.node q hq).calm) hs.outs hp0 hw0 q hq
  have hcl := closed_snoc hs.closed hx
  have hrun := ghost_snoc (enc := enc) (seat := seat) (member := member) g x
  rw [hstep] at hrun
  obtain ⟨m1, m2, m3, m4, m5⟩ := same_message (enc := enc) hf hok (hs.ses q hq) (hs.out q hq) hal te hle
  have houts : ∀ p, outputsAt p (g ++ [x]) = outputsAt p g := fun p => by rw [outputsAt_snoc, hx1, List.append_nil]
  have houts' := outs_after (g' := g ++ [x]) hs (.message te) (pool ++ (happen enc v (seat q) (c.nodes q) (.message te)).2) (fun p _ => by
    rw [houts, hle]; simp [Props.SessionCall.processed])
  have hal' := ghost_alive hS hcl (calm_after hs (.message te) trivial _) houts' hp hw q hq
  have hn : (SessNet.netRun enc (fun q => (seat q).site) member (g ++ [x])).nodes q =
      (SessNet.inbound enc (seat q).site ((SessNet.netRun enc (fun q => (seat q).site) member g).nodes q) te).1 := by
    rw [hrun]; simp [SessNet.Net.update]
  rw [hn] at hal'
  refine sim_after hs (.message te) pool hcl ?_ (fun p _ => houts p) ?_ ?_ ?_ ?_ ?_ ?_ ?_
  · intro p hpq; rw [hrun]; simp [SessNet.Net.update, hpq]
  · intro p _
    rw [List.mem_append, List.mem_singleton]
    exact ⟨fun h => h.resolve_right (fun h => hx2 p h.symm), Or.inl⟩
  · refine happen_ok hf hok _ trivial ?_ (fun sch o h => by rw [hle] at h; cases h)
    intro te' h
    rw [hle] at h
    cases h
    rw [m5]
    exact (alive_ses hal').1
  · rw [hn]; exact m1
  · rw [hn]; exact m2
  · rw [houts, looped_snoc hok, hle, Props.SessionCall.processed_append, hs.outs q hq]; simp [Props.SessionCall.processed]
  · rw [m4, List.mem_append, List.mem_singleton]
    exact ⟨fun h => (hs.note q hq).1 (h.resolve_right (fun h => hx2 q h.symm)), fun h => Or.inl ((hs.note q hq).2 h)⟩
  · obtain ⟨d, h1, h2⟩ := hpool
    refine ⟨d, ?_, h2⟩
    rw [hrun, m3]
    dsimp only
    refine (h1.append_right _).trans ?_
    rw [List.append_assoc, List.append_assoc]
    exact (List.perm_append_comm).append_left _

theorem append_perm {α : Type} {a p d x : List α} (h : a ~ p ++ d) : a ++ x ~ p ++ x ++ d := by
  refine (h.append_right _).trans ?_
  rw [List.append_assoc, List.append_assoc]
  exact (List.perm_append_comm).append_left _

/-- an output is processed -/
theorem sim_output (hS : Scene enc v seat member taken need good base ids peers) {c : Net P R σ}
    {g : List (SessNet.NetEvent P)} (hs : Sim enc v seat member taken need good c g) {q : P} (hq : member q = true) (sch : OutBatch.Sched)
    (o : OutBatch.Output) (hsch : ∀ k, sch.ok k = true) (hres : (seat q).loop.result (c.nodes q).call.loop = none)
    (hle : loopEvent (seat q).loop (c.nodes q).call (.takeOut sch) = some (.out sch o))
    (hp : ProperOuts base peers (fun q => (seat q).site) (made seat ⟨c.update q (happen enc v (seat q) (c.nodes q) (.takeOut sch)).1,
      c.pool ++ (happen enc v (seat q) (c.nodes q) (.takeOut sch)).2⟩))
    (hw : WelcomeOuts peers (fun q => (seat q).site) (made seat ⟨c.update q (happen enc v (seat q) (c.nodes q) (.takeOut sch)).1,
      c.pool ++ (happen enc v (seat q) (c.nodes q) (.takeOut sch)).2⟩))
    (hp0 : ProperOuts base peers (fun q => (seat q).site) (made seat c)) (hw0 : WelcomeOuts peers (fun q => (seat q).site) (made seat c)) :
    Sim enc v seat member taken need good
      ⟨c.update q (happen enc v (seat q) (c.nodes q) (.takeOut sch)).1, c.pool ++ (happen enc v (seat q) (c.nodes q) (.takeOut sch)).2⟩
      (g ++ [.at_ q (.output sch o)]) := by
  have hok := hs.node q hq
  have hf := hS.faithful q hq
  have hal := ghost_alive hS hs.closed (fun q hq => (hs.node q hq).calm) hs.outs hp0 hw0 q hq
  have hcl := closed_snoc hs.closed (x := .at_ q (.output sch o)) (by intro _ _ _ _ h; cases h)
  have hrun := ghost_snoc (enc := enc) (seat := seat) (member := member) g (.at_ q (.output sch o))
  have houts : ∀ p, outputsAt p (g ++ [.at_ q (.output sch o)]) = outputsAt p g ++ if p = q then [(sch, o)] else [] := by
    intro p
    rw [outputsAt_snoc]
    congr 1
    by_cases hpq : p = q
    · subst hpq; simp [outputsAt]
    · rw [if_neg hpq]
      simp [outputsAt, Ne.symm hpq]
  have houts' := outs_after (g' := g ++ [.at_ q (.output sch o)]) hs (.takeOut sch) (c.pool ++ (happen enc v (seat q) (c.nodes q) (.takeOut sch)).2)
    (fun p _ => by rw [houts, hle]; simp [Props.SessionCall.processed])
  obtain ⟨hproper, -⟩ := ghost_outs hS.members (calm_after hs (.takeOut sch) hsch _) houts' hp hw
  have hloop : (happen enc v (seat q) (c.nodes q) (.takeOut sch)).1.call.loop = (seat q).loop.step (c.nodes q).call.loop (.out sch o) := by
    show (SessionCall.step (seat q).loop (seat q).caps (c.nodes q).call (.takeOut sch)).loop = _
    rw [step_of hok.crashed, hle]; rfl
  -- the output is regular, so that it is processed without error
  have hres' : ∀ st, (OutBatch.ProcessOutCh (seat q).site.out sch o (seat q).site.type st).2 = .ok () := by
    obtain ⟨i, hi⟩ := (hS.members q).1 hq
    have hreg := ((hproper i q hi).regular (sch, o) (by rw [houts]; simp)).1
    intro st
    unfold OutBatch.ProcessOutCh
    split
    · rename_i h; exact absurd h hreg.wire
    · rename_i data r h
      dsimp only
      split
      · rfl
      · rename_i hb
        obtain ⟨d, hd⟩ := (hreg.dest data r h).2 (by simpa using hb)
        rw [hd]
  obtain ⟨f1, f2, f3⟩ := hf.out (c.nodes q).call.loop sch o hok.crashed hres
  obtain ⟨f3, -, -⟩ := f3 (hres' _)
  have f4 := hf.sends.out (c.nodes q).call.loop sch o hok.crashed hres
  have hso := hs.out q hq
  have hnote : ∀ p, (.at_ p .notifyDone ∈ g ++ [.at_ q (.output sch o)] ↔ (.at_ p .notifyDone : SessNet.NetEvent P) ∈ g) := by
    intro p
    rw [List.mem_append, List.mem_singleton]
    exact ⟨fun h => h.resolve_right (by simp), Or.inl⟩
  simp only [SessNet.netStep, SessNet.localStep, if_pos hq, if_pos hal] at hrun
  refine sim_after hs (.takeOut sch) c.pool hcl ?_ ?_ (fun p _ => hnote p) ?_ ?_ ?_ ?_ ?_ ?_
  · intro p hpq; rw [hrun]; simp [SessNet.Net.update, hpq]
  · intro p hpq; rw [houts, if_neg hpq, List.append_nil]
  · refine happen_ok hf hok _ hsch (fun te h => by rw [hle] at h; cases h) ?_
    intro sch' o' h
    rw [hle] at h
    cases h
    exact hres' _
  · rw [hrun, hloop]
    obtain ⟨x, hx⟩ := f1
    obtain ⟨y, hy⟩ := hs.ses q hq
    refine ⟨x, ?_⟩
    rw [hx, hy]
    simp [SessNet.Net.update, relabel_relabel]
  · rw [hrun, hloop, f4, hso]
    simp [SessNet.Net.update]
  · rw [houts, looped_snoc hok, hle, Props.SessionCall.processed_append, hs.outs q hq]; simp [Props.SessionCall.processed]
  · rw [hloop, f3, hnote, hs.note q hq, hres]
  · obtain ⟨d, h1, h2⟩ := hs.pool
    refine ⟨d, ?_, h2⟩
    rw [hrun]
    dsimp only
    have hem : (happen enc v (seat q) (c.nodes q) (.takeOut sch)).2 =
        ((OutBatch.ProcessOutCh (seat q).site.out sch o (seat q).site.type ((SessNet.netRun enc (fun q => (seat q).site) member g).nodes q).out).1.sent.drop
          ((SessNet.netRun enc (fun q => (seat q).site) member g).nodes q).out.sent.length).flatMap (renderBulk enc (seat q).site) := by
      show emitted enc v (seat q).site (c.nodes q).call.loop (happen enc v (seat q) (c.nodes q) (.takeOut sch)).1.call.loop = _
      rw [hloop]
      unfold emitted
      obtain ⟨x, hx⟩ := f1
      rw [f4, f2, hx, hso]
      cases v.notified (c.nodes q).call.loop <;> simp [relabel]
    rw [hem]
    exact append_perm h1

/-- a result is taken -/
theorem sim_done (hS : Scene enc v seat member taken need good base ids peers) {c : Net P R σ}
    {g : List (SessNet.NetEvent P)} (hs : Sim enc v seat member taken need good c g) {q : P} (hq : member q = true) (r : R) (hg : good q r)
    (hres : (seat q).loop.result (c.nodes q).call.loop = none)
    (hle : loopEvent (seat q).loop (c.nodes q).call .takeEnd = some (.done r))
    (hp0 : ProperOuts base peers (fun q => (seat q).site) (made seat c)) (hw0 : WelcomeOuts peers (fun q => (seat q).site) (made seat c)) :
    ∃ g', Sim enc v seat member taken need good
      ⟨c.update q (happen enc v (seat q) (c.nodes q) .takeEnd).1, c.pool ++ (happen enc v (seat q) (c.nodes q) .takeEnd).2⟩ g' := by
  have hok := hs.node q hq
  have hf := hS.faithful q hq
  have hal := ghost_alive hS hs.closed (fun q hq => (hs.node q hq).calm) hs.outs hp0 hw0 q hq
  have hloop : (happen enc v (seat q) (c.nodes q) .takeEnd).1.call.loop = (seat q).loop.step (c.nodes q).call.loop (.done r) := by
    show (SessionCall.step (seat q).loop (seat q).caps (c.nodes q).call .takeEnd).loop = _
    rw [step_of hok.crashed, hle]; rfl
  obtain ⟨f1, f2, f3, f4, f5⟩ := hf.done (c.nodes q).call.loop r hok.crashed hres hg
  have f6 := hf.sends.other (c.nodes q).call.loop (.done r) (by intro _ _ h; cases h)
  have hno : v.notified (c.nodes q).call.loop = false := by rw [← Bool.not_eq_true, hok.notified, hres]; simp
  have hnode := happen_ok (enc := enc) hf hok .takeEnd trivial (fun te h => by rw [hle] at h; cases h) (fun sch o h => by rw [hle] at h; cases h)
  have f5 := f5 hno
  have hem : (happen enc v (seat q) (c.nodes q) .takeEnd).2 =
      if taken (c.nodes q).call.loop + 1 = need then
        toPeers (seat q).site.env.localPeer (enc.wrap TSSTaskDone (enc.task true)) (seat q).site.env.p2pPeers else [] := by
    show emitted enc v (seat q).site (c.nodes q).call.loop (happen enc v (seat q) (c.nodes q) .takeEnd).1.call.loop = _
    rw [hloop]
    unfold emitted
    rw [f1, f6, f5, hno]
    split <;> simp_all
  have hproc : outputsAt q g = Props.SessionCall.processed (Props.SessionCall.looped (seat q).loop (seat q).caps (SessionCall.init (seat q).start)
      ((c.nodes q).hist ++ [.takeEnd])) := by
    rw [looped_snoc hok, hle, Props.SessionCall.processed_append, hs.outs q hq]; simp [Props.SessionCall.processed]
  by_cases hend : taken (c.nodes q).call.loop + 1 = need
  · have hcl := closed_snoc hs.closed (x := .at_ q .notifyDone) (by intro _ _ _ _ h; cases h)
    have hrun := ghost_snoc (enc := enc) (seat := seat) (member := member) g (.at_ q .notifyDone)
    simp only [SessNet.netStep, SessNet.localStep, if_pos hq, if_pos hal] at hrun
    have houts : ∀ p, outputsAt p (g ++ [.at_ q .notifyDone]) = outputsAt p g := fun p => by rw [outputsAt_snoc]; simp [outputsAt]
    have hnodes : ∀ p, (SessNet.netRun enc (fun q => (seat q).site) member (g ++ [.at_ q .notifyDone])).nodes p =
        (SessNet.netRun enc (fun q => (seat q).site) member g).nodes p := by
      intro p
      rw [hrun]
      simp only [SessNet.Net.update]
      split
      · rename_i h; rw [h]
      · rfl
    refine ⟨g ++ [.at_ q .notifyDone], sim_after hs .takeEnd c.pool hcl (fun p _ => hnodes p) (fun p _ => houts p) ?_ hnode ?_ ?_ ?_ ?_ ?_⟩
    · intro p hpq
      rw [List.mem_append, List.mem_singleton]
      refine ⟨fun h => h.resolve_right (fun h => ?_), Or.inl⟩
      cases h; exact hpq rfl
    · rw [hnodes, hloop, f1]; exact hs.ses q hq
    · rw [hnodes, hloop, f6]; exact hs.out q hq
    · rw [houts]; exact hproc
    · rw [hloop, f4, if_pos hend]
      simp
    · obtain ⟨d, h1, h2⟩ := hs.pool
      refine ⟨d, ?_, h2⟩
      rw [hrun, hem, if_pos hend]
      exact append_perm h1
  · refine ⟨g, sim_after hs .takeEnd c.pool hs.closed (fun _ _ => rfl) (fun _ _ => rfl) (fun _ _ => Iff.rfl) hnode ?_ ?_ hproc ?_ ?_⟩
    · rw [hloop, f1]; exact hs.ses q hq
    · rw [hloop, f6]; exact hs.out q hq
    · rw [hloop, f4, if_neg hend, hs.note q hq, hres]
    · rw [hem, if_neg hend, List.append_nil]
      exact hs.pool

theorem sim_step (hS : Scene enc v seat member taken need good base ids peers) {c : Net P R σ}
    {g : List (SessNet.NetEvent P)} (hs : Sim enc v seat member taken need good c g) (E : NetEvent P R) (hcalm : CalmNet member good E)
    (hp : ProperOuts base peers (fun q => (seat q).site) (made seat (netStep enc v seat member c E)))
    (hw : WelcomeOuts peers (fun q => (seat q).site) (made seat (netStep enc v seat member c E))) :
    ∃ g', Sim enc v seat member taken need good (netStep enc v seat member c E) g' := by
  have hp0 := properOuts_mono (made_step (enc := enc) (v := v) (member := member) (seat := seat) c E) hp
  have hw0 := welcomeOuts_mono (made_step (enc := enc) (v := v) (member := member) (seat := seat) c E) hw
  cases E with
  | at_ q e =>
    simp only [netStep] at hp hw ⊢
    by_cases hm : (member q && own e) = true
    swap
    · rw [if_neg hm]; exact ⟨g, hs⟩
    rw [if_pos hm] at hp hw ⊢
    simp only [Bool.and_eq_true] at hm
    obtain ⟨hq, hown⟩ := hm
    have hc := hcalm hq
    have hok := hs.node q hq
    rcases calm_cases hok e hc with h0 | ⟨te, rfl, hi, h0⟩ | ⟨sch, o, l, rfl, ho, hsch, hr, h0⟩ | ⟨r, l, rfl, ho, hg, hr, h0⟩
    · exact ⟨g, sim_quiet hS.faithful hs hq e hc h0 c.pool hs.pool⟩
    · cases te with
      | msg raw peer sch => simp [own] at hown
      | work j =>
        refine ⟨_, sim_message hS hs hq (.work j) h0 c.pool (.at_ q (.work j)) (by intro _ _ _ _ h; cases h) (fun p => by simp [outputsAt])
          (by intro p h; cases h) (SessNet.netRun enc (fun q => (seat q).site) member g).pool ?_ hs.pool hp hw hp0 hw0⟩
        simp only [SessNet.netStep, SessNet.localStep, if_pos hq]
    · exact ⟨_, sim_output hS hs hq sch o hsch hr h0 hp hw hp0 hw0⟩
    · exact sim_done hS hs hq r hg hr h0 hp0 hw0
  | deliver i sch =>
    simp only [netStep] at hp hw ⊢
    rcases hx : c.pool[i]? with _ | ⟨p, q, raw⟩
    · exact ⟨g, hs⟩
    rw [hx] at hp hw
    dsimp only at hp hw ⊢
    obtain ⟨d, hd, hdi⟩ := hs.pool
    have hmem : (p, q, raw) ∈ (SessNet.netRun enc (fun q => (seat q).site) member g).pool :=
      hd.symm.subset (List.mem_append_left _ (List.mem_of_getElem? hx))
    obtain ⟨j, hj⟩ := List.mem_iff_getElem?.1 hmem
    have hperm := perm_eraseIdx hd hx hj
    by_cases hq : member q = true
    · rw [if_pos hq] at hp hw ⊢
      by_cases hi : (c.nodes q).call.inbound = true
      · refine ⟨_, sim_message hS hs hq (.msg raw p sch) (by simp only [loopEvent]; rw [if_pos hi]) (c.pool.eraseIdx i) (.deliver j sch)
          (by intro _ _ _ _ h; cases h) (fun p => by simp [outputsAt]) (by intro p h; cases h)
          ((SessNet.netRun enc (fun q => (seat q).site) member g).pool.eraseIdx j) ?_ ⟨d, hperm, hdi⟩ hp hw hp0 hw0⟩
        simp only [SessNet.netStep, hj, if_pos hq]
      · refine ⟨g, sim_quiet hS.faithful hs hq (.message (.msg raw p sch)) trivial (by simp only [loopEvent]; rw [if_neg hi]) (c.pool.eraseIdx i)
          ⟨(p, q, raw) :: d, ?_, ?_⟩⟩
        · refine hd.trans ?_
          obtain ⟨hi', hx'⟩ := List.getElem?_eq_some_iff.1 hx
          have h2 := (List.getElem_cons_eraseIdx_perm hi').append_right d
          rw [hx'] at h2
          exact h2.symm.trans List.perm_middle.symm
        · intro x hx'
          rcases List.mem_cons.1 hx' with rfl | hx'
          · exact ⟨hq, by simpa using hi⟩
          · exact hdi x hx'
    · rw [if_neg hq] at hp hw ⊢
      have hrun := ghost_snoc (enc := enc) (seat := seat) (member := member) g (.deliver j sch)
      simp only [SessNet.netStep, hj, if_neg hq] at hrun
      refine ⟨g ++ [.deliver j sch], ?_⟩
      have houts : ∀ p, outputsAt p (g ++ [.deliver j sch]) = outputsAt p g := fun p => by rw [outputsAt_snoc]; simp [outputsAt]
      exact { closed := closed_snoc hs.closed (by intro _ _ _ _ h; cases h)
              node := hs.node
              ses := fun q hq => by rw [hrun]; exact hs.ses q hq
              out := fun q hq => by rw [hrun]; exact hs.out q hq
              outs := fun q hq => by rw [houts]; exact hs.outs q hq
              note := fun q hq => by
                rw [List.mem_append, List.mem_singleton, ← hs.note q hq]
                exact ⟨fun h => h.resolve_right (by simp), Or.inl⟩
              pool := ⟨d, by rw [hrun]; exact hperm, hdi⟩ }

/-- every undisturbed ceremony whose local parties behave is a session of several nodes -/
theorem sim_run (hS : Scene enc v seat member taken need good base ids peers) (h : List (NetEvent P R)) (hcalm : ∀ E ∈ h, CalmNet member good E)
    (hp : ProperOuts base peers (fun q => (seat q).site) (made seat (netRun enc v seat member h)))
    (hw : WelcomeOuts peers (fun q => (seat q).site) (made seat (netRun enc v seat member h))) :
    ∃ g, Sim enc v seat member taken need good (netRun enc v seat member h) g := by
  induction h using List.reverseRecOn with
  | nil => exact ⟨[], sim_init hS.starts⟩
  | append_singleton h E ih =>
    have hrun : netRun enc v seat member (h ++ [E]) = netStep enc v seat member (netRun enc v seat member h) E := by simp [netRun]
    rw [hrun] at hp hw ⊢
    obtain ⟨g, hg⟩ := ih (fun E hE => hcalm E (List.mem_append_left _ hE)) (properOuts_mono (made_step _ E) hp) (welcomeOuts_mono (made_step _ E) hw)
    exact sim_step hS hg E (hcalm E (by simp)) hp hw

end Verif.Ceremony
