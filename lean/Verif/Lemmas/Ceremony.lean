import Verif.Spec.Ceremony
import Verif.Lemmas.Relabel
import Verif.Props.C102_C106

/-! The calls of a ceremony, seen as a session of several nodes. -/
set_option linter.unusedSectionVars false
namespace Verif.Ceremony
open Verif.Go Verif.Messages Verif.TssCommon Verif.SessNet Verif.SessionCall Verif.Session Verif.Spec
open scoped List

variable {K P R σ : Type} [DecidableEq K] [DecidableEq P]

/-- what a loop does in terms of the session, of the batches of outputs and of the number of results taken; `good` are the results which are
taken without an error, `need` is their number -/
structure Faithful (L : Loop P R σ) (v : View K P σ) (site : Site K P) (taken : σ → Nat) (need : Nat) (good : R → Prop) : Prop where
  stays : Props.SessionCall.Stays L
  sends : Props.SessionCall.Sends L site.out site.type v.out
  taskDone : ∀ s, L.taskDone s = (v.ses s).taskDone
  inbound : ∀ s e, L.crashed s = false → v.ses (L.step s (.inbound e)) = TssCommon.step site.env (v.ses s) e ∧
    v.notified (L.step s (.inbound e)) = v.notified s ∧ L.result (L.step s (.inbound e)) = L.result s ∧
    L.crashed (L.step s (.inbound e)) = (TssCommon.step site.env (v.ses s) e).crashed ∧ taken (L.step s (.inbound e)) = taken s
  out : ∀ s sch o, L.crashed s = false → L.result s = none → (∃ x, v.ses (L.step s (.out sch o)) = relabel x (v.ses s)) ∧
    v.notified (L.step s (.out sch o)) = v.notified s ∧
    ((OutBatch.ProcessOutCh site.out sch o site.type (v.out s)).2 = .ok () →
      L.result (L.step s (.out sch o)) = none ∧ L.crashed (L.step s (.out sch o)) = false ∧ taken (L.step s (.out sch o)) = taken s)
  done : ∀ s r, L.crashed s = false → L.result s = none → good r → v.ses (L.step s (.done r)) = v.ses s ∧
    L.crashed (L.step s (.done r)) = false ∧ taken (L.step s (.done r)) = taken s + 1 ∧
    L.result (L.step s (.done r)) = (if taken s + 1 = need then some true else none) ∧
    (v.notified s = false → v.notified (L.step s (.done r)) = decide (taken s + 1 = need))

theorem faithful_gen {S H L Pt A Q : Type} [LinearOrder S] [LinearOrder H] (env : Keygen.KEnv P S H L Pt A Q) (lenv : LoopEnv Server.Str P)
    (mgr : Blame.Manager Server.Str P) (sign : Bytes → Bytes) (keys : List Server.Str) (disk : Storage.Disk) :
    Faithful (genLoop env lenv keys) genView (genSeat env lenv mgr sign keys disk).site (fun s => s.result.toList.length) 1
      (Stores env keys) where
  stays := Props.SessionCall.stays_gen env lenv keys
  sends := Props.SessionCall.sends_gen env lenv keys
  taskDone s := rfl
  inbound s e hc := by
    simp only [genLoop, genView, genSeat] at hc ⊢
    unfold Keygen.genStep
    rw [if_neg (by simp [hc])]
    exact ⟨rfl, rfl, rfl, rfl, rfl⟩
  out s sch o hc hr := by
    simp only [genLoop, genView, genSeat, Option.map_eq_none_iff] at hc hr ⊢
    unfold Keygen.genStep
    rw [if_neg (by simp [hc])]
    simp only [hr, Option.isSome_none, Bool.false_eq_true, if_false]
    generalize OutBatch.ProcessOutCh lenv.out sch o TSSKeyGenMsg s.out = q
    rcases q with ⟨st, r⟩
    cases r with
    | ok u => exact ⟨⟨_, rfl⟩, rfl, fun _ => ⟨by simp, hc, by simp⟩⟩
    | err e => exact ⟨⟨_, rfl⟩, rfl, fun h => by cases h⟩
    | panic => exact ⟨⟨_, rfl⟩, rfl, fun h => by cases h⟩
  done s r hc hr hg := by
    simp only [genLoop, genView, Option.map_eq_none_iff] at hc hr ⊢
    unfold Keygen.genStep
    rw [if_neg (by simp [hc])]
    simp only [hr, Option.isSome_none, Bool.false_eq_true, if_false]
    obtain ⟨k, a, h1, h2⟩ := hg
    unfold Keygen.genDone
    simp only [h1]
    have := h2 s.disk
    revert this
    generalize Storage.SaveLocalState env.base.storage (fun st => String.ofList st.pubKey) env.base.folder ⟨k, r.share, keys, env.ownKey⟩ r.fault s.disk = q
    rcases q with ⟨d, res⟩
    intro h
    dsimp only at h
    subst h
    simp [hc]

theorem faithful_sign (lenv : LoopEnv K P) (mgr : Blame.Manager K P) (sign : Bytes → Bytes) (n k : Nat) :
    Faithful (signLoop lenv k) signView (signSeat lenv mgr sign n k).site (fun s => s.sigs.length) k (fun _ => True) where
  stays := Props.SessionCall.stays_sign lenv k
  sends := Props.SessionCall.sends_sign lenv k
  taskDone s := rfl
  inbound s e hc := by
    simp only [signLoop, signView, signSeat] at hc ⊢
    unfold Session.signStep
    rw [if_neg (by simp [hc])]
    exact ⟨rfl, rfl, rfl, rfl, rfl⟩
  out s sch o hc hr := by
    simp only [signLoop, signView, signSeat, Option.map_eq_none_iff] at hc hr ⊢
    unfold Session.signStep
    rw [if_neg (by simp [hc])]
    simp only [hr, Option.isSome_none, Bool.false_eq_true, if_false]
    generalize OutBatch.ProcessOutCh lenv.out sch o TSSKeySignMsg s.out = q
    rcases q with ⟨st, r⟩
    cases r with
    | ok u => exact ⟨⟨_, rfl⟩, rfl, fun _ => ⟨by simp, hc, rfl⟩⟩
    | err e => exact ⟨⟨_, rfl⟩, rfl, fun h => by cases h⟩
    | panic => exact ⟨⟨_, rfl⟩, rfl, fun h => by cases h⟩
  done s r hc hr _ := by
    simp only [signLoop, signView, Option.map_eq_none_iff] at hc hr ⊢
    unfold Session.signStep
    rw [if_neg (by simp [hc])]
    simp only [hr, Option.isSome_none, Bool.false_eq_true, if_false, List.length_append, List.length_singleton]
    split
    · rename_i h
      simp [hc, h]
    · rename_i h
      simp [hc, h]

/-! ## nothing is unlearned -/

theorem stepJob_taskDone (env : TssCommon.Env K P) (id : Nat) (s : TssCommon.St K P) : (stepJob env id s).taskDone = s.taskDone := by
  unfold stepJob
  split
  · rfl
  · split
    · rfl
    · rfl
    · unfold processInvalidMsgBlame
      dsimp only
      split <;> rfl

theorem micro_taskDone {env : TssCommon.Env K P} {e : TssCommon.Event P} {s s' : TssCommon.St K P} (h : Micro env e s s')
    (hd : s.taskDone = true) : s'.taskDone = true := by
  cases h with
  | work id => rw [stepJob_taskDone]; exact hd
  | done peer h1 h2 b hb => rw [hb]; split <;> first | rfl | exact hd
  | _ => exact hd

theorem step_taskDone (env : TssCommon.Env K P) (s : TssCommon.St K P) (e : TssCommon.Event P) (hd : s.taskDone = true) :
    (TssCommon.step env s e).taskDone = true := by
  have h := step_micro env s e
  generalize TssCommon.step env s e = s' at h
  induction h with
  | refl => exact hd
  | tail _ h ih => exact micro_taskDone h ih

/-! ## one call without disturbances -/

/-- what is assumed of the start of a call -/
structure Starts (v : View K P σ) (seat : Seat K P R σ) (taken : σ → Nat) (need : Nat) : Prop where
  ses : v.ses seat.start = newTssCommon seat.site.mgr
  out : v.out seat.start = OutBatch.init
  notified : v.notified seat.start = false
  result : seat.loop.result seat.start = none
  crashed : seat.loop.crashed seat.start = false
  taken : taken seat.start = 0
  need : 1 ≤ need

/-- what is true of an undisturbed call at every moment -/
structure NodeOk (v : View K P σ) (seat : Seat K P R σ) (taken : σ → Nat) (need : Nat) (good : R → Prop) (n : Node P R σ) : Prop where
  call : n.call = SessionCall.run seat.loop seat.caps seat.start n.hist
  crashed : seat.loop.crashed n.call.loop = false
  result : seat.loop.result n.call.loop ≠ some false
  notified : v.notified n.call.loop = true ↔ seat.loop.result n.call.loop = some true
  took : taken n.call.loop = (Props.SessionCall.results (Props.SessionCall.looped seat.loop seat.caps (SessionCall.init seat.start) n.hist)).length
  few : seat.loop.result n.call.loop = none → taken n.call.loop < need
  started : n.call.started ≠ some false
  stop : n.call.commStop = true → seat.loop.result n.call.loop = some true ∧ (v.ses n.call.loop).taskDone = true
  inbound : n.call.inbound = false → n.call.commStop = true
  ends : ∀ r ∈ n.call.endCh, good r
  calm : ∀ e ∈ n.hist, Calm good e

theorem nodeOk_init {v : View K P σ} {seat : Seat K P R σ} {taken : σ → Nat} {need : Nat} {good : R → Prop} (hs : Starts v seat taken need) :
    NodeOk v seat taken need good ⟨SessionCall.init seat.start, []⟩ where
  call := rfl
  crashed := hs.crashed
  result := by simp [SessionCall.init, hs.result]
  notified := by simp [SessionCall.init, hs.result, hs.notified]
  took := by simp [SessionCall.init, hs.taken, Props.SessionCall.looped, Props.SessionCall.results]
  few := fun _ => by simp only [SessionCall.init, hs.taken]; exact hs.need
  started := by simp [SessionCall.init]
  stop := by simp [SessionCall.init]
  inbound := by simp [SessionCall.init]
  ends := by simp [SessionCall.init]
  calm := by simp

/-- what an undisturbed event does to the loop: nothing, or it processes a message, an output or a result -/
theorem calm_cases {v : View K P σ} {seat : Seat K P R σ} {taken : σ → Nat} {need : Nat} {good : R → Prop} {n : Node P R σ}
    (h : NodeOk v seat taken need good n) (e : SessionCall.Event P R) (hc : Calm good e) :
    loopEvent seat.loop n.call e = none ∨
    (∃ te, e = .message te ∧ n.call.inbound = true ∧ loopEvent seat.loop n.call e = some (.inbound te)) ∨
    (∃ sch o l, e = .takeOut sch ∧ n.call.outCh = o :: l ∧ (∀ k, sch.ok k = true) ∧ seat.loop.result n.call.loop = none ∧
      loopEvent seat.loop n.call e = some (.out sch o)) ∨
    (∃ r l, e = .takeEnd ∧ n.call.endCh = r :: l ∧ good r ∧ seat.loop.result n.call.loop = none ∧ loopEvent seat.loop n.call e = some (.done r)) := by
  cases e with
  | takeErr =>
    left
    simp only [loopEvent]
    rw [if_neg (fun h1 => h.started h1.2)]
  | takeStop => exact absurd hc (by simp [Calm])
  | timeout sch => exact absurd hc (by simp [Calm])
  | message te =>
    by_cases hi : n.call.inbound = true
    · exact Or.inr (Or.inl ⟨te, rfl, hi, by simp only [loopEvent]; rw [if_pos hi]⟩)
    · exact Or.inl (by simp only [loopEvent]; rw [if_neg hi])
  | takeOut sch =>
    by_cases hr : running seat.loop n.call = true
    · rcases ho : n.call.outCh with _ | ⟨o, l⟩
      · left; simp only [loopEvent]; rw [if_pos hr, ho]; rfl
      · exact Or.inr (Or.inr (Or.inl ⟨sch, o, l, rfl, rfl, hc, by simpa [running] using hr, by simp only [loopEvent]; rw [if_pos hr, ho]; rfl⟩))
    · left; simp only [loopEvent]; rw [if_neg hr]
  | takeEnd =>
    by_cases hr : running seat.loop n.call = true
    · rcases ho : n.call.endCh with _ | ⟨r, l⟩
      · left; simp only [loopEvent]; rw [if_pos hr, ho]; rfl
      · exact Or.inr (Or.inr (Or.inr ⟨r, l, rfl, rfl, h.ends r (by rw [ho]; simp), by simpa [running] using hr, by
          simp only [loopEvent]; rw [if_pos hr, ho]; rfl⟩))
    · left; simp only [loopEvent]; rw [if_neg hr]
  | _ => exact Or.inl rfl

/-- the parts of the state of a call other than its loop, after an undisturbed event -/
theorem calm_rest {v : View K P σ} {seat : Seat K P R σ} {taken : σ → Nat} {need : Nat} {good : R → Prop} {n : Node P R σ}
    (h : NodeOk v seat taken need good n) (htd : ∀ s, seat.loop.taskDone s = (v.ses s).taskDone) (e : SessionCall.Event P R) (hc : Calm good e) :
    (rest seat.loop seat.caps n.call e).started ≠ some false ∧
    ((rest seat.loop seat.caps n.call e).commStop = true → seat.loop.result n.call.loop = some true ∧ (v.ses n.call.loop).taskDone = true) ∧
    ((rest seat.loop seat.caps n.call e).inbound = false → (rest seat.loop seat.caps n.call e).commStop = true) ∧
    (∀ r ∈ (rest seat.loop seat.caps n.call e).endCh, good r) := by
  have h1 := h.started
  have h2 := h.stop
  have h3 := h.inbound
  have h4 := h.ends
  cases e with
  | deliver r =>
    simp only [rest]
    split
    · refine ⟨h1, h2, h3, ?_⟩
      intro x hx
      rcases List.mem_append.1 hx with hx | hx
      · exact h4 x hx
      · rw [List.mem_singleton.1 hx]; exact hc
    · exact ⟨h1, h2, h3, h4⟩
  | started ok =>
    simp only [Calm] at hc
    subst hc
    simp only [rest]
    split
    · exact ⟨by simp, h2, h3, h4⟩
    · exact ⟨h1, h2, h3, h4⟩
  | takeEnd =>
    simp only [rest]
    split
    · exact ⟨h1, h2, h3, fun r hr => h4 r (List.mem_of_mem_tail hr)⟩
    · exact ⟨h1, h2, h3, h4⟩
  | graceOver => exact absurd hc (by simp [Calm])
  | graceDone =>
    simp only [rest]
    split
    · rename_i hd
      rw [htd] at hd
      exact ⟨h1, fun _ => hd, fun _ => rfl, h4⟩
    · exact ⟨h1, h2, h3, h4⟩
  | inboundEnds =>
    simp only [rest]
    split
    · rename_i hd
      exact ⟨h1, h2, fun _ => hd, h4⟩
    · exact ⟨h1, h2, h3, h4⟩
  | ret =>
    simp only [rest]
    split
    · rename_i hd; exact absurd hd h.result
    · split <;> exact ⟨h1, h2, h3, h4⟩
    · exact ⟨h1, h2, h3, h4⟩
  | _ => simp only [rest]; (try split) <;> exact ⟨h1, h2, h3, h4⟩

theorem rest_loop (L : Loop P R σ) (caps : Caps) (s : SessionCall.St R σ) (e : SessionCall.Event P R) : (rest L caps s e).loop = s.loop := by
  cases e <;> simp only [rest] <;> (repeat' split) <;> rfl

theorem step_of {L : Loop P R σ} {caps : Caps} {s : SessionCall.St R σ} {e : SessionCall.Event P R} (hc : L.crashed s.loop = false) :
    SessionCall.step L caps s e = { rest L caps s e with loop := (loopEvent L s e).toList.foldl L.step s.loop } := by
  unfold SessionCall.step
  rw [if_neg (by simp [hc])]
  split
  · rename_i le hle
    rw [hle]; rfl
  · rename_i hle
    rw [hle]
    show rest L caps s e = { rest L caps s e with loop := s.loop }
    rw [← rest_loop L caps s e]

theorem happen_ok {enc : Encoders P} {v : View K P σ} {seat : Seat K P R σ} {taken : σ → Nat} {need : Nat} {good : R → Prop} {n : Node P R σ}
    (hf : Faithful seat.loop v seat.site taken need good) (h : NodeOk v seat taken need good n) (e : SessionCall.Event P R) (hc : Calm good e)
    (hin : ∀ te, loopEvent seat.loop n.call e = some (.inbound te) → (TssCommon.step seat.site.env (v.ses n.call.loop) te).crashed = false)
    (hout : ∀ sch o, loopEvent seat.loop n.call e = some (.out sch o) →
      (OutBatch.ProcessOutCh seat.site.out sch o seat.site.type (v.out n.call.loop)).2 = .ok ()) :
    NodeOk v seat taken need good (happen enc v seat n e).1 := by
  obtain ⟨r1, r2, r3, r4⟩ := calm_rest h hf.taskDone e hc
  have hcall : (happen enc v seat n e).1.call = _ := rfl
  have hstep := step_of (caps := seat.caps) (e := e) h.crashed
  have hrun : (happen enc v seat n e).1.call = SessionCall.run seat.loop seat.caps seat.start (n.hist ++ [e]) := by
    rw [Props.SessionCall.run_snoc, ← h.call]; rfl
  have hloop : (happen enc v seat n e).1.call.loop = (loopEvent seat.loop n.call e).toList.foldl seat.loop.step n.call.loop := by
    show (SessionCall.step seat.loop seat.caps n.call e).loop = _
    rw [hstep]
  have hlooped : Props.SessionCall.looped seat.loop seat.caps (SessionCall.init seat.start) (n.hist ++ [e]) =
      Props.SessionCall.looped seat.loop seat.caps (SessionCall.init seat.start) n.hist ++ (loopEvent seat.loop n.call e).toList := by
    rw [Props.SessionCall.looped_append]
    congr 1
    have : n.hist.foldl (SessionCall.step seat.loop seat.caps) (SessionCall.init seat.start) = n.call := h.call.symm
    rw [this]
    simp [Props.SessionCall.looped, h.crashed]
  have hst : (happen enc v seat n e).1.call.started = (rest seat.loop seat.caps n.call e).started := by
    show (SessionCall.step seat.loop seat.caps n.call e).started = _
    rw [hstep]
  have hcs : (happen enc v seat n e).1.call.commStop = (rest seat.loop seat.caps n.call e).commStop := by
    show (SessionCall.step seat.loop seat.caps n.call e).commStop = _
    rw [hstep]
  have hib : (happen enc v seat n e).1.call.inbound = (rest seat.loop seat.caps n.call e).inbound := by
    show (SessionCall.step seat.loop seat.caps n.call e).inbound = _
    rw [hstep]
  have hen : (happen enc v seat n e).1.call.endCh = (rest seat.loop seat.caps n.call e).endCh := by
    show (SessionCall.step seat.loop seat.caps n.call e).endCh = _
    rw [hstep]
  have hresults : (Props.SessionCall.results (Props.SessionCall.looped seat.loop seat.caps (SessionCall.init seat.start) (happen enc v seat n e).1.hist)).length =
      taken n.call.loop + (Props.SessionCall.results (loopEvent seat.loop n.call e).toList).length := by
    show (Props.SessionCall.results (Props.SessionCall.looped seat.loop seat.caps (SessionCall.init seat.start) (n.hist ++ [e]))).length = _
    rw [hlooped, h.took]
    simp [Props.SessionCall.results]
  -- what remains is about the loop
  have key : seat.loop.crashed (happen enc v seat n e).1.call.loop = false ∧ seat.loop.result (happen enc v seat n e).1.call.loop ≠ some false ∧
      (v.notified (happen enc v seat n e).1.call.loop = true ↔ seat.loop.result (happen enc v seat n e).1.call.loop = some true) ∧
      taken (happen enc v seat n e).1.call.loop = taken n.call.loop + (Props.SessionCall.results (loopEvent seat.loop n.call e).toList).length ∧
      (seat.loop.result (happen enc v seat n e).1.call.loop = none → taken (happen enc v seat n e).1.call.loop < need) ∧
      (seat.loop.result n.call.loop = some true → (v.ses n.call.loop).taskDone = true →
        seat.loop.result (happen enc v seat n e).1.call.loop = some true ∧ (v.ses (happen enc v seat n e).1.call.loop).taskDone = true) := by
    rw [hloop]
    rcases calm_cases h e hc with h0 | ⟨te, -, hi, h0⟩ | ⟨sch, o, l, -, ho, hok, hr, h0⟩ | ⟨r, l, -, ho, hg, hr, h0⟩
    · rw [h0]
      exact ⟨h.crashed, h.result, h.notified, rfl, h.few, fun a b => ⟨a, b⟩⟩
    · rw [h0]
      obtain ⟨f1, f2, f3, f4, f5⟩ := hf.inbound n.call.loop te h.crashed
      simp only [Option.toList_some, List.foldl_cons, List.foldl_nil]
      rw [f2, f3, f4, f5, f1]
      exact ⟨hin te h0, h.result, h.notified, rfl, h.few, fun a b => ⟨a, step_taskDone _ _ _ b⟩⟩
    · rw [h0]
      obtain ⟨-, f2, f3⟩ := hf.out n.call.loop sch o h.crashed hr
      obtain ⟨f3, f4, f5⟩ := f3 (hout sch o h0)
      simp only [Option.toList_some, List.foldl_cons, List.foldl_nil]
      rw [f2, f3, f4, f5]
      refine ⟨rfl, by simp, by rw [h.notified, hr], rfl, fun _ => h.few hr, fun a => ?_⟩
      rw [hr] at a; cases a
    · rw [h0]
      obtain ⟨-, f2, f3, f4, f5⟩ := hf.done n.call.loop r h.crashed hr hg
      simp only [Option.toList_some, List.foldl_cons, List.foldl_nil]
      rw [f2, f3, f4, f5 (by rw [← Bool.not_eq_true, h.notified, hr]; simp)]
      have hlt := h.few hr
      refine ⟨rfl, by split <;> simp, by split <;> simp [*], rfl, fun h1 => ?_, fun a => ?_⟩
      · split at h1
        · cases h1
        · omega
      · rw [hr] at a; cases a
  obtain ⟨k1, k2, k3, k4, k5, k6⟩ := key
  refine ⟨hrun, k1, k2, k3, by rw [k4, hresults], k5, by rw [hst]; exact r1, ?_, ?_, ?_, ?_⟩
  · intro hh
    rw [hcs] at hh
    obtain ⟨a, b⟩ := r2 hh
    exact k6 a b
  · rw [hib, hcs]; exact r3
  · rw [hen]; exact r4
  · intro x hx
    rcases List.mem_append.1 hx with hx | hx
    · exact h.calm x hx
    · rw [List.mem_singleton.1 hx]; exact hc

/-! ## the calls and a session of several nodes -/

theorem proper_of {base : TssCommon.Env K P} {out : OutBatch.Env P} {i : Nat} {outs : List OutBatch.Output} {l : List (OutBatch.Sched × OutBatch.Output)}
    (h : Proper base out i (outs.map fun o => (plain, o))) (hl : l.map Prod.snd <+ outs) (hok : ∀ e ∈ l, ∀ k, e.1.ok k = true) :
    Proper base out i l := by
  have hm : ∀ e ∈ l, (plain, e.2) ∈ outs.map fun o => (plain, o) := fun e he => List.mem_map.2 ⟨e.2, hl.subset (List.mem_map_of_mem he), rfl⟩
  refine ⟨fun e he => ⟨(h.regular _ (hm e he)).1, hok e he⟩, fun e he => h.owner (plain, e.2) (hm e he), ?_,
    fun e he e' he' => h.slots (plain, e.2) (hm e he) (plain, e'.2) (hm e' he')⟩
  intro k
  have h1 := h.batch k
  have h2 : (outs.map fun o => (plain, o)).map Prod.snd = outs := by simp [Function.comp_def]
  rw [h2] at h1
  exact le_trans (hl.filterMap _).length_le h1

/-- the calls `c` are the session `g` of several nodes: message processing and batching of every member are the same, up to the record of the last
output; messages still on their way are the same, except for those to members which no longer process messages -/
structure Sim (enc : Encoders P) (v : View K P σ) (seat : P → Seat K P R σ) (member : P → Bool) (taken : σ → Nat) (need : Nat)
    (good : P → R → Prop) (c : Net P R σ) (g : List (SessNet.NetEvent P)) : Prop where
  closed : Closed g
  node : ∀ q, member q = true → NodeOk v (seat q) taken need (good q) (c.nodes q)
  ses : ∀ q, member q = true → ∃ x, v.ses (c.nodes q).call.loop = relabel x ((SessNet.netRun enc (fun q => (seat q).site) member g).nodes q).ses
  out : ∀ q, member q = true → v.out (c.nodes q).call.loop = ((SessNet.netRun enc (fun q => (seat q).site) member g).nodes q).out
  outs : ∀ q, member q = true → outputsAt q g = Props.SessionCall.processed (Props.SessionCall.looped (seat q).loop (seat q).caps
    (SessionCall.init (seat q).start) (c.nodes q).hist)
  note : ∀ q, member q = true → (.at_ q .notifyDone ∈ g ↔ (seat q).loop.result (c.nodes q).call.loop = some true)
  pool : ∃ dropped, (SessNet.netRun enc (fun q => (seat q).site) member g).pool ~ c.pool ++ dropped ∧
    ∀ x ∈ dropped, member x.2.1 = true ∧ (c.nodes x.2.1).call.inbound = false

section
variable {enc : Encoders P} {v : View K P σ} {seat : P → Seat K P R σ} {member : P → Bool} {taken : σ → Nat} {need : Nat}
    {good : P → R → Prop} {base : TssCommon.Env K P} {ids : Map Nat Conversion.Party} {peers : Map Nat P}

/-- the assumptions on the outputs of the calls hold of the session -/
theorem ghost_outs (hh : ∀ p, member p = true ↔ Member peers p) {c : Net P R σ} {g : List (SessNet.NetEvent P)}
    (hcalm : ∀ q, member q = true → ∀ e ∈ (c.nodes q).hist, Calm (good q) e)
    (houts : ∀ q, member q = true → outputsAt q g = Props.SessionCall.processed (Props.SessionCall.looped (seat q).loop (seat q).caps
      (SessionCall.init (seat q).start) (c.nodes q).hist))
    (hp : ProperOuts base peers (fun q => (seat q).site) (made seat c)) (hw : WelcomeOuts peers (fun q => (seat q).site) (made seat c)) :
    (∀ i q, Map.get peers i = some q → Proper base (seat q).site.out i (outputsAt q g)) ∧ Welcome peers (fun q => (seat q).site) g := by
  have hsub : ∀ q, member q = true → (outputsAt q g).map Prod.snd <+ made seat c q := by
    intro q hq
    unfold made
    rw [houts q hq, Props.SessionCall.c108_in_order]
    exact List.sublist_append_left _ _
  refine ⟨?_, ?_⟩
  · intro i q hi
    have hq := (hh q).2 ⟨i, hi⟩
    refine proper_of (hp i q hi) (hsub q hq) ?_
    intro e he
    rw [houts q hq] at he
    exact hcalm q hq _ (Props.SessionCall.processed_sched _ _ _ _ e he)
  · intro i p q hi hq hne e he b r h1 h2
    exact hw i p q hi hq hne e.2 ((hsub p ((hh p).2 ⟨i, hi⟩)).subset (List.mem_map_of_mem he)) b r h1 h2

theorem sim_init (hst : ∀ q, member q = true → Starts v (seat q) taken need) :
    Sim enc v seat member taken need good ⟨fun q => ⟨SessionCall.init (seat q).start, []⟩, []⟩ [] where
  closed := by simp [Closed]
  node q hq := nodeOk_init (hst q hq)
  ses q hq := ⟨_, (hst q hq).ses.trans (relabel_self _).symm⟩
  out q hq := (hst q hq).out
  outs q hq := rfl
  note q hq := by
    simp only [List.not_mem_nil, false_iff]
    show (seat q).loop.result (seat q).start ≠ some true
    rw [(hst q hq).result]; simp
  pool := ⟨[], by simp [SessNet.netRun], by simp⟩

/-- after an event at `q` -/
theorem sim_after {c : Net P R σ} {g g' : List (SessNet.NetEvent P)} (hs : Sim enc v seat member taken need good c g) {q : P}
    (e : SessionCall.Event P R) (pool : List (P × P × Bytes)) (hcl : Closed g')
    (hnodes : ∀ p, p ≠ q → (SessNet.netRun enc (fun q => (seat q).site) member g').nodes p = (SessNet.netRun enc (fun q => (seat q).site) member g).nodes p)
    (houts : ∀ p, p ≠ q → outputsAt p g' = outputsAt p g) (hnote : ∀ p, p ≠ q → (.at_ p .notifyDone ∈ g' ↔ .at_ p .notifyDone ∈ g))
    (h1 : NodeOk v (seat q) taken need (good q) (happen enc v (seat q) (c.nodes q) e).1)
    (h2 : ∃ x, v.ses (happen enc v (seat q) (c.nodes q) e).1.call.loop = relabel x ((SessNet.netRun enc (fun q => (seat q).site) member g').nodes q).ses)
    (h3 : v.out (happen enc v (seat q) (c.nodes q) e).1.call.loop = ((SessNet.netRun enc (fun q => (seat q).site) member g').nodes q).out)
    (h4 : outputsAt q g' = Props.SessionCall.processed (Props.SessionCall.looped (seat q).loop (seat q).caps (SessionCall.init (seat q).start)
      ((c.nodes q).hist ++ [e])))
    (h5 : .at_ q .notifyDone ∈ g' ↔ (seat q).loop.result (happen enc v (seat q) (c.nodes q) e).1.call.loop = some true)
    (h6 : ∃ dropped, (SessNet.netRun enc (fun q => (seat q).site) member g').pool ~ pool ++ (happen enc v (seat q) (c.nodes q) e).2 ++ dropped ∧
      ∀ x ∈ dropped, member x.2.1 = true ∧ (c.nodes x.2.1).call.inbound = false) :
    Sim enc v seat member taken need good
      ⟨c.update q (happen enc v (seat q) (c.nodes q) e).1, pool ++ (happen enc v (seat q) (c.nodes q) e).2⟩ g' where
  closed := hcl
  node p hp := by
    by_cases hpq : p = q
    · subst hpq; simp only [Net.update, if_true]; exact h1
    · simp only [Net.update, if_neg hpq]; exact hs.node p hp
  ses p hp := by
    by_cases hpq : p = q
    · subst hpq; simp only [Net.update, if_true]; exact h2
    · simp only [Net.update, if_neg hpq]; rw [hnodes p hpq]; exact hs.ses p hp
  out p hp := by
    by_cases hpq : p = q
    · subst hpq; simp only [Net.update, if_true]; exact h3
    · simp only [Net.update, if_neg hpq]; rw [hnodes p hpq]; exact hs.out p hp
  outs p hp := by
    by_cases hpq : p = q
    · subst hpq; simp only [Net.update, if_true]; exact h4
    · simp only [Net.update, if_neg hpq]; rw [houts p hpq]; exact hs.outs p hp
  note p hp := by
    by_cases hpq : p = q
    · subst hpq; simp only [Net.update, if_true]; exact h5
    · simp only [Net.update, if_neg hpq]; rw [hnote p hpq]; exact hs.note p hp
  pool := by
    obtain ⟨d, hd, hx⟩ := h6
    refine ⟨d, hd, fun x hx' => ?_⟩
    obtain ⟨hmem, this⟩ := hx x hx'
    refine ⟨hmem, ?_⟩
    by_cases hpq : x.2.1 = q
    · simp only [Net.update, if_pos hpq]
      rw [hpq] at this
      exact Props.SessionCall.step_inbound _ _ _ _ this
    · simp only [Net.update, if_neg hpq]; exact this

/-- the outputs made so far stay -/
theorem made_step (c : Net P R σ) (E : NetEvent P R) (q : P) : made seat c q <+: made seat (netStep enc v seat member c E) q := by
  have hap : ∀ e, made seat c q <+: Props.SessionCall.delivered (seat q).loop (seat q).caps (SessionCall.init (seat q).start) ((c.nodes q).hist ++ [e]) := by
    intro e
    unfold made
    have : ∀ (h k : List (SessionCall.Event P R)) s, Props.SessionCall.delivered (seat q).loop (seat q).caps s (h ++ k) =
        Props.SessionCall.delivered (seat q).loop (seat q).caps s h ++
          Props.SessionCall.delivered (seat q).loop (seat q).caps (h.foldl (SessionCall.step (seat q).loop (seat q).caps) s) k := by
      intro h k
      induction h with
      | nil => intro s; rfl
      | cons x h ih => intro s; simp only [List.cons_append, Props.SessionCall.delivered, ih, List.append_assoc, List.foldl_cons]
    rw [this]
    exact List.prefix_append _ _
  cases E with
  | at_ p e =>
    simp only [netStep]
    split
    · by_cases hpq : q = p
      · subst hpq
        show made seat c q <+: Props.SessionCall.delivered (seat q).loop (seat q).caps (SessionCall.init (seat q).start) ((c.update q _ q).hist)
        simp only [Net.update, if_true]
        exact hap e
      · show made seat c q <+: Props.SessionCall.delivered (seat q).loop (seat q).caps (SessionCall.init (seat q).start) ((c.update p _ q).hist)
        simp only [Net.update, if_neg hpq]
        exact List.prefix_rfl
    · exact List.prefix_rfl
  | deliver i sch =>
    simp only [netStep]
    split
    · exact List.prefix_rfl
    · rename_i p0 p raw hx
      split
      · by_cases hpq : q = p
        · subst hpq
          show made seat c q <+: Props.SessionCall.delivered (seat q).loop (seat q).caps (SessionCall.init (seat q).start) ((c.update q _ q).hist)
          simp only [Net.update, if_true]
          exact hap _
        · show made seat c q <+: Props.SessionCall.delivered (seat q).loop (seat q).caps (SessionCall.init (seat q).start) ((c.update p _ q).hist)
          simp only [Net.update, if_neg hpq]
          exact List.prefix_rfl
      · exact List.prefix_rfl

theorem properOuts_mono {site : P → Site K P} {a b : P → List OutBatch.Output} (h : ∀ q, a q <+: b q) (hb : ProperOuts base peers site b) :
    ProperOuts base peers site a := by
  intro i q hi
  refine proper_of (hb i q hi) ?_ ?_
  · simp only [List.map_map, Function.comp_def, List.map_id']
    exact (h q).sublist
  · intro e he k
    obtain ⟨o, -, rfl⟩ := List.mem_map.1 he
    rfl

theorem welcomeOuts_mono {site : P → Site K P} {a b : P → List OutBatch.Output} (h : ∀ q, a q <+: b q) (hb : WelcomeOuts peers site b) :
    WelcomeOuts peers site a :=
  fun i p q hi hq hne o ho => hb i p q hi hq hne o ((h p).subset ho)

theorem emitted_same {site : Site K P} {l l' : σ} (h1 : (v.ses l').sent = (v.ses l).sent) (h2 : v.out l' = v.out l) (h3 : v.notified l' = v.notified l) :
    emitted enc v site l l' = [] := by
  unfold emitted
  rw [h1, h2, h3]
  cases v.notified l <;> simp

/-- the processing of a message in a call is that in the session -/
theorem same_message (hf : Faithful (seat q).loop v (seat q).site taken need (good q)) {c : Net P R σ} {n : SessNet.Node K P}
    (hok : NodeOk v (seat q) taken need (good q) (c.nodes q)) (hses : ∃ x, v.ses (c.nodes q).call.loop = relabel x n.ses)
    (hout : v.out (c.nodes q).call.loop = n.out) (halive : n.alive = true) (te : TssCommon.Event P)
    (hle : loopEvent (seat q).loop (c.nodes q).call (.message te) = some (.inbound te)) :
    (∃ x, v.ses (happen enc v (seat q) (c.nodes q) (.message te)).1.call.loop = relabel x (SessNet.inbound enc (seat q).site n te).1.ses) ∧
    v.out (happen enc v (seat q) (c.nodes q) (.message te)).1.call.loop = (SessNet.inbound enc (seat q).site n te).1.out ∧
    (happen enc v (seat q) (c.nodes q) (.message te)).2 = (SessNet.inbound enc (seat q).site n te).2 ∧
    (seat q).loop.result (happen enc v (seat q) (c.nodes q) (.message te)).1.call.loop = (seat q).loop.result (c.nodes q).call.loop ∧
    (TssCommon.step (seat q).site.env (v.ses (c.nodes q).call.loop) te).crashed = (SessNet.inbound enc (seat q).site n te).1.ses.crashed := by
  obtain ⟨x, hx⟩ := hses
  have hloop : (happen enc v (seat q) (c.nodes q) (.message te)).1.call.loop = (seat q).loop.step (c.nodes q).call.loop (.inbound te) := by
    show (SessionCall.step (seat q).loop (seat q).caps (c.nodes q).call (.message te)).loop = _
    rw [step_of hok.crashed, hle]; rfl
  obtain ⟨f1, f2, f3, f4, f5⟩ := hf.inbound (c.nodes q).call.loop te hok.crashed
  have f6 := hf.sends.other (c.nodes q).call.loop (.inbound te) (by intro _ _ h; cases h)
  have hstep : TssCommon.step (seat q).site.env (v.ses (c.nodes q).call.loop) te = relabel x (TssCommon.step (seat q).site.env n.ses te) := by
    rw [hx, relabel_step]
  unfold SessNet.inbound
  rw [if_pos halive]
  dsimp only
  refine ⟨⟨x, ?_⟩, ?_, ?_, ?_, ?_⟩
  · rw [hloop, f1, hstep]
  · rw [hloop, f6, hout]
  · show emitted enc v (seat q).site (c.nodes q).call.loop (happen enc v (seat q) (c.nodes q) (.message te)).1.call.loop = _
    rw [hloop]
    unfold emitted
    rw [f6, f2, f1, hstep, hx]
    cases v.notified (c.nodes q).call.loop <;> simp [relabel]
  · rw [hloop, f3]
  · rw [hstep]; rfl

theorem perm_eraseIdx {α : Type} {l a : List α} {i j : Nat} {x : α} {d : List α} (h : l ~ a ++ d) (hi : a[i]? = some x) (hj : l[j]? = some x) :
    l.eraseIdx j ~ a.eraseIdx i ++ d := by
  obtain ⟨hi', hi⟩ := List.getElem?_eq_some_iff.1 hi
  obtain ⟨hj', hj⟩ := List.getElem?_eq_some_iff.1 hj
  have h1 := List.getElem_cons_eraseIdx_perm hj'
  have h2 := (List.getElem_cons_eraseIdx_perm hi').append_right d
  rw [hj] at h1
  rw [hi] at h2
  exact List.Perm.cons_inv (h1.trans (h.trans h2.symm))

end

end Verif.Ceremony
