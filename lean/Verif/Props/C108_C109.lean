import Verif.Model.SessionCall
import Verif.Props.C37
import Verif.Props.C52_C53
import Verif.Spec.DemoSession

/-!
# C108, C109: the goroutines of a session

`run L caps l h` is the call of `GenerateNewKey` or `SignMessage` after the events `h`, from the moment its goroutines are started; `L` is the loop it
runs (`genLoop`, `signLoop`).
-/
set_option linter.unusedSectionVars false
namespace Verif.Props.SessionCall
open Verif.Go Verif.Session Verif.SessionCall
open Verif.OutBatch (Output)
open scoped List

variable {P R σ : Type}

/-! ## specification -/

/-- Specification: the message that a local party delivers by an event: one for which there is room in the channel -/
def deliveredBy (L : Loop P R σ) (caps : Caps) (s : St R σ) : Event P R → List Output
  | .put o => if L.crashed s.loop = false ∧ s.outCh.length < caps.out then [o] else []
  | _ => []

/-- Specification: the messages that the local parties have delivered in the events `h` -/
def delivered (L : Loop P R σ) (caps : Caps) (s : St R σ) : List (Event P R) → List Output
  | [] => []
  | e :: h => deliveredBy L caps s e ++ delivered L caps (step L caps s e) h

/-- Specification: the events of the loop among the events `h` of the call -/
def looped (L : Loop P R σ) (caps : Caps) (s : St R σ) : List (Event P R) → List (LoopEvent P R)
  | [] => []
  | e :: h => (if L.crashed s.loop then [] else (loopEvent L s e).toList) ++ looped L caps (step L caps s e) h

/-- Specification: the messages of the local parties which the loop has processed -/
def processed (le : List (LoopEvent P R)) : List (OutBatch.Sched × Output) :=
  le.filterMap fun e => match e with | .out sch o => some (sch, o) | _ => none

/-! ## the call runs the loop -/

theorem step_loop (L : Loop P R σ) (caps : Caps) (s : St R σ) (e : Event P R) :
    (step L caps s e).loop = (if L.crashed s.loop then [] else (loopEvent L s e).toList).foldl L.step s.loop := by
  have hrest : (rest L caps s e).loop = s.loop := by
    cases e <;> simp only [rest] <;> (repeat' split) <;> rfl
  unfold step
  split
  · simp
  · split
    · rename_i le hle
      simp [hle]
    · rename_i hle
      simp [hle, hrest]

theorem foldl_loop (L : Loop P R σ) (caps : Caps) (s : St R σ) (h : List (Event P R)) :
    (h.foldl (step L caps) s).loop = (looped L caps s h).foldl L.step s.loop := by
  induction h generalizing s with
  | nil => rfl
  | cons e h ih => rw [List.foldl_cons, ih, looped, List.foldl_append, step_loop]

/-- C109: what the goroutines of the call do to the session is a run of its loop. -/
theorem c109_keygen_loop {S H L Pt A Q : Type} [DecidableEq P] [LinearOrder S] [LinearOrder H] (env : Keygen.KEnv P S H L Pt A Q)
    (lenv : LoopEnv Server.Str P) (keys : List Server.Str) (caps : Caps) (ses : TssCommon.St Server.Str P) (disk : Storage.Disk)
    (h : List (Event P (Keygen.End L A Q))) :
    (run (genLoop env lenv keys) caps (Keygen.genInit ses disk) h).loop =
      Keygen.genRun env lenv keys ses disk (looped (genLoop env lenv keys) caps (init (Keygen.genInit ses disk)) h) :=
  foldl_loop _ caps _ h

/-- C109: what the goroutines of the call do to the session is a run of its loop. -/
theorem c109_keysign_loop {K : Type} [DecidableEq K] [DecidableEq P] (env : LoopEnv K P) (reqNum : Nat) (caps : Caps) (ses : TssCommon.St K P)
    (h : List (Event P Sig)) :
    (run (signLoop env reqNum) caps (signInit ses) h).loop =
      signRun env reqNum ses (looped (signLoop env reqNum) caps (init (signInit ses)) h) :=
  foldl_loop _ caps _ h

/-! ## C108 -/

theorem processed_append (a b : List (LoopEvent P R)) : processed (a ++ b) = processed a ++ processed b := by
  simp [processed]

theorem conserve_step (L : Loop P R σ) (caps : Caps) (s : St R σ) (e : Event P R) :
    s.outCh ++ deliveredBy L caps s e =
    (processed (if L.crashed s.loop then [] else (loopEvent L s e).toList)).map Prod.snd ++ (step L caps s e).outCh := by
  unfold step
  by_cases hc : L.crashed s.loop = true
  · rw [if_pos hc]
    cases e <;> simp [hc, processed, deliveredBy]
  · have hc' : L.crashed s.loop = false := by simpa using hc
    rw [if_neg hc, if_neg hc]
    cases e with
    | put o =>
      simp only [hc', true_and, loopEvent, rest, Option.toList_none, deliveredBy]
      split <;> simp [processed]
    | takeOut sch =>
      simp only [loopEvent, rest, deliveredBy]
      by_cases hr : running L s = true
      · rw [if_pos hr, if_pos hr]
        rcases ho : s.outCh with _ | ⟨o, l⟩ <;> simp [processed]
      · rw [if_neg hr, if_neg hr]
        simp [processed]
    | takeErr => simp only [loopEvent, deliveredBy]; split <;> simp [processed, rest]
    | takeStop => simp only [loopEvent, deliveredBy]; split <;> simp [processed, rest]
    | timeout sch => simp only [loopEvent, deliveredBy]; split <;> simp [processed, rest]
    | takeEnd =>
      simp only [loopEvent, rest, deliveredBy]
      by_cases hr : running L s = true
      · rw [if_pos hr, if_pos hr]
        rcases ho : s.endCh with _ | ⟨o, l⟩ <;> simp [processed]
      · rw [if_neg hr, if_neg hr]
        simp [processed]
    | message e => simp only [loopEvent, deliveredBy]; split <;> simp [processed, rest]
    | deliver r => simp only [loopEvent, rest, Option.toList_none, deliveredBy]; split <;> simp [processed]
    | started ok => simp only [loopEvent, rest, Option.toList_none, deliveredBy]; split <;> simp [processed]
    | graceOver => simp only [loopEvent, rest, Option.toList_none, deliveredBy]; split <;> simp [processed]
    | graceDone => simp only [loopEvent, rest, Option.toList_none, deliveredBy]; split <;> simp [processed]
    | inboundEnds => simp only [loopEvent, rest, Option.toList_none, deliveredBy]; split <;> simp [processed]
    | ret => simp only [loopEvent, rest, Option.toList_none, deliveredBy]; (repeat' split) <;> simp [processed]

theorem conserve (L : Loop P R σ) (caps : Caps) (s : St R σ) (h : List (Event P R)) :
    s.outCh ++ delivered L caps s h = (processed (looped L caps s h)).map Prod.snd ++ (h.foldl (step L caps) s).outCh := by
  induction h generalizing s with
  | nil => simp [delivered, looped, processed]
  | cons e h ih =>
    rw [delivered, looped, processed_append, List.map_append, List.foldl_cons, ← List.append_assoc, conserve_step, List.append_assoc, ih,
      List.append_assoc]

/-- C108: the messages of the local parties are processed in the order of delivery, each at most once; the rest is in the channel. -/
theorem c108_in_order (L : Loop P R σ) (caps : Caps) (l : σ) (h : List (Event P R)) :
    delivered L caps (init l) h = (processed (looped L caps (init l) h)).map Prod.snd ++ (run L caps l h).outCh := by
  have := conserve L caps (init l) h
  simpa [init, run] using this

/-- once the loop has returned it stays so -/
structure Stays (L : Loop P R σ) : Prop where
  result : ∀ s le b, L.result s = some b → L.result (L.step s le) = some b
  crashed : ∀ s le, L.crashed s = true → L.step s le = s

theorem stays_gen {S H L Pt A Q : Type} [DecidableEq P] [LinearOrder S] [LinearOrder H] (env : Keygen.KEnv P S H L Pt A Q)
    (lenv : LoopEnv Server.Str P) (keys : List Server.Str) : Stays (genLoop env lenv keys) where
  result s le b h := by
    have hs : s.result.isSome = true := by
      simp only [genLoop, Option.map_eq_some_iff] at h
      obtain ⟨a, h, -⟩ := h
      rw [h]; rfl
    simp only [genLoop] at h ⊢
    unfold Keygen.genStep
    split
    · exact h
    · cases le <;> exact h
  crashed s le h := by
    simp only [genLoop] at h ⊢
    unfold Keygen.genStep
    rw [if_pos h]

theorem stays_sign {K : Type} [DecidableEq K] [DecidableEq P] (env : LoopEnv K P) (reqNum : Nat) : Stays (signLoop env reqNum) where
  result s le b h := by
    have hs : s.result.isSome = true := by
      simp only [signLoop, Option.map_eq_some_iff] at h
      obtain ⟨a, h, -⟩ := h
      rw [h]; rfl
    simp only [signLoop] at h ⊢
    unfold signStep
    split
    · exact h
    · cases le <;> exact h
  crashed s le h := by
    simp only [signLoop] at h ⊢
    unfold signStep
    rw [if_pos h]

/-- the part of the loop's state that is about sending -/
structure Sends (L : Loop P R σ) (oenv : OutBatch.Env P) (t : Messages.MsgType) (out : σ → OutBatch.St P) : Prop where
  other : ∀ s le, (∀ sch o, le ≠ .out sch o) → out (L.step s le) = out s
  out : ∀ s sch o, L.crashed s = false → L.result s = none →
    out (L.step s (.out sch o)) = (OutBatch.ProcessOutCh oenv sch o t (out s)).1

theorem sends_gen {S H L Pt A Q : Type} [DecidableEq P] [LinearOrder S] [LinearOrder H] (env : Keygen.KEnv P S H L Pt A Q)
    (lenv : LoopEnv Server.Str P) (keys : List Server.Str) : Sends (genLoop env lenv keys) lenv.out Messages.TSSKeyGenMsg Keygen.GenSt.out where
  other s le hle := by
    simp only [genLoop]
    unfold Keygen.genStep
    split
    · rfl
    · cases le with
      | out sch o => exact absurd rfl (hle sch o)
      | inbound e => rfl
      | done r =>
        dsimp only
        split
        · rfl
        · unfold Keygen.genDone
          split
          · dsimp only
            split <;> rfl
          · rfl
      | _ =>
        dsimp only
        repeat' split
        all_goals rfl
  out s sch o hc hr := by
    simp only [genLoop, Option.map_eq_none_iff] at hc hr ⊢
    unfold Keygen.genStep
    rw [if_neg (by simp [hc])]
    simp only [hr, Option.isSome_none, Bool.false_eq_true, if_false]
    repeat' split
    all_goals rfl

theorem sends_sign {K : Type} [DecidableEq K] [DecidableEq P] (env : LoopEnv K P) (reqNum : Nat) :
    Sends (signLoop env reqNum) env.out Messages.TSSKeySignMsg SignSt.out where
  other s le hle := by
    simp only [signLoop]
    unfold signStep
    split
    · rfl
    · cases le with
      | out sch o => exact absurd rfl (hle sch o)
      | inbound e => rfl
      | _ =>
        dsimp only
        repeat' split
        all_goals rfl
  out s sch o hc hr := by
    simp only [signLoop, Option.map_eq_none_iff] at hc hr ⊢
    unfold signStep
    rw [if_neg (by simp [hc])]
    simp only [hr, Option.isSome_none, Bool.false_eq_true, if_false]
    repeat' split
    all_goals rfl

theorem runOut_append (oenv : OutBatch.Env P) (t : Messages.MsgType) (a b : List (OutBatch.Sched × Output)) (s : OutBatch.St P) :
    OutBatch.runOut oenv t s (a ++ b) = OutBatch.runOut oenv t (OutBatch.runOut oenv t s a) b := by
  induction a generalizing s with
  | nil => rfl
  | cons x a ih => exact ih _

theorem sends_step {L : Loop P R σ} {oenv : OutBatch.Env P} {t : Messages.MsgType} {out : σ → OutBatch.St P} (hs : Sends L oenv t out)
    (caps : Caps) (s : St R σ) (e : Event P R) :
    out (step L caps s e).loop = OutBatch.runOut oenv t (out s.loop) (processed (if L.crashed s.loop then [] else (loopEvent L s e).toList)) := by
  rw [step_loop]
  split
  · rfl
  · rename_i hc
    rcases hle : loopEvent L s e with _ | le
    · rfl
    · simp only [Option.toList_some, List.foldl_cons, List.foldl_nil]
      cases le with
      | out sch o =>
        have hr : running L s = true := by
          cases e <;> simp only [loopEvent] at hle
          all_goals first
            | (split at hle
               · rename_i hr
                 first | exact hr | (cases hle)
               · cases hle)
            | cases hle
        rw [hs.out _ _ _ (by simpa using hc) (by simpa [running] using hr)]
        rfl
      | _ => rw [hs.other _ _ (by intro _ _ h; cases h)]; rfl

theorem sends_run {L : Loop P R σ} {oenv : OutBatch.Env P} {t : Messages.MsgType} {out : σ → OutBatch.St P} (hs : Sends L oenv t out)
    (caps : Caps) (s : St R σ) (h : List (Event P R)) :
    out (h.foldl (step L caps) s).loop = OutBatch.runOut oenv t (out s.loop) (processed (looped L caps s h)) := by
  induction h generalizing s with
  | nil => rfl
  | cons e h ih => rw [List.foldl_cons, ih, looped, processed_append, runOut_append, sends_step hs]

/-- Specification: everything that the local parties have delivered has been sent, each in a bulk message of its type to its receivers, in order -/
def EverythingSent (oenv : OutBatch.Env P) (sent : List (OutBatch.Bulk P)) (outs : List Output) : Prop :=
  ∀ q, (sent.filter (Outgoing.ofQueue q)).flatMap OutBatch.Bulk.shares = outs.filterMap (Outgoing.shareIn q) ∧
    ∀ b ∈ sent, Outgoing.ofQueue q b = true → b.peers = Outgoing.receivers oenv q

/-- Specification: the outputs of the local parties are as tss-lib produces them, of each type and for each receiver one per message to sign, or none -/
structure RegularOuts (oenv : OutBatch.Env P) (outs : List Output) : Prop where
  regular : ∀ o ∈ outs, Outgoing.Regular o
  complete : ∀ q, oenv.msgNum ∣ (outs.filterMap (Outgoing.shareIn q)).length

/-- Specification: no attempt to send fails in the events -/
def SendsWork (h : List (Event P R)) : Prop := ∀ sch, Event.takeOut sch ∈ h → ∀ k, sch.ok k = true

theorem processed_sched (L : Loop P R σ) (caps : Caps) (s : St R σ) (h : List (Event P R)) (x : OutBatch.Sched × Output)
    (hx : x ∈ processed (looped L caps s h)) : Event.takeOut x.1 ∈ h := by
  induction h generalizing s with
  | nil => cases hx
  | cons e h ih =>
    rw [looped, processed_append, List.mem_append] at hx
    rcases hx with hx | hx
    · simp only [processed, List.mem_filterMap] at hx
      obtain ⟨le, h1, h2⟩ := hx
      cases le with
      | out sch o =>
        cases h2
        split at h1
        · cases h1
        · rw [Option.mem_toList] at h1
          cases e <;> simp only [loopEvent] at h1 <;> try (split at h1)
          all_goals first
            | cases h1
            | (simp at h1; done)
            | skip
          rename_i sch' _
          simp only [Option.map_eq_some_iff] at h1
          obtain ⟨a, -, h1⟩ := h1
          cases h1
          exact List.mem_cons_self
      | _ => cases h2
    · exact List.mem_cons_of_mem _ (ih _ hx)

theorem queue_unique {b : OutBatch.Bulk P} {q q' : Outgoing.Queue} (h : Outgoing.ofQueue q b = true)
    (h' : Outgoing.ofQueue q' b = true) : q = q' := by
  unfold Outgoing.ofQueue at h h'
  rcases hr : b.routing with _ | r
  · rw [hr] at h; cases h
  · rw [hr] at h h'
    simp only [decide_eq_true_eq] at h h'
    rw [← h, ← h']

/-- what is sent when the channel is empty, for any loop -/
theorem all_sent {L : Loop P R σ} {oenv : OutBatch.Env P} {t : Messages.MsgType} {out : σ → OutBatch.St P} (hs : Sends L oenv t out) (caps : Caps)
    (l : σ) (h0 : out l = OutBatch.init) (hn : 1 ≤ oenv.msgNum) (hinj : Function.Injective oenv.pstr) (h : List (Event P R))
    (hreg : RegularOuts oenv (delivered L caps (init l) h)) (hok : SendsWork h) (hempty : (run L caps l h).outCh = []) :
    EverythingSent oenv (out (run L caps l h).loop).sent (delivered L caps (init l) h) := by
  have hd := c108_in_order L caps l h
  rw [hempty, List.append_nil] at hd
  have hrun : out (run L caps l h).loop = _ := sends_run hs caps (init l) h
  simp only [init] at hrun
  rw [h0] at hrun
  rw [hrun, hd]
  rw [hd] at hreg
  obtain ⟨⟨w, hw⟩, hb⟩ := Outgoing.c37_batching oenv hn hinj t (processed (looped L caps (init l) h))
    (fun e he => hreg.regular _ (List.mem_map_of_mem he)) (fun e he => hok _ (processed_sched L caps _ h e he))
  intro q
  obtain ⟨h1, h2⟩ := hw q
  have hlen : ∀ bs : List (OutBatch.Bulk P), (∀ b ∈ bs, b.shares.length = oenv.msgNum) →
      oenv.msgNum ∣ (bs.flatMap OutBatch.Bulk.shares).length := by
    intro bs hbs
    induction bs with
    | nil => simp
    | cons b bs ih =>
      rw [List.flatMap_cons, List.length_append, hbs b (by simp)]
      exact Dvd.dvd.add (dvd_refl _) (ih fun b hb => hbs b (by simp [hb]))
  have hw0 : w q = [] := by
    have e := congrArg List.length h2
    rw [List.length_append] at e
    have d1 := hlen _ (fun b (hbm : b ∈ (OutBatch.runOut oenv t OutBatch.init (processed (looped L caps (init l) h))).sent.filter
      (Outgoing.ofQueue q)) => (hb b (List.mem_of_mem_filter hbm)).1)
    have d2 := hreg.complete q
    rw [← e] at d2
    have d3 := (Nat.dvd_add_right d1).1 d2
    exact List.eq_nil_of_length_eq_zero (Nat.eq_zero_of_dvd_of_lt d3 h1)
  refine ⟨?_, ?_⟩
  · rw [hw0, List.append_nil] at h2
    exact h2
  · intro b hbm hq
    obtain ⟨-, -, q', -, hq', hp, -⟩ := hb b hbm
    rw [queue_unique hq hq', hp]

/-- C108 (part; full statement: `AlwaysSent`, without the hypothesis that the channel is empty): when a key generation call has returned and no message
of its local party is left in the channel, everything that its local party produced has been sent. -/
theorem c108_keygen_partial {S H L Pt A Q : Type} [DecidableEq P] [LinearOrder S] [LinearOrder H] (env : Keygen.KEnv P S H L Pt A Q)
    (lenv : LoopEnv Server.Str P) (keys : List Server.Str) (caps : Caps) (ses : TssCommon.St Server.Str P) (disk : Storage.Disk)
    (hn : 1 ≤ lenv.out.msgNum) (hinj : Function.Injective lenv.out.pstr) (h : List (Event P (Keygen.End L A Q)))
    (hreg : RegularOuts lenv.out (delivered (genLoop env lenv keys) caps (init (Keygen.genInit ses disk)) h)) (hok : SendsWork h)
    (hempty : (run (genLoop env lenv keys) caps (Keygen.genInit ses disk) h).outCh = []) :
    EverythingSent lenv.out (run (genLoop env lenv keys) caps (Keygen.genInit ses disk) h).loop.out.sent
      (delivered (genLoop env lenv keys) caps (init (Keygen.genInit ses disk)) h) :=
  all_sent (sends_gen env lenv keys) caps _ rfl hn hinj h hreg hok hempty

/-- C108 (part; full statement: `AlwaysSent` for signing): the same for signing. -/
theorem c108_keysign_partial {K : Type} [DecidableEq K] [DecidableEq P] (env : LoopEnv K P) (reqNum : Nat) (caps : Caps) (ses : TssCommon.St K P)
    (hn : 1 ≤ env.out.msgNum) (hinj : Function.Injective env.out.pstr) (h : List (Event P Sig))
    (hreg : RegularOuts env.out (delivered (signLoop env reqNum) caps (init (signInit ses)) h)) (hok : SendsWork h)
    (hempty : (run (signLoop env reqNum) caps (signInit ses) h).outCh = []) :
    EverythingSent env.out (run (signLoop env reqNum) caps (signInit ses) h).loop.out.sent
      (delivered (signLoop env reqNum) caps (init (signInit ses)) h) :=
  all_sent (sends_sign env reqNum) caps _ rfl hn hinj h hreg hok hempty

theorem foldl_result {L : Loop P R σ} (hs : Stays L) (le : List (LoopEvent P R)) (l : σ) (b : Bool) (h : L.result l = some b) :
    L.result (le.foldl L.step l) = some b := by
  induction le generalizing l with
  | nil => exact h
  | cons e le ih => exact ih _ (hs.result _ _ _ h)

theorem step_result {L : Loop P R σ} (hs : Stays L) (caps : Caps) (s : St R σ) (e : Event P R) (b : Bool) (h : L.result s.loop = some b) :
    L.result (step L caps s e).loop = some b := by
  rw [step_loop]
  exact foldl_result hs _ _ _ h

theorem looped_append (L : Loop P R σ) (caps : Caps) (s : St R σ) (a b : List (Event P R)) :
    looped L caps s (a ++ b) = looped L caps s a ++ looped L caps (a.foldl (step L caps) s) b := by
  induction a generalizing s with
  | nil => rfl
  | cons e a ih => simp only [List.cons_append, looped, ih, List.foldl_cons, List.append_assoc]

theorem none_processed {L : Loop P R σ} (hs : Stays L) (caps : Caps) (s : St R σ) (b : Bool) (hr : L.result s.loop = some b) (k : List (Event P R)) :
    processed (looped L caps s k) = [] := by
  induction k generalizing s with
  | nil => rfl
  | cons e k ih =>
    rw [looped, processed_append, ih _ (step_result hs caps s e b hr), List.append_nil]
    split
    · rfl
    · have hrun : running L s = false := by simp [running, hr]
      cases e <;> simp [loopEvent, hrun, processed]

/-- C108: once the loop has returned, no message of the local parties is sent any more; those in the channel at that moment stay there. -/
theorem lost_for_good {L : Loop P R σ} {oenv : OutBatch.Env P} {t : Messages.MsgType} {out : σ → OutBatch.St P} (hst : Stays L)
    (hs : Sends L oenv t out) (caps : Caps) (l : σ) (h k : List (Event P R)) (b : Bool) (hr : L.result (run L caps l h).loop = some b) :
    (out (run L caps l (h ++ k)).loop).sent = (out (run L caps l h).loop).sent ∧
      (run L caps l h).outCh <+: (run L caps l (h ++ k)).outCh := by
  have hf : run L caps l (h ++ k) = k.foldl (step L caps) (run L caps l h) := by simp [run]
  have hn := none_processed hst caps _ b hr k
  constructor
  · rw [hf, sends_run hs, hn]; rfl
  · have := conserve L caps (run L caps l h) k
    rw [hn] at this
    rw [hf]
    exact ⟨_, this⟩

/-- C108: once the loop of a key generation has returned, no message of the local party is sent any more; those in the channel stay there. -/
theorem c108_keygen_lost_for_good {S H L Pt A Q : Type} [DecidableEq P] [LinearOrder S] [LinearOrder H] (env : Keygen.KEnv P S H L Pt A Q)
    (lenv : LoopEnv Server.Str P) (keys : List Server.Str) (caps : Caps) (l : Keygen.GenSt P Pt) (h k : List (Event P (Keygen.End L A Q)))
    (hr : (run (genLoop env lenv keys) caps l h).loop.result ≠ none) :
    (run (genLoop env lenv keys) caps l (h ++ k)).loop.out.sent = (run (genLoop env lenv keys) caps l h).loop.out.sent ∧
      (run (genLoop env lenv keys) caps l h).outCh <+: (run (genLoop env lenv keys) caps l (h ++ k)).outCh := by
  obtain ⟨r, hr⟩ := Option.ne_none_iff_exists'.1 hr
  exact lost_for_good (stays_gen env lenv keys) (sends_gen env lenv keys) caps l h k _ (by simp only [genLoop] at hr ⊢; rw [hr]; rfl)

/-- C108: the same for signing. -/
theorem c108_keysign_lost_for_good {K : Type} [DecidableEq K] [DecidableEq P] (env : LoopEnv K P) (reqNum : Nat) (caps : Caps) (l : SignSt K P)
    (h k : List (Event P Sig)) (hr : (run (signLoop env reqNum) caps l h).loop.result ≠ none) :
    (run (signLoop env reqNum) caps l (h ++ k)).loop.out.sent = (run (signLoop env reqNum) caps l h).loop.out.sent ∧
      (run (signLoop env reqNum) caps l h).outCh <+: (run (signLoop env reqNum) caps l (h ++ k)).outCh := by
  obtain ⟨r, hr⟩ := Option.ne_none_iff_exists'.1 hr
  exact lost_for_good (stays_sign env reqNum) (sends_sign env reqNum) caps l h k _ (by simp only [signLoop] at hr ⊢; rw [hr]; rfl)

/-! ## C109 -/

/-- Specification: the grace period after a loop that has succeeded (`ok`) is over in the events `h`: five seconds have passed, or all other members
have reported the end of their task (`done`) -/
def GraceOver (L : Loop P R σ) (caps : Caps) (l : σ) (ok done : σ → Prop) (h : List (Event P R)) : Prop :=
  ∃ a e b, h = a ++ e :: b ∧ ok (run L caps l a).loop ∧ (e = .graceOver ∨ e = .graceDone ∧ done (run L caps l a).loop)

/-- the same, as the loop says it -/
def GraceEnded (L : Loop P R σ) (caps : Caps) (l : σ) (h : List (Event P R)) : Prop :=
  ∃ a e b, h = a ++ e :: b ∧ L.result (run L caps l a).loop = some true ∧
    (e = .graceOver ∨ e = .graceDone ∧ L.taskDone (run L caps l a).loop = true)

theorem graceOver_iff {L : Loop P R σ} {caps : Caps} {l : σ} {ok done : σ → Prop} (hok : ∀ s, ok s ↔ L.result s = some true)
    (hd : ∀ s, done s ↔ L.taskDone s = true) (h : List (Event P R)) : GraceOver L caps l ok done h ↔ GraceEnded L caps l h := by
  simp only [GraceOver, GraceEnded, hok, hd]

theorem run_snoc (L : Loop P R σ) (caps : Caps) (l : σ) (h : List (Event P R)) (e : Event P R) :
    run L caps l (h ++ [e]) = step L caps (run L caps l h) e := by simp [run]

/-- the fields other than the loop -/
theorem step_rest (L : Loop P R σ) (caps : Caps) (s : St R σ) (e : Event P R) (hc : L.crashed s.loop = false) :
    (step L caps s e).commStop = (rest L caps s e).commStop ∧ (step L caps s e).inbound = (rest L caps s e).inbound ∧
      (step L caps s e).started = (rest L caps s e).started ∧ (step L caps s e).returned = (rest L caps s e).returned := by
  unfold step
  rw [if_neg (by simp [hc])]
  split <;> exact ⟨rfl, rfl, rfl, rfl⟩

theorem step_crashed {L : Loop P R σ} (caps : Caps) (s : St R σ) (e : Event P R) (hc : L.crashed s.loop = true) : step L caps s e = s := by
  unfold step
  rw [if_pos hc]

/-- what is true at every moment of a call -/
structure Inv (L : Loop P R σ) (caps : Caps) (l : σ) (h : List (Event P R)) (s : St R σ) : Prop where
  stop : s.commStop = true → L.result s.loop = some true ∧ GraceEnded L caps l h ∨ L.result s.loop = some false
  inbound : s.inbound = false → s.commStop = true
  fail : s.returned = some false → L.result s.loop = some false
  success : s.returned = some true → L.result s.loop = some true ∧ s.commStop = true ∧ s.inbound = false ∧ s.started.isSome = true

theorem inv {L : Loop P R σ} (hs : Stays L) (caps : Caps) (l : σ) (h : List (Event P R)) : Inv L caps l h (run L caps l h) := by
  induction h using List.reverseRecOn with
  | nil => exact ⟨by simp [run, init], by simp [run, init], by simp [run, init], by simp [run, init]⟩
  | append_singleton h e ih =>
    have hg : GraceEnded L caps l h → GraceEnded L caps l (h ++ [e]) := by
      rintro ⟨a, x, b, rfl, h1, h2⟩
      exact ⟨a, x, b ++ [e], by simp, h1, h2⟩
    rw [run_snoc]
    by_cases hc : L.crashed (run L caps l h).loop = true
    · rw [step_crashed caps _ e hc]
      exact ⟨fun h1 => (ih.stop h1).imp (fun x => ⟨x.1, hg x.2⟩) id, ih.inbound, ih.fail, ih.success⟩
    · obtain ⟨f1, f2, f3, f4⟩ := step_rest L caps (run L caps l h) e (by simpa using hc)
      have hres := fun b => step_result hs caps (run L caps l h) e b
      have old1 : (run L caps l h).commStop = true → L.result (step L caps (run L caps l h) e).loop = some true ∧ GraceEnded L caps l (h ++ [e]) ∨
          L.result (step L caps (run L caps l h) e).loop = some false :=
        fun h1 => (ih.stop h1).imp (fun x => ⟨hres _ x.1, hg x.2⟩) (hres _)
      have old3 : (run L caps l h).returned = some false → L.result (step L caps (run L caps l h) e).loop = some false :=
        fun h1 => hres _ (ih.fail h1)
      have old4 : (run L caps l h).returned = some true → L.result (step L caps (run L caps l h) e).loop = some true ∧
          (run L caps l h).commStop = true ∧ (run L caps l h).inbound = false ∧ (run L caps l h).started.isSome = true := by
        intro h1
        obtain ⟨a, b⟩ := ih.success h1
        exact ⟨hres _ a, b⟩
      constructor
      · rw [f1]
        cases e with
        | graceOver =>
          simp only [rest]
          split
          · rename_i h1
            exact fun _ => Or.inl ⟨hres _ h1, h, _, [], rfl, h1, Or.inl rfl⟩
          · exact old1
        | graceDone =>
          simp only [rest]
          split
          · rename_i h1
            exact fun _ => Or.inl ⟨hres _ h1.1, h, _, [], rfl, h1.1, Or.inr ⟨rfl, h1.2⟩⟩
          · exact old1
        | ret =>
          simp only [rest]
          split
          · rename_i h1
            exact fun _ => Or.inr (hres _ h1)
          · split <;> exact old1
          · exact old1
        | _ => simp only [rest]; (try split) <;> exact old1
      · rw [f1, f2]
        cases e with
        | inboundEnds =>
          simp only [rest]
          split
          · rename_i h1; exact fun _ => h1
          · exact ih.inbound
        | ret =>
          simp only [rest]
          split
          · exact fun _ => rfl
          · split <;> exact ih.inbound
          · exact ih.inbound
        | _ => simp only [rest]; (try split) <;> first | exact ih.inbound | exact fun _ => rfl
      · rw [f4]
        cases e with
        | ret =>
          simp only [rest]
          split
          · rename_i h1; exact fun _ => hres _ h1
          · split
            · intro h1; cases h1
            · exact old3
          · exact old3
        | _ => simp only [rest]; (try split) <;> exact old3
      · rw [f1, f2, f3, f4]
        cases e with
        | ret =>
          simp only [rest]
          split
          · intro h1; cases h1
          · split
            · rename_i h1 h2; exact fun _ => ⟨hres _ h1, h2⟩
            · exact old4
          · exact old4
        | graceOver =>
          simp only [rest]
          split
          · exact fun h1 => ⟨(old4 h1).1, rfl, (old4 h1).2.2⟩
          · exact old4
        | graceDone =>
          simp only [rest]
          split
          · exact fun h1 => ⟨(old4 h1).1, rfl, (old4 h1).2.2⟩
          · exact old4
        | inboundEnds =>
          simp only [rest]
          split
          · exact fun h1 => ⟨(old4 h1).1, (old4 h1).2.1, rfl, (old4 h1).2.2.2⟩
          · exact old4
        | started ok =>
          simp only [rest]
          split
          · exact fun h1 => ⟨(old4 h1).1, (old4 h1).2.1, (old4 h1).2.2.1, rfl⟩
          · exact old4
        | _ => simp only [rest]; (try split) <;> exact old4

theorem step_stop (L : Loop P R σ) (caps : Caps) (s : St R σ) (e : Event P R) (h : s.commStop = true) : (step L caps s e).commStop = true := by
  by_cases hc : L.crashed s.loop = true
  · rw [step_crashed caps s e hc]; exact h
  · rw [(step_rest L caps s e (by simpa using hc)).1]
    cases e <;> simp only [rest] <;> (repeat' split) <;> first | exact h | rfl

theorem step_inbound (L : Loop P R σ) (caps : Caps) (s : St R σ) (e : Event P R) (h : s.inbound = false) : (step L caps s e).inbound = false := by
  by_cases hc : L.crashed s.loop = true
  · rw [step_crashed caps s e hc]; exact h
  · rw [(step_rest L caps s e (by simpa using hc)).2.1]
    cases e <;> simp only [rest] <;> (repeat' split) <;> first | exact h | rfl

theorem step_started (L : Loop P R σ) (caps : Caps) (s : St R σ) (e : Event P R) (h : s.started.isSome = true) :
    (step L caps s e).started.isSome = true := by
  by_cases hc : L.crashed s.loop = true
  · rw [step_crashed caps s e hc]; exact h
  · rw [(step_rest L caps s e (by simpa using hc)).2.2.1]
    cases e <;> simp only [rest] <;> (repeat' split) <;> first | exact h | rfl

theorem step_returned {L : Loop P R σ} (caps : Caps) (s : St R σ) (e : Event P R) (b : Bool) (hr : L.result s.loop = some b)
    (h : s.returned = some b) : (step L caps s e).returned = some b := by
  by_cases hc : L.crashed s.loop = true
  · rw [step_crashed caps s e hc]; exact h
  · rw [(step_rest L caps s e (by simpa using hc)).2.2.2]
    cases e with
    | ret => cases b <;> simp only [rest, hr] <;> (repeat' split) <;> first | exact h | rfl
    | _ => simp only [rest]; (repeat' split) <;> exact h

theorem fold_returned {L : Loop P R σ} (hs : Stays L) (caps : Caps) (s : St R σ) (k : List (Event P R)) (b : Bool) (hr : L.result s.loop = some b)
    (h : s.returned = some b) : (k.foldl (step L caps) s).returned = some b := by
  induction k generalizing s with
  | nil => exact h
  | cons e k ih => exact ih _ (step_result hs caps s e b hr) (step_returned caps s e b hr h)

theorem crashed_fold {L : Loop P R σ} (caps : Caps) (s : St R σ) (k : List (Event P R)) (h : L.crashed s.loop = true) :
    k.foldl (step L caps) s = s := by
  induction k with
  | nil => rfl
  | cons e k ih => rw [List.foldl_cons, step_crashed caps s e h, ih]

theorem running_before {L : Loop P R σ} (caps : Caps) (s : St R σ) (k : List (Event P R))
    (h : L.crashed (k.foldl (step L caps) s).loop = false) : L.crashed s.loop = false := by
  by_contra hc
  rw [crashed_fold caps s k (by simpa using hc)] at h
  exact hc h

theorem returns_fail {L : Loop P R σ} (hs : Stays L) (caps : Caps) (s : St R σ) (hr : L.result s.loop = some false) (k : List (Event P R))
    (hk : Event.ret ∈ k) (hc : L.crashed (k.foldl (step L caps) s).loop = false) : (k.foldl (step L caps) s).returned = some false := by
  induction k generalizing s with
  | nil => cases hk
  | cons e k ih =>
    have hr' := step_result hs caps s e false hr
    rcases List.mem_cons.1 hk with rfl | hk
    · refine fold_returned hs caps _ k false hr' ?_
      rw [(step_rest L caps s .ret (running_before caps s _ hc)).2.2.2]
      simp [rest, hr]
    · exact ih _ hr' hk hc

theorem returns_3 {L : Loop P R σ} (hs : Stays L) (caps : Caps) (s : St R σ) (hr : L.result s.loop = some true) (hst : s.started.isSome = true)
    (hstop : s.commStop = true) (hin : s.inbound = false) (k : List (Event P R)) (hk : [Event.ret] <+ k)
    (hc : L.crashed (k.foldl (step L caps) s).loop = false) : (k.foldl (step L caps) s).returned = some true := by
  induction k generalizing s with
  | nil => cases hk
  | cons e k ih =>
    have hr' := step_result hs caps s e true hr
    rcases List.cons_sublist_cons'.1 hk with h | ⟨rfl, -⟩
    · exact ih _ hr' (step_started _ _ _ _ hst) (step_stop _ _ _ _ hstop) (step_inbound _ _ _ _ hin) h hc
    · refine fold_returned hs caps _ k true hr' ?_
      rw [(step_rest L caps s .ret (running_before caps s _ hc)).2.2.2]
      simp [rest, hr, hst, hstop, hin]

theorem returns_2 {L : Loop P R σ} (hs : Stays L) (caps : Caps) (s : St R σ) (hr : L.result s.loop = some true) (hst : s.started.isSome = true)
    (hstop : s.commStop = true) (k : List (Event P R)) (hk : [Event.inboundEnds, Event.ret] <+ k)
    (hc : L.crashed (k.foldl (step L caps) s).loop = false) : (k.foldl (step L caps) s).returned = some true := by
  induction k generalizing s with
  | nil => cases hk
  | cons e k ih =>
    have hr' := step_result hs caps s e true hr
    rcases List.cons_sublist_cons'.1 hk with h | ⟨rfl, h⟩
    · exact ih _ hr' (step_started _ _ _ _ hst) (step_stop _ _ _ _ hstop) h hc
    · refine returns_3 hs caps _ hr' (step_started _ _ _ _ hst) (step_stop _ _ _ _ hstop) ?_ k h hc
      rw [(step_rest L caps s .inboundEnds (running_before caps s _ hc)).2.1]
      simp [rest, hstop]

theorem returns_1 {L : Loop P R σ} (hs : Stays L) (caps : Caps) (s : St R σ) (hr : L.result s.loop = some true) (hst : s.started.isSome = true)
    (k : List (Event P R)) (hk : [Event.graceOver, Event.inboundEnds, Event.ret] <+ k)
    (hc : L.crashed (k.foldl (step L caps) s).loop = false) : (k.foldl (step L caps) s).returned = some true := by
  induction k generalizing s with
  | nil => cases hk
  | cons e k ih =>
    have hr' := step_result hs caps s e true hr
    rcases List.cons_sublist_cons'.1 hk with h | ⟨rfl, h⟩
    · exact ih _ hr' (step_started _ _ _ _ hst) h hc
    · refine returns_2 hs caps _ hr' (step_started _ _ _ _ hst) ?_ k h hc
      rw [(step_rest L caps s .graceOver (running_before caps s _ hc)).1]
      simp [rest, hr]

/-- Specification: the four facts of C109 about the call `run L caps l`, whose loop has succeeded when `ok` and failed when `bad`, and whose members
have all reported when `done`:
it reports success only after its loop succeeded, its local parties were started, and either five seconds passed or all others reported done;
it reports failure only after its loop failed; after the end of the loop and of the start of the parties it returns, at the latest when the five
seconds are over and the goroutine of inbound messages has got its turn, and at once when the loop failed; after a return with success nothing of the
session changes any more. -/
structure Returns (L : Loop P R σ) (caps : Caps) (l : σ) (ok bad done : σ → Prop) : Prop where
  success : ∀ h, (run L caps l h).returned = some true → ok (run L caps l h).loop ∧ GraceOver L caps l ok done h ∧ ∃ b, Event.started b ∈ h
  failure : ∀ h, (run L caps l h).returned = some false → bad (run L caps l h).loop
  ends : ∀ h k, ok (run L caps l h).loop → (∃ b, Event.started b ∈ h) → [Event.graceOver, Event.inboundEnds, Event.ret] <+ k →
    L.crashed (run L caps l (h ++ k)).loop = false → (run L caps l (h ++ k)).returned = some true
  fails : ∀ h k, bad (run L caps l h).loop → Event.ret ∈ k → L.crashed (run L caps l (h ++ k)).loop = false →
    (run L caps l (h ++ k)).returned = some false
  quiet : ∀ h k, (run L caps l h).returned = some true → (run L caps l (h ++ k)).loop = (run L caps l h).loop

theorem started_mem (L : Loop P R σ) (caps : Caps) (l : σ) (h : List (Event P R)) (hs : (run L caps l h).started.isSome = true) :
    ∃ b, Event.started b ∈ h := by
  induction h using List.reverseRecOn with
  | nil => simp [run, init] at hs
  | append_singleton h e ih =>
    rw [run_snoc] at hs
    by_cases hc : L.crashed (run L caps l h).loop = true
    · rw [step_crashed caps _ e hc] at hs
      obtain ⟨b, hb⟩ := ih hs
      exact ⟨b, by simp [hb]⟩
    · rw [(step_rest L caps _ e (by simpa using hc)).2.2.1] at hs
      have old : (run L caps l h).started.isSome = true → ∃ b, Event.started b ∈ h ++ [e] := by
        intro h1
        obtain ⟨b, hb⟩ := ih h1
        exact ⟨b, by simp [hb]⟩
      cases e with
      | started b => exact ⟨b, by simp⟩
      | _ => simp only [rest] at hs; (repeat' split at hs) <;> exact old hs

theorem mem_started {L : Loop P R σ} (caps : Caps) (l : σ) (h : List (Event P R)) (b : Bool) (hb : Event.started b ∈ h)
    (hc : L.crashed (run L caps l h).loop = false) : (run L caps l h).started.isSome = true := by
  induction h using List.reverseRecOn with
  | nil => cases hb
  | append_singleton h e ih =>
    have hc' : L.crashed (run L caps l h).loop = false := by
      rw [run_snoc] at hc
      exact running_before caps _ [e] hc
    rw [run_snoc]
    rcases List.mem_append.1 hb with hb | hb
    · exact step_started _ _ _ _ (ih hb hc')
    · obtain rfl := List.mem_singleton.1 hb
      rw [(step_rest L caps _ _ hc').2.2.1]
      simp only [rest]
      split
      · rfl
      · rename_i h1
        simpa [Option.isSome_iff_ne_none] using h1

theorem quiet_fold {L : Loop P R σ} (hs : Stays L) (caps : Caps) (s : St R σ) (h1 : L.result s.loop = some true) (h3 : s.inbound = false)
    (k : List (Event P R)) : (k.foldl (step L caps) s).loop = s.loop := by
  induction k generalizing s with
  | nil => rfl
  | cons x k ih =>
    have hloop : (step L caps s x).loop = s.loop := by
      rw [step_loop]
      split
      · rfl
      · have hrun : running L s = false := by simp [running, h1]
        cases x <;> simp [loopEvent, hrun, h3]
    rw [List.foldl_cons, ih _ (step_result hs caps s x true h1) (step_inbound L caps s x h3), hloop]

theorem returns {L : Loop P R σ} (hs : Stays L) (caps : Caps) (l : σ) (ok bad done : σ → Prop) (hok : ∀ s, ok s ↔ L.result s = some true)
    (hbad : ∀ s, bad s ↔ L.result s = some false) (hd : ∀ s, done s ↔ L.taskDone s = true) : Returns L caps l ok bad done where
  success h hr := by
    obtain ⟨h1, h2, -, h4⟩ := (inv hs caps l h).success hr
    refine ⟨(hok _).2 h1, ?_, started_mem L caps l h h4⟩
    rcases (inv hs caps l h).stop h2 with h5 | h5
    · exact (graceOver_iff hok hd h).2 h5.2
    · rw [h1] at h5; cases h5
  failure h hr := (hbad _).2 ((inv hs caps l h).fail hr)
  ends h k h1 h2 hk hc := by
    have e : run L caps l (h ++ k) = k.foldl (step L caps) (run L caps l h) := by simp [run]
    rw [e] at hc ⊢
    obtain ⟨b, hb⟩ := h2
    exact returns_1 hs caps _ ((hok _).1 h1) (mem_started caps l h b hb (running_before caps _ k hc)) k hk hc
  fails h k h1 hk hc := by
    have e : run L caps l (h ++ k) = k.foldl (step L caps) (run L caps l h) := by simp [run]
    rw [e] at hc ⊢
    exact returns_fail hs caps _ ((hbad _).1 h1) k hk hc
  quiet h k hr := by
    have e : run L caps l (h ++ k) = k.foldl (step L caps) (run L caps l h) := by simp [run]
    rw [e]
    obtain ⟨h1, -, h3, -⟩ := (inv hs caps l h).success hr
    exact quiet_fold hs caps _ h1 h3 k

theorem result_gen {S H L Pt A Q : Type} [DecidableEq P] [LinearOrder S] [LinearOrder H] (env : Keygen.KEnv P S H L Pt A Q)
    (lenv : LoopEnv Server.Str P) (keys : List Server.Str) (s : Keygen.GenSt P Pt) :
    ((∃ pt, s.result = some (.ok pt)) ↔ (genLoop env lenv keys).result s = some true) ∧
      ((∃ e, s.result = some (.error e)) ↔ (genLoop env lenv keys).result s = some false) := by
  simp only [genLoop]
  rcases s.result with _ | (_ | _) <;> simp

theorem result_sign {K : Type} [DecidableEq K] [DecidableEq P] (env : LoopEnv K P) (reqNum : Nat) (s : SignSt K P) :
    ((∃ l, s.result = some (.ok l)) ↔ (signLoop env reqNum).result s = some true) ∧
      ((∃ e, s.result = some (.error e)) ↔ (signLoop env reqNum).result s = some false) := by
  simp only [signLoop]
  rcases s.result with _ | (_ | _) <;> simp

/-- C109: how and when the call of a key generation session returns. -/
theorem c109_keygen {S H L Pt A Q : Type} [DecidableEq P] [LinearOrder S] [LinearOrder H] (env : Keygen.KEnv P S H L Pt A Q)
    (lenv : LoopEnv Server.Str P) (keys : List Server.Str) (caps : Caps) (l : Keygen.GenSt P Pt) :
    Returns (genLoop env lenv keys) caps l (fun s => ∃ pt, s.result = some (.ok pt)) (fun s => ∃ e, s.result = some (.error e))
      (fun s => s.ses.taskDone = true) :=
  returns (stays_gen env lenv keys) caps l _ _ _ (fun s => (result_gen env lenv keys s).1) (fun s => (result_gen env lenv keys s).2) fun _ => Iff.rfl

/-- C109: how and when the call of a signing session returns. -/
theorem c109_keysign {K : Type} [DecidableEq K] [DecidableEq P] (env : LoopEnv K P) (reqNum : Nat) (caps : Caps) (l : SignSt K P) :
    Returns (signLoop env reqNum) caps l (fun s => ∃ l, s.result = some (.ok l)) (fun s => ∃ e, s.result = some (.error e))
      (fun s => s.ses.taskDone = true) :=
  returns (stays_sign env reqNum) caps l _ _ _ (fun s => (result_sign env reqNum s).1) (fun s => (result_sign env reqNum s).2) fun _ => Iff.rfl

/-- Specification: the messages of peers among the events -/
def received (h : List (Event P R)) : List (TssCommon.Event P) := h.filterMap fun e => match e with | .message e => some e | _ => none

/-- Specification: the messages of peers which the session has processed -/
def answered (le : List (LoopEvent P R)) : List (TssCommon.Event P) := le.filterMap fun e => match e with | .inbound e => some e | _ => none

theorem answered_append (a b : List (LoopEvent P R)) : answered (a ++ b) = answered a ++ answered b := by simp [answered]

theorem answered_step {L : Loop P R σ} (s : St R σ) (e : Event P R) (hi : s.inbound = true) :
    answered (loopEvent L s e).toList = received [e] := by
  cases e with
  | takeOut sch =>
    simp only [loopEvent, received, answered]
    split
    · rcases s.outCh with _ | ⟨o, l⟩ <;> simp
    · simp
  | takeEnd =>
    simp only [loopEvent, received, answered]
    split
    · rcases s.endCh with _ | ⟨o, l⟩ <;> simp
    · simp
  | message e => simp [loopEvent, received, answered, hi]
  | takeErr => simp only [loopEvent, received, answered]; split <;> simp
  | takeStop => simp only [loopEvent, received, answered]; split <;> simp
  | timeout sch => simp only [loopEvent, received, answered]; split <;> simp
  | _ => simp [loopEvent, received, answered]

/-- C109: as long as the loop has not failed and the grace period is not over, every message of a peer is processed, in order: the node goes on
answering after its own end. -/
theorem goes_on {L : Loop P R σ} (hs : Stays L) (caps : Caps) (l : σ) (h : List (Event P R))
    (hc : L.crashed (run L caps l h).loop = false) (hr : L.result (run L caps l h).loop ≠ some false) (hg : ¬ GraceEnded L caps l h) :
    answered (looped L caps (init l) h) = received h := by
  induction h using List.reverseRecOn with
  | nil => rfl
  | append_singleton h e ih =>
    have hc' : L.crashed (run L caps l h).loop = false := by
      rw [run_snoc] at hc
      exact running_before caps _ [e] hc
    have hr' : L.result (run L caps l h).loop ≠ some false := by
      intro h1
      rw [run_snoc] at hr
      exact hr (step_result hs caps _ e false h1)
    have hg' : ¬ GraceEnded L caps l h := by
      rintro ⟨a, x, b, rfl, h1, h2⟩
      exact hg ⟨a, x, b ++ [e], by simp, h1, h2⟩
    have hin : (run L caps l h).inbound = true := by
      by_contra hi
      have := (inv hs caps l h).inbound (by simpa using hi)
      rcases (inv hs caps l h).stop this with h1 | h1
      · exact hg' h1.2
      · exact hr' h1
    rw [looped_append, answered_append, ih hc' hr' hg']
    have : looped L caps (h.foldl (step L caps) (init l)) [e] = (loopEvent L (run L caps l h) e).toList := by
      simp only [looped, List.append_nil]
      rw [if_neg (by simpa [run] using hc')]
      rfl
    rw [this, answered_step _ _ hin]
    simp [received]

/-- C109: as long as the key generation has not failed and the grace period is not over, every message of a peer is processed, in order. -/
theorem c109_keygen_goes_on {S H L Pt A Q : Type} [DecidableEq P] [LinearOrder S] [LinearOrder H] (env : Keygen.KEnv P S H L Pt A Q)
    (lenv : LoopEnv Server.Str P) (keys : List Server.Str) (caps : Caps) (l : Keygen.GenSt P Pt) (h : List (Event P (Keygen.End L A Q)))
    (hc : (run (genLoop env lenv keys) caps l h).loop.crashed = false) (hr : ∀ e, (run (genLoop env lenv keys) caps l h).loop.result ≠ some (.error e))
    (hg : ¬ GraceOver (genLoop env lenv keys) caps l (fun s => ∃ pt, s.result = some (.ok pt)) (fun s => s.ses.taskDone = true) h) : answered (looped (genLoop env lenv keys) caps (init l) h) = received h :=
  goes_on (stays_gen env lenv keys) caps l h hc (fun h1 => (((result_gen env lenv keys _).2.2 h1).elim hr))
    (fun h1 => hg ((graceOver_iff (fun s => (result_gen env lenv keys s).1) (fun _ => Iff.rfl) h).2 h1))

/-- C109: the same for signing. -/
theorem c109_keysign_goes_on {K : Type} [DecidableEq K] [DecidableEq P] (env : LoopEnv K P) (reqNum : Nat) (caps : Caps) (l : SignSt K P)
    (h : List (Event P Sig)) (hc : (run (signLoop env reqNum) caps l h).loop.crashed = false)
    (hr : ∀ e, (run (signLoop env reqNum) caps l h).loop.result ≠ some (.error e)) 
    (hg : ¬ GraceOver (signLoop env reqNum) caps l (fun s => ∃ l, s.result = some (.ok l)) (fun s => s.ses.taskDone = true) h) :
    answered (looped (signLoop env reqNum) caps (init l) h) = received h :=
  goes_on (stays_sign env reqNum) caps l h hc (fun h1 => (((result_sign env reqNum _).2.2 h1).elim hr))
    (fun h1 => hg ((graceOver_iff (fun s => (result_sign env reqNum s).1) (fun _ => Iff.rfl) h).2 h1))

/-! ## what ends a session early -/

theorem started_false (L : Loop P R σ) (caps : Caps) (l : σ) (h : List (Event P R)) (hs : (run L caps l h).started = some false) :
    Event.started false ∈ h := by
  induction h using List.reverseRecOn with
  | nil => simp [run, init] at hs
  | append_singleton h e ih =>
    rw [run_snoc] at hs
    by_cases hc : L.crashed (run L caps l h).loop = true
    · rw [step_crashed caps _ e hc] at hs
      simp [ih hs]
    · rw [(step_rest L caps _ e (by simpa using hc)).2.2.1] at hs
      have old : (run L caps l h).started = some false → Event.started false ∈ h ++ [e] := fun h1 => by simp [ih h1]
      cases e with
      | started b =>
        simp only [rest] at hs
        split at hs
        · simp only [Option.some.injEq] at hs
          subst hs
          simp
        · exact old hs
      | _ => simp only [rest] at hs; (repeat' split at hs) <;> exact old hs

/-- the loop learns that a party did not start only when it did not -/
theorem start_failed (L : Loop P R σ) (caps : Caps) (l : σ) (bad : σ → Prop) (h0 : ¬ bad l) (hbad : ∀ s le, ¬ bad s → bad (L.step s le) → le = .startFailed)
    (h : List (Event P R)) (hb : bad (run L caps l h).loop) : Event.started false ∈ h := by
  induction h using List.reverseRecOn with
  | nil => exact absurd hb h0
  | append_singleton h e ih =>
    by_cases hb' : bad (run L caps l h).loop
    · simp [ih hb']
    · rw [run_snoc, step_loop] at hb
      split at hb
      · exact absurd hb hb'
      · rcases hle : loopEvent L (run L caps l h) e with _ | le
        · rw [hle] at hb
          exact absurd hb hb'
        · rw [hle] at hb
          obtain rfl := hbad _ _ hb' hb
          cases e <;> simp only [loopEvent] at hle <;> (try split at hle) <;> (try cases hle)
          · rename_i hs
            simp [started_false L caps l h hs.2]
          all_goals simp at hle

/-- C109: a key generation session fails because a party did not start only when one did not. -/
theorem c109_keygen_start {S H L Pt A Q : Type} [DecidableEq P] [LinearOrder S] [LinearOrder H] (env : Keygen.KEnv P S H L Pt A Q)
    (lenv : LoopEnv Server.Str P) (keys : List Server.Str) (caps : Caps) (ses : TssCommon.St Server.Str P) (disk : Storage.Disk)
    (h : List (Event P (Keygen.End L A Q)))
    (hr : (run (genLoop env lenv keys) caps (Keygen.genInit ses disk) h).loop.result = some (.error .start)) : Event.started false ∈ h := by
  refine start_failed _ caps _ (fun s : Keygen.GenSt P Pt => s.result = some (.error .start)) (by simp [Keygen.genInit]) ?_ h hr
  intro s le hs hb
  simp only [genLoop, Keygen.genStep] at hb
  split at hb
  · exact absurd hb hs
  · split at hb
    · exact absurd hb hs
    · split at hb
      · exact absurd hb hs
      · split at hb
        · rfl
        · simp at hb
        · (repeat' split at hb) <;> first | exact absurd hb hs | simp at hb
        · (repeat' split at hb) <;> first | exact absurd hb hs | simp at hb
        · simp only [Keygen.genDone] at hb
          (repeat' split at hb) <;> first | exact absurd hb hs | simp at hb
        · exact absurd hb hs

/-- C109: the same for signing. -/
theorem c109_keysign_start {K : Type} [DecidableEq K] [DecidableEq P] (env : LoopEnv K P) (reqNum : Nat) (caps : Caps) (ses : TssCommon.St K P)
    (h : List (Event P Sig)) (hr : (run (signLoop env reqNum) caps (signInit ses) h).loop.result = some (.error .start)) :
    Event.started false ∈ h := by
  refine start_failed _ caps _ (fun s : SignSt K P => s.result = some (.error .start)) (by simp [signInit]) ?_ h hr
  intro s le hs hb
  simp only [signLoop, signStep] at hb
  split at hb
  · exact absurd hb hs
  · split at hb
    · exact absurd hb hs
    · split at hb
      · exact absurd hb hs
      · split at hb
        · rfl
        · simp at hb
        · (repeat' split at hb) <;> first | exact absurd hb hs | simp at hb
        · (repeat' split at hb) <;> first | exact absurd hb hs | simp at hb
        · (repeat' split at hb) <;> first | exact absurd hb hs | simp at hb
        · exact absurd hb hs

/-- C109: a key generation session that is told to stop, or whose time is up, ends with an error at once, whatever waits in its channels (or the
program panics, when the blame cannot be found). -/
theorem c109_keygen_stops {S H L Pt A Q : Type} [DecidableEq P] [LinearOrder S] [LinearOrder H] (env : Keygen.KEnv P S H L Pt A Q)
    (lenv : LoopEnv Server.Str P) (keys : List Server.Str) (caps : Caps) (l : Keygen.GenSt P Pt) (h : List (Event P (Keygen.End L A Q)))
    (hc : (run (genLoop env lenv keys) caps l h).loop.crashed = false) (hr : (run (genLoop env lenv keys) caps l h).loop.result = none) :
    (run (genLoop env lenv keys) caps l (h ++ [.takeStop])).loop.result = some (.error .exit) ∧
      ∀ sch, (run (genLoop env lenv keys) caps l (h ++ [.timeout sch])).loop.result = some (.error .timeout) ∨
        (run (genLoop env lenv keys) caps l (h ++ [.timeout sch])).loop.result = some (.error .noMessage) ∨
        (run (genLoop env lenv keys) caps l (h ++ [.timeout sch])).loop.crashed = true := by
  simp only [run_snoc]
  generalize run (genLoop env lenv keys) caps l h = s at hc hr ⊢
  have hrun : running (genLoop env lenv keys) s = true := by simp [running, genLoop, hr]
  have hc' : (genLoop env lenv keys).crashed s.loop = false := hc
  refine ⟨?_, fun sch => ?_⟩
  · rw [step_loop, if_neg (by simp [hc'])]
    simp only [loopEvent, hrun, if_true, Option.toList, List.foldl_cons, List.foldl_nil]
    simp [genLoop, Keygen.genStep, hc, hr]
  · rw [step_loop, if_neg (by simp [hc'])]
    simp only [loopEvent, hrun, if_true, Option.toList, List.foldl_cons, List.foldl_nil]
    simp only [genLoop, Keygen.genStep, hc, hr, Option.isSome_none, Bool.false_eq_true, if_false]
    (repeat' split) <;> simp

/-- C109: the same for signing. -/
theorem c109_keysign_stops {K : Type} [DecidableEq K] [DecidableEq P] (env : LoopEnv K P) (reqNum : Nat) (caps : Caps) (l : SignSt K P)
    (h : List (Event P Sig)) (hc : (run (signLoop env reqNum) caps l h).loop.crashed = false)
    (hr : (run (signLoop env reqNum) caps l h).loop.result = none) :
    (run (signLoop env reqNum) caps l (h ++ [.takeStop])).loop.result = some (.error .exit) ∧
      ∀ sch, (run (signLoop env reqNum) caps l (h ++ [.timeout sch])).loop.result = some (.error .timeout) ∨
        (run (signLoop env reqNum) caps l (h ++ [.timeout sch])).loop.crashed = true := by
  simp only [run_snoc]
  generalize run (signLoop env reqNum) caps l h = s at hc hr ⊢
  have hrun : running (signLoop env reqNum) s = true := by simp [running, signLoop, hr]
  have hc' : (signLoop env reqNum).crashed s.loop = false := hc
  refine ⟨?_, fun sch => ?_⟩
  · rw [step_loop, if_neg (by simp [hc'])]
    simp only [loopEvent, hrun, if_true, Option.toList, List.foldl_cons, List.foldl_nil]
    simp [signLoop, signStep, hc, hr]
  · rw [step_loop, if_neg (by simp [hc'])]
    simp only [loopEvent, hrun, if_true, Option.toList, List.foldl_cons, List.foldl_nil]
    simp only [signLoop, signStep, hc, hr, Option.isSome_none, Bool.false_eq_true, if_false]
    (repeat' split) <;> simp

/-! ## no result is lost -/

/-- Specification: the results which the local parties give -/
def given (h : List (Event P R)) : List R := h.filterMap fun e => match e with | .deliver r => some r | _ => none

/-- Specification: the results which the loop has taken -/
def results (le : List (LoopEvent P R)) : List R := le.filterMap fun e => match e with | .done r => some r | _ => none

theorem step_endCh (L : Loop P R σ) (caps : Caps) (s : St R σ) (e : Event P R) (hc : L.crashed s.loop = false) (hroom : s.endCh.length < caps.fin ∨ ∀ r, e ≠ .deliver r) :
    results (loopEvent L s e).toList ++ (step L caps s e).endCh = s.endCh ++ given [e] := by
  have hstep : (step L caps s e).endCh = (rest L caps s e).endCh := by
    unfold step
    rw [if_neg (by simp [hc])]
    split <;> rfl
  rw [hstep]
  cases e with
  | deliver r =>
    have hr : s.endCh.length < caps.fin := hroom.elim id (fun h => absurd rfl (h r))
    simp [loopEvent, results, given, rest, hr]
  | takeEnd =>
    simp only [loopEvent, rest]
    by_cases hr : running L s = true
    · rw [if_pos hr, if_pos hr]
      rcases he : s.endCh with _ | ⟨r, l⟩ <;> simp [results, given]
    · rw [if_neg hr, if_neg hr]
      simp [results, given]
  | takeOut sch =>
    simp only [loopEvent, rest]
    by_cases hr : running L s = true
    · rw [if_pos hr, if_pos hr]
      rcases s.outCh with _ | ⟨r, l⟩ <;> simp [results, given]
    · rw [if_neg hr, if_neg hr]
      simp [results, given]
  | _ =>
    simp only [loopEvent, rest]
    (repeat' split) <;> simp [results, given]

theorem looped_snoc (L : Loop P R σ) (caps : Caps) (s : St R σ) (h : List (Event P R)) (e : Event P R) :
    looped L caps s (h ++ [e]) = looped L caps s h ++
      (if L.crashed (h.foldl (step L caps) s).loop then [] else (loopEvent L (h.foldl (step L caps) s) e).toList) := by
  induction h generalizing s with
  | nil => simp only [List.nil_append, looped, List.append_nil, List.foldl_nil]; rfl
  | cons x h ih => simp only [List.cons_append, looped, ih, List.foldl_cons, List.append_assoc]; rfl

/-- while no more results are given than there is room for, each is taken by the loop, in order, or waits in the channel -/
theorem results_kept (L : Loop P R σ) (caps : Caps) (l : σ) (h : List (Event P R)) (hc : L.crashed (run L caps l h).loop = false)
    (hroom : (given h).length ≤ caps.fin) : results (looped L caps (init l) h) ++ (run L caps l h).endCh = given h := by
  induction h using List.reverseRecOn with
  | nil => simp [looped, results, given, run, init]
  | append_singleton h e ih =>
    have hg : given (h ++ [e]) = given h ++ given [e] := by simp [given]
    have hc' : L.crashed (run L caps l h).loop = false := by
      rw [run_snoc] at hc
      exact running_before caps _ [e] hc
    have hih := ih hc' (by rw [hg] at hroom; simp at hroom; omega)
    have hlen : (run L caps l h).endCh.length ≤ (given h).length := by rw [← hih]; simp
    have hst := step_endCh L caps (run L caps l h) e hc' (by
      by_cases hd : ∀ r, e ≠ .deliver r
      · exact .inr hd
      · simp only [not_forall, not_not] at hd
        obtain ⟨r, rfl⟩ := hd
        rw [hg] at hroom
        simp [given] at hroom hlen
        left; omega)
    rw [looped_snoc, run_snoc, show h.foldl (step L caps) (init l) = run L caps l h from rfl, if_neg (by simp [hc']), hg]
    have hr : ∀ a b : List (LoopEvent P R), results (a ++ b) = results a ++ results b := fun a b => by simp [results]
    rw [hr, List.append_assoc, hst, ← List.append_assoc, hih]

/-- C109: the result of the local party of a key generation is never lost, and the party never has to wait with it: the channel has room. -/
theorem c109_keygen_result {S H L Pt A Q : Type} [DecidableEq P] [LinearOrder S] [LinearOrder H] (env : Keygen.KEnv P S H L Pt A Q)
    (lenv : LoopEnv Server.Str P) (keys : List Server.Str) (l : Keygen.GenSt P Pt) (h : List (Event P (Keygen.End L A Q)))
    (hc : (run (genLoop env lenv keys) (genCaps keys.length) l h).loop.crashed = false) (hk : keys ≠ []) (h1 : (given h).length ≤ 1) :
    results (looped (genLoop env lenv keys) (genCaps keys.length) (init l) h) ++ (run (genLoop env lenv keys) (genCaps keys.length) l h).endCh =
      given h :=
  results_kept _ _ l h hc (le_trans h1 (List.length_pos_iff.2 hk))

/-- C109: the same for signing, with one local party for every message. -/
theorem c109_keysign_result {K : Type} [DecidableEq K] [DecidableEq P] (env : LoopEnv K P) (n k : Nat) (l : SignSt K P)
    (h : List (Event P Sig)) (hc : (run (signLoop env k) (signCaps n k) l h).loop.crashed = false) (hn : 1 ≤ n) (hk : (given h).length ≤ k) :
    results (looped (signLoop env k) (signCaps n k) (init l) h) ++ (run (signLoop env k) (signCaps n k) l h).endCh = given h :=
  results_kept _ _ l h hc (le_trans hk (Nat.le_mul_of_pos_left k hn))

/-! ## Examples and limits -/

/-- Full statement of C108 for key generation: for every session, set up as the code does it, whose call returns with success: when the outputs of
tss-lib are regular and no attempt to send fails, everything that the local party produced has been sent. -/
def AlwaysSent : Prop :=
  ∀ (env : Keygen.KEnv Nat Nat Nat Unit Unit Unit Nat) (sch : Keygen.SetupSched Nat) (id : String) (keys : List Server.Str)
    (lenv : LoopEnv Server.Str Nat) (mgr : Blame.Manager Server.Str Nat) (disk : Storage.Disk) (h : List (Event Nat (Keygen.End Unit Unit Nat))),
    Keygen.genSetup env sch id keys = .run lenv mgr →
    (run (genLoop env lenv keys) (genCaps keys.length) (Keygen.genInit (TssCommon.newTssCommon mgr) disk) h).returned = some true →
    RegularOuts lenv.out (delivered (genLoop env lenv keys) (genCaps keys.length) (init (Keygen.genInit (TssCommon.newTssCommon mgr) disk)) h) →
    SendsWork h →
    EverythingSent lenv.out (run (genLoop env lenv keys) (genCaps keys.length) (Keygen.genInit (TssCommon.newTssCommon mgr) disk) h).loop.out.sent
      (delivered (genLoop env lenv keys) (genCaps keys.length) (init (Keygen.genInit (TssCommon.newTssCommon mgr) disk)) h)

section Demo
open Verif.Spec.DemoServer (key)

/-- the keys of the example of C52 -/
def keys : List Server.Str := [key 0, key 1, key 2, key 3]

/-- a broadcast message of the local party -/
def message : Output := ⟨"KGRound3Message", "", some ([1], ⟨some (some 1), [], true⟩)⟩

/-- the result of the local party, which is stored without fault -/
def share : Keygen.End Unit Unit Nat := ⟨(), none, Go.Shuffle.id _, [], none⟩

/-- sending works -/
def fine : OutBatch.Sched := ⟨Go.Shuffle.id _, Go.Shuffle.id _, fun _ => true⟩

/-- what a call for the example of C52 has come to: whether it has returned, and how; what was sent; what the local party has delivered; what is in the
channel -/
def outcome (h : List (Event Nat (Keygen.End Unit Unit Nat))) : Option (Option Bool × List (OutBatch.Bulk Nat) × Nat × Nat) :=
  match Keygen.genSetup (KeyGeneration.env 1) KeyGeneration.sched "id" keys with
  | .run lenv mgr =>
    let L := genLoop (KeyGeneration.env 1) lenv keys
    let l := Keygen.genInit (TssCommon.newTssCommon mgr) []
    let s := run L (genCaps keys.length) l h
    some (s.returned, s.loop.out.sent, (delivered L (genCaps keys.length) (init l) h).length, s.outCh.length)
  | _ => none

/-- the local party delivers its last message and its result; the loop takes the message first -/
def good : List (Event Nat (Keygen.End Unit Unit Nat)) :=
  [.started true, .put message, .deliver share, .takeOut fine, .takeEnd, .graceOver, .inboundEnds, .ret]

/-- the same, but the loop takes the result first -/
def bad : List (Event Nat (Keygen.End Unit Unit Nat)) :=
  [.started true, .put message, .deliver share, .takeEnd, .graceOver, .inboundEnds, .ret]

/-- the hypotheses of `c108_keygen_partial` and `c109_keygen` hold of the example: the message is sent to the other three members, and the call
returns with success -/
example : outcome good = some (some true, [⟨"KGRound3Message", Messages.TSSKeyGenMsg, [⟨[1], "", some ⟨some (some 1), [], true⟩⟩],
    some ⟨some (some 1), [], true⟩, [10, 12, 13]⟩], 1, 0) := by decide +kernel

/-- before the grace period is over the call does not return -/
example : (outcome [.started true, .deliver share, .takeEnd, .inboundEnds, .ret]).map Prod.fst = some none ∧
    (outcome [.started true, .deliver share, .takeEnd, .graceDone, .inboundEnds, .ret]).map Prod.fst = some none ∧
    (outcome [.deliver share, .takeEnd, .graceOver, .inboundEnds, .ret]).map Prod.fst = some none ∧
    (outcome [.takeStop, .ret]).map Prod.fst = some (some false) := by decide +kernel

/-- C108 is false: the key generation of the example returns with success although the last message of its local party was not sent. -/
theorem c108_message_lost : outcome bad = some (some true, [], 1, 1) := by decide +kernel

theorem message_regular : Outgoing.Regular message where
  wire := by simp [message]
  type := by decide +kernel
  dest b r h := by
    simp only [message, Option.some.injEq, Prod.mk.injEq] at h
    obtain ⟨-, rfl⟩ := h
    simp

/-- C108 is false: a member may report a new key although it did not send everything that the others need. -/
theorem c108_not_always_sent : ¬ AlwaysSent := by
  intro hall
  rcases hs : Keygen.genSetup (KeyGeneration.env 1) KeyGeneration.sched "id" keys with _ | _ | _ | ⟨lenv, mgr⟩
  · have h : (match Keygen.genSetup (KeyGeneration.env 1) KeyGeneration.sched "id" keys with | .run _ _ => true | _ => false) = true := by decide +kernel
    rw [hs] at h; cases h
  · have h : (match Keygen.genSetup (KeyGeneration.env 1) KeyGeneration.sched "id" keys with | .run _ _ => true | _ => false) = true := by decide +kernel
    rw [hs] at h; cases h
  · have h : (match Keygen.genSetup (KeyGeneration.env 1) KeyGeneration.sched "id" keys with | .run _ _ => true | _ => false) = true := by decide +kernel
    rw [hs] at h; cases h
  · have h := c108_message_lost
    simp only [outcome, hs, Option.some.injEq, Prod.mk.injEq] at h
    obtain ⟨h1, h2, h3, -⟩ := h
    have hn : lenv.out.msgNum = 1 := by
      have h : (match Keygen.genSetup (KeyGeneration.env 1) KeyGeneration.sched "id" keys with | .run lenv _ => lenv.out.msgNum | _ => 0) = 1 := by
        decide +kernel
      rw [hs] at h; exact h
    have hd : delivered (genLoop (KeyGeneration.env 1) lenv keys) (genCaps keys.length) (init (Keygen.genInit (TssCommon.newTssCommon mgr) [])) bad =
        [message] := by
      have hsub : ∀ (L : Loop Nat (Keygen.End Unit Unit Nat) (Keygen.GenSt Nat Unit)) caps s (h : List (Event Nat (Keygen.End Unit Unit Nat))),
          ∀ o ∈ delivered L caps s h, Event.put o ∈ h := by
        intro L caps s h
        induction h generalizing s with
        | nil => simp [delivered]
        | cons e h ih =>
          intro o ho
          rw [delivered, List.mem_append] at ho
          rcases ho with ho | ho
          · cases e <;> simp only [deliveredBy, List.not_mem_nil] at ho
            split at ho
            · simp only [List.mem_singleton] at ho
              rw [ho]; simp
            · cases ho
          · exact List.mem_cons_of_mem _ (ih _ o ho)
      obtain ⟨o, ho⟩ := List.length_eq_one_iff.1 h3
      rw [ho]
      have := hsub _ _ _ _ o (by rw [ho]; simp)
      simp only [bad, List.mem_cons, reduceCtorEq, Event.put.injEq, List.not_mem_nil, or_false, false_or] at this
      rw [this]
    have := hall _ _ _ _ _ _ [] bad hs h1 ⟨by rw [hd]; simpa using message_regular, by rw [hn]; simp⟩ (by intro sch hsch; simp [bad] at hsch)
    have := (this ("KGRound3Message", none)).1
    rw [h2, hd] at this
    simp [Outgoing.shareIn, message, Outgoing.queueOf] at this

/-- a session of signing in which messages of peers can be decoded: one message to sign, three other members -/
def signEnv : LoopEnv Nat Nat := ⟨Spec.demoEnv {} 10 [11, 12, 13], ⟨1, [11, 12, 13], [(0, 10), (1, 11), (2, 12), (3, 13)], fun _ => ""⟩, fun _ => true⟩

/-- a signing call of member 0: whether it has returned, and how; who has reported the end of the task -/
def signed (h : List (Event Nat Sig)) : Option Bool × List Nat :=
  let s := run (signLoop signEnv 1) (signCaps 4 1) (signInit (TssCommon.newTssCommon (Spec.demoManager 0))) h
  (s.returned, s.loop.ses.finished)

/-- peer `p` reports the end of its task -/
def told (p : Nat) : Event Nat Sig := .message (.msg [5] p Spec.plain)

/-- C109: the call ends when all others have reported the end of their task, and not before; until then their messages are processed -/
example : signed [.started true, .deliver ⟨some [1], [], [], [], []⟩, told 11, .takeEnd, told 12, .graceDone, .inboundEnds, .ret, told 13] =
      (none, [11, 12, 13]) ∧
    signed [.started true, .deliver ⟨some [1], [], [], [], []⟩, told 11, .takeEnd, told 12, told 13, .graceDone, .inboundEnds, .ret, told 14] =
      (some true, [11, 12, 13]) := by decide +kernel

/-- C109: a session that is told to stop, or whose parties did not start, ends with an error, although a message waits in the channel; the two
results of two parties are both kept -/
example : signed [.started true, .put message, .takeStop, .ret] = (some false, []) ∧ signed [.started false, .put message, .takeErr, .ret] = (some false, []) ∧
    (run (signLoop signEnv 2) (signCaps 4 2) (signInit (TssCommon.newTssCommon (Spec.demoManager 0)))
      [.deliver ⟨some [1], [], [], [], []⟩, .takeEnd, .deliver ⟨some [2], [], [], [], []⟩]).endCh.length = 1 := by decide +kernel

/-- C109, limit: after a return with an error, messages of peers may still be processed, until the goroutine notices that it has to stop. -/
theorem c109_after_error : signed [.started false, .takeErr, .ret] = (some false, []) ∧
    signed [.started false, .takeErr, .ret, told 11] = (some false, [11]) ∧
    signed [.started false, .takeErr, .ret, .inboundEnds, told 11] = (some false, []) := by decide +kernel

end Demo

end Verif.Props.SessionCall
