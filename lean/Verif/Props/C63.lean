import Verif.Model.Timer
import Verif.Model.Keygen
import Verif.Spec.DemoSession
import Verif.Spec.DemoServer

/-! # C63: how long key generation and signing can take -/
set_option linter.unusedSectionVars false
namespace Verif.Props.Timing
open Verif.Go Verif.Conversion Verif.Session Verif.Timer Verif.Blame Verif.Keygen
open Verif.Server (Str)

section generic
variable {P R : Type}

/-- messages of the local party that were sent -/
def outs (h : List (Nat × LoopEvent P R)) : Nat := h.countP fun e => match e.2 with | .out _ _ => true | _ => false

/-- results of local parties -/
def dones (h : List (Nat × LoopEvent P R)) : Nat := h.countP fun e => match e.2 with | .done _ => true | _ => false

/-- the loop has been in its select `loops h` times -/
def loops (h : List (Nat × LoopEvent P R)) : Nat := h.countP fun e => !isInbound e.2

theorem timely_bound (T : Nat) : ∀ (h : List (Nat × LoopEvent P R)) (armed t : Nat) (e : LoopEvent P R), Timely T armed (h ++ [(t, e)]) →
    armed ≤ t ∧ t ≤ armed + (1 + loops h) * T
  | [], armed, t, e, hT => by
    obtain ⟨h0, h1, -, -⟩ := hT
    simp only [loops, List.countP_nil]
    omega
  | (t', e') :: h, armed, t, e, hT => by
    obtain ⟨h0, h1, -, h2⟩ := hT
    obtain ⟨h3, h4⟩ := timely_bound T h _ t e h2
    cases hi : isInbound e' with
    | true =>
      rw [hi, if_pos rfl] at h3 h4
      have : loops ((t', e') :: h) = loops h := by simp [loops, hi]
      rw [this]
      exact ⟨h3, h4⟩
    | false =>
      rw [hi, if_neg (by simp)] at h3 h4
      have : loops ((t', e') :: h) = loops h + 1 := by simp [loops, hi]
      rw [this]
      refine ⟨by omega, ?_⟩
      calc t ≤ t' + (1 + loops h) * T := h4
        _ ≤ armed + T + (1 + loops h) * T := by omega
        _ = armed + (1 + (loops h + 1)) * T := by ring

theorem timely_append (T : Nat) : ∀ (h h' : List (Nat × LoopEvent P R)) (armed : Nat), Timely T armed (h ++ h') → Timely T armed h
  | [], _, _, _ => trivial
  | _ :: h, h', _, ⟨h0, h1, h2, h3⟩ => ⟨h0, h1, h2, timely_append T h h' _ h3⟩

theorem outs_append (h : List (Nat × LoopEvent P R)) (x : Nat × LoopEvent P R) :
    outs (h ++ [x]) = outs h + outs [x] := by simp [outs]

theorem dones_append (h : List (Nat × LoopEvent P R)) (x : Nat × LoopEvent P R) : dones (h ++ [x]) = dones h + dones [x] := by simp [dones]

theorem loops_append (h : List (Nat × LoopEvent P R)) (x : Nat × LoopEvent P R) : loops (h ++ [x]) = loops h + loops [x] := by simp [loops]

theorem timely_mono (T : Nat) : ∀ (h : List (Nat × LoopEvent P R)) (armed t : Nat) (e : LoopEvent P R), Timely T armed (h ++ [(t, e)]) →
    isTimeout e = true → armed + T ≤ t
  | [], _, _, _, ⟨_, _, h2, _⟩, he => (h2 he).ge
  | (t', e') :: h, armed, t, e, ⟨h0, _, _, h3⟩, he => by
    have := timely_mono T h _ t e h3 he
    split at this <;> omega

end generic

section sign
variable {K P : Type} [DecidableEq K] [DecidableEq P] (env : LoopEnv K P) (reqNum : Nat) (ses : TssCommon.St K P)

theorem sign_running (h : List (Nat × LoopEvent P Sig)) (hr : (signRun env reqNum ses (untimed h)).result = none)
    (hc : (signRun env reqNum ses (untimed h)).crashed = false) :
    loops h = outs h + dones h ∧ (signRun env reqNum ses (untimed h)).sigs.length = dones h ∧ (0 < reqNum → dones h < reqNum) := by
  induction h using List.reverseRecOn with
  | nil => exact ⟨rfl, rfl, fun h => h⟩
  | append_singleton h x ih =>
    obtain ⟨t, e⟩ := x
    have hstep : signRun env reqNum ses (untimed (h ++ [(t, e)])) = signStep env reqNum (signRun env reqNum ses (untimed h)) e := by
      simp [signRun, untimed, List.foldl_append]
    rw [hstep] at hr hc ⊢
    rw [outs_append, dones_append, loops_append]
    generalize signRun env reqNum ses (untimed h) = s at ih hr hc ⊢
    unfold signStep at hr hc ⊢
    by_cases hcr : s.crashed = true
    · rw [if_pos hcr] at hc
      rw [hc] at hcr; cases hcr
    rw [if_neg hcr] at hr hc ⊢
    cases e with
    | inbound e =>
      obtain ⟨a, b, c⟩ := ih hr (by simpa using hcr)
      exact ⟨a, b, c⟩
    | startFailed =>
      dsimp only at hr hc
      split at hr
      · rename_i h'; rw [hr] at h'; cases h'
      · cases hr
    | stop =>
      dsimp only at hr hc
      split at hr
      · rename_i h'; rw [hr] at h'; cases h'
      · cases hr
    | timeout sch =>
      dsimp only at hr hc
      split at hr
      · rename_i h'; rw [hr] at h'; cases h'
      · rename_i h'
        rw [if_neg h'] at hc
        split at hr
        · cases hr
        · rename_i hx
          split at hc
          · rename_i m hm
            exact absurd hm (hx m)
          · cases hc
    | out sch o =>
      dsimp only at hr hc ⊢
      split at hr
      · rename_i h'; rw [hr] at h'; cases h'
      · rename_i h'
        rw [if_neg h'] at hc ⊢
        generalize OutBatch.ProcessOutCh env.out sch o Messages.TSSKeySignMsg s.out = q at hr hc ⊢
        obtain ⟨q1, q2⟩ := q
        cases q2 with
        | ok u =>
          dsimp only at hr hc ⊢
          obtain ⟨a, b, c⟩ := ih hr (by simpa using hcr)
          refine ⟨?_, ?_, fun h => ?_⟩
          · simp [loops, outs, dones, isInbound] at a ⊢; omega
          · rw [b]; simp [dones]
          · have := c h; simpa [dones] using this
        | err e => cases hr
        | panic => cases hc
    | done sig =>
      dsimp only at hr hc ⊢
      split at hr
      · rename_i h'; rw [hr] at h'; cases h'
      · rename_i h'
        rw [if_neg h'] at hc ⊢
        split at hr
        · cases hr
        · rename_i hl
          rw [if_neg hl] at hc ⊢
          obtain ⟨a, b, c⟩ := ih hr (by simpa using hcr)
          have h1 : dones [(t, (LoopEvent.done sig : LoopEvent P Sig))] = 1 := by simp [dones]
          have h2 : loops [(t, (LoopEvent.done sig : LoopEvent P Sig))] = 1 := by simp [loops, isInbound]
          have h3 : outs [(t, (LoopEvent.done sig : LoopEvent P Sig))] = 0 := by simp [outs]
          rw [h1, h2, h3]
          rw [List.length_append, List.length_singleton, b] at hl
          refine ⟨by omega, by rw [List.length_append, List.length_singleton, b], fun h => ?_⟩
          have := c h
          omega

/-- C63, what holds for signing `reqNum` messages: whatever happens to the loop while it runs happens within `reqNum + outs` times the
configured time, where `outs` is the number of messages that the local parties have sent before. -/
theorem c63_sign_partial (T t₀ : Nat) (hn : 0 < reqNum) (h : List (Nat × LoopEvent P Sig)) (t : Nat) (e : LoopEvent P Sig)
    (hT : Timely T t₀ (h ++ [(t, e)])) (hr : (signRun env reqNum ses (untimed h)).result = none)
    (hc : (signRun env reqNum ses (untimed h)).crashed = false) : t ≤ t₀ + (reqNum + outs h) * T := by
  obtain ⟨h1, -, h3⟩ := sign_running env reqNum ses h hr hc
  refine (timely_bound T h t₀ t e hT).2.trans ?_
  have : 1 + loops h ≤ reqNum + outs h := by have := h3 hn; omega
  exact Nat.add_le_add_left (Nat.mul_le_mul_right T this) _

/-- C63: if the local parties send nothing and deliver nothing, the loop ends within the configured time. -/
theorem c63_sign_silent (T t₀ : Nat) (h : List (Nat × LoopEvent P Sig)) (t : Nat) (e : LoopEvent P Sig)
    (hT : Timely T t₀ (h ++ [(t, e)])) (hr : (signRun env reqNum ses (untimed h)).result = none)
    (hc : (signRun env reqNum ses (untimed h)).crashed = false) (ho : outs h = 0) (hd : dones h = 0) : t ≤ t₀ + T := by
  obtain ⟨h1, -, -⟩ := sign_running env reqNum ses h hr hc
  have := (timely_bound T h t₀ t e hT).2
  rw [h1, ho, hd] at this
  omega

/-- C63: a signing does not give up early: it fails with a timeout only when the configured time has passed since its start. -/
theorem c63_sign_not_early (T t₀ : Nat) (h : List (Nat × LoopEvent P Sig)) (t : Nat) (e : LoopEvent P Sig) (hT : Timely T t₀ (h ++ [(t, e)]))
    (hr : (signRun env reqNum ses (untimed h)).result = none)
    (hr' : (signRun env reqNum ses (untimed (h ++ [(t, e)]))).result = some (.error .timeout)) : t₀ + T ≤ t := by
  refine timely_mono T h t₀ t e hT ?_
  have hstep : signRun env reqNum ses (untimed (h ++ [(t, e)])) = signStep env reqNum (signRun env reqNum ses (untimed h)) e := by
    simp [signRun, untimed, List.foldl_append]
  rw [hstep] at hr'
  generalize signRun env reqNum ses (untimed h) = s at hr hr'
  unfold signStep at hr'
  split at hr'
  · rw [hr] at hr'; cases hr'
  cases e with
  | timeout sch => rfl
  | inbound e => dsimp only at hr'; rw [hr] at hr'; cases hr'
  | startFailed => simp [hr] at hr'
  | stop => simp [hr] at hr'
  | out sch o =>
    simp only [hr, Option.isSome_none, Bool.false_eq_true, if_false] at hr'
    split at hr' <;> simp [hr] at hr'
  | done sig =>
    simp only [hr, Option.isSome_none, Bool.false_eq_true, if_false] at hr'
    split at hr' <;> simp [hr] at hr'

end sign

section gen
variable {P S H L Pt A Q : Type} [DecidableEq P] [LinearOrder S] [LinearOrder H]
variable (env : KEnv P S H L Pt A Q) (lenv : LoopEnv Str P) (keys : List Str) (ses : TssCommon.St Str P) (disk : Storage.Disk)

theorem gen_running (h : List (Nat × LoopEvent P (End L A Q))) (hr : (genRun env lenv keys ses disk (untimed h)).result = none)
    (hc : (genRun env lenv keys ses disk (untimed h)).crashed = false) : loops h = outs h := by
  induction h using List.reverseRecOn with
  | nil => rfl
  | append_singleton h x ih =>
    obtain ⟨t, e⟩ := x
    have hstep : genRun env lenv keys ses disk (untimed (h ++ [(t, e)])) = genStep env lenv keys (genRun env lenv keys ses disk (untimed h)) e := by
      simp [genRun, untimed, List.foldl_append]
    rw [hstep] at hr hc
    rw [outs_append, loops_append]
    generalize genRun env lenv keys ses disk (untimed h) = s at ih hr hc
    unfold genStep at hr hc
    by_cases hcr : s.crashed = true
    · rw [if_pos hcr] at hc
      rw [hc] at hcr; cases hcr
    rw [if_neg hcr] at hr hc
    cases e with
    | inbound e => exact ih hr (by simpa using hcr)
    | startFailed =>
      dsimp only at hr hc
      split at hr
      · rename_i h'; rw [hr] at h'; cases h'
      · cases hr
    | stop =>
      dsimp only at hr hc
      split at hr
      · rename_i h'; rw [hr] at h'; cases h'
      · cases hr
    | timeout sch =>
      dsimp only at hr hc
      split at hr
      · rename_i h'; rw [hr] at h'; cases h'
      · rename_i h'
        rw [if_neg h'] at hc
        split at hr
        · cases hr
        · rename_i hl
          rw [hl] at hc
          dsimp only at hc
          split at hr
          · cases hr
          · rename_i hx
            split at hc
            · rename_i m hm
              exact absurd hm (hx m)
            · cases hc
    | out sch o =>
      dsimp only at hr hc
      split at hr
      · rename_i h'; rw [hr] at h'; cases h'
      · rename_i h'
        rw [if_neg h'] at hc
        generalize OutBatch.ProcessOutCh lenv.out sch o Messages.TSSKeyGenMsg s.out = q at hr hc
        obtain ⟨q1, q2⟩ := q
        cases q2 with
        | ok u =>
          dsimp only at hr hc
          have a := ih hr (by simpa using hcr)
          simp [loops, outs, isInbound] at a ⊢; omega
        | err e => cases hr
        | panic => cases hc
    | done r =>
      dsimp only at hr hc
      split at hr
      · rename_i h'; rw [hr] at h'; cases h'
      · rename_i h'
        rw [if_neg h'] at hc
        unfold genDone at hr hc
        generalize Keygen.GetTssPubKey env (some (env.pubOf r.share)) = k at hr hc
        obtain ⟨k1, k2, k3⟩ := k
        cases k3 with
        | false => cases hr
        | true =>
          dsimp only at hr hc
          generalize Storage.SaveLocalState env.base.storage _ env.base.folder _ r.fault s.disk = q at hr hc
          obtain ⟨q1, q2⟩ := q
          cases q2 with
          | ok u => cases hr
          | err e => cases hr
          | panic => cases hc

/-- C63, what holds for key generation: whatever happens to the loop while it runs happens within `1 + outs` times the configured time,
where `outs` is the number of messages that the local party has sent before. -/
theorem c63_keygen_partial (T t₀ : Nat) (h : List (Nat × LoopEvent P (End L A Q))) (t : Nat) (e : LoopEvent P (End L A Q))
    (hT : Timely T t₀ (h ++ [(t, e)])) (hr : (genRun env lenv keys ses disk (untimed h)).result = none)
    (hc : (genRun env lenv keys ses disk (untimed h)).crashed = false) : t ≤ t₀ + (1 + outs h) * T := by
  have h1 := gen_running env lenv keys ses disk h hr hc
  have := (timely_bound T h t₀ t e hT).2
  rwa [h1] at this

/-- C63: a key generation does not give up early: it fails with a timeout, or because its time is up before its local party has produced a message,
only when the configured time has passed since its start. -/
theorem c63_keygen_not_early (T t₀ : Nat) (h : List (Nat × LoopEvent P (End L A Q))) (t : Nat) (e : LoopEvent P (End L A Q))
    (hT : Timely T t₀ (h ++ [(t, e)])) (hr : (genRun env lenv keys ses disk (untimed h)).result = none)
    (hr' : (genRun env lenv keys ses disk (untimed (h ++ [(t, e)]))).result = some (.error .timeout) ∨
      (genRun env lenv keys ses disk (untimed (h ++ [(t, e)]))).result = some (.error .noMessage)) : t₀ + T ≤ t := by
  refine timely_mono T h t₀ t e hT ?_
  have hstep : genRun env lenv keys ses disk (untimed (h ++ [(t, e)])) = genStep env lenv keys (genRun env lenv keys ses disk (untimed h)) e := by
    simp [genRun, untimed, List.foldl_append]
  rw [hstep] at hr'
  generalize genRun env lenv keys ses disk (untimed h) = s at hr hr'
  unfold genStep at hr'
  split at hr'
  · rw [hr] at hr'; rcases hr' with h | h <;> cases h
  cases e with
  | timeout sch => rfl
  | inbound e => dsimp only at hr'; rw [hr] at hr'; rcases hr' with h | h <;> cases h
  | startFailed => simp [hr] at hr'
  | stop => simp [hr] at hr'
  | out sch o =>
    simp only [hr, Option.isSome_none, Bool.false_eq_true, if_false] at hr'
    split at hr' <;> simp [hr] at hr'
  | done r =>
    simp only [hr, Option.isSome_none, Bool.false_eq_true, if_false] at hr'
    unfold genDone at hr'
    split at hr'
    · dsimp only at hr'
      split at hr' <;> simp [hr] at hr'
    · simp at hr'

end gen

/-! ## The literal claim is false -/

/-- a broadcast of the local party that can be sent -/
def share : OutBatch.Output := ⟨"R", "m", some ([], ⟨none, [], true⟩)⟩

/-- visiting orders -/
def osched : OutBatch.Sched := ⟨Shuffle.id _, Shuffle.id _, fun _ => true⟩

/-- `n` messages of the local party, one every `T` -/
def slow (R : Type) (P : Type) (T : Nat) : Nat → Nat → List (Nat × LoopEvent P R)
  | _, 0 => []
  | t, n + 1 => (t + T, .out osched share) :: slow R P T (t + T) n

theorem slow_timely {R P : Type} (T : Nat) : ∀ n t, Timely (P := P) (R := R) T t (slow R P T t n)
  | 0, _ => trivial
  | n + 1, t => ⟨by omega, le_refl _, (fun h => by cases h), slow_timely T n (t + T)⟩

theorem slow_times {R P : Type} (T : Nat) : ∀ n t, (n = 0 ∨ ∃ e, (t + n * T, e) ∈ slow R P T t n)
  | 0, _ => .inl rfl
  | n + 1, t => by
    right
    rcases slow_times (R := R) (P := P) T n (t + T) with rfl | ⟨e, he⟩
    · exact ⟨_, by rw [zero_add, one_mul]; exact List.mem_cons_self⟩
    · exact ⟨e, List.mem_cons_of_mem _ (by rw [show t + (n + 1) * T = t + T + n * T by ring]; exact he)⟩

theorem slow_untimed {R P : Type} (T : Nat) : ∀ n t, untimed (slow R P T t n) = List.replicate n (.out osched share)
  | 0, _ => rfl
  | n + 1, t => by
    rw [slow, untimed, List.map_cons]
    exact congrArg _ (slow_untimed T n (t + T))

/-- C63 is false for signing: for any configured time and any bound, in any session, a signing loop can still be running after the bound, when
its local parties send a message every now and then. -/
theorem c63_sign_unbounded {K P : Type} [DecidableEq K] [DecidableEq P] (env : LoopEnv K P) (reqNum : Nat) (ses : TssCommon.St K P)
    (T t₀ bound : Nat) (hT : 0 < T) :
    ∃ h : List (Nat × LoopEvent P Sig), Timely T t₀ h ∧ (∃ x ∈ h, t₀ + bound < x.1) ∧ (signRun env reqNum ses (untimed h)).result = none ∧
      (signRun env reqNum ses (untimed h)).crashed = false := by
  refine ⟨slow Sig P T t₀ (bound + 1), slow_timely T _ _, ?_, ?_⟩
  · rcases slow_times (R := Sig) (P := P) T (bound + 1) t₀ with h | ⟨e, he⟩
    · omega
    · refine ⟨_, he, ?_⟩
      have : bound + 1 ≤ (bound + 1) * T := Nat.le_mul_of_pos_right _ hT
      simp only
      omega
  · rw [slow_untimed]
    generalize bound + 1 = n
    have : ∀ (n : Nat) (s : SignSt K P), s.result = none → s.crashed = false →
        ((List.replicate n (.out osched share)).foldl (signStep env reqNum) s).result = none ∧
          ((List.replicate n (.out osched share)).foldl (signStep env reqNum) s).crashed = false := by
      intro n
      induction n with
      | zero => exact fun s h1 h2 => ⟨h1, h2⟩
      | succ n ih =>
        intro s h1 h2
        rw [List.replicate_succ, List.foldl_cons]
        apply ih
        · simp [signStep, h1, h2, OutBatch.ProcessOutCh, share]
        · simp [signStep, h1, h2, OutBatch.ProcessOutCh, share]
    exact this n _ rfl rfl

/-- C63 is false for key generation: for any configured time and any bound, a key generation loop can still be running after the bound. -/
theorem c63_keygen_unbounded {P S H L Pt A Q : Type} [DecidableEq P] [LinearOrder S] [LinearOrder H]
    (env : KEnv P S H L Pt A Q) (lenv : LoopEnv Str P) (keys : List Str) (ses : TssCommon.St Str P) (disk : Storage.Disk)
    (T t₀ bound : Nat) (hT : 0 < T) :
    ∃ h : List (Nat × LoopEvent P (End L A Q)), Timely T t₀ h ∧ (∃ x ∈ h, t₀ + bound < x.1) ∧
      (genRun env lenv keys ses disk (untimed h)).result = none ∧ (genRun env lenv keys ses disk (untimed h)).crashed = false := by
  refine ⟨slow (End L A Q) P T t₀ (bound + 1), slow_timely T _ _, ?_, ?_⟩
  · rcases slow_times (R := End L A Q) (P := P) T (bound + 1) t₀ with h | ⟨e, he⟩
    · omega
    · refine ⟨_, he, ?_⟩
      have : bound + 1 ≤ (bound + 1) * T := Nat.le_mul_of_pos_right _ hT
      simp only
      omega
  · rw [slow_untimed]
    generalize bound + 1 = n
    have : ∀ (n : Nat) (s : GenSt P Pt), s.result = none → s.crashed = false →
        ((List.replicate n (.out osched share)).foldl (genStep env lenv keys) s).result = none ∧
          ((List.replicate n (.out osched share)).foldl (genStep env lenv keys) s).crashed = false := by
      intro n
      induction n with
      | zero => exact fun s h1 h2 => ⟨h1, h2⟩
      | succ n ih =>
        intro s h1 h2
        rw [List.replicate_succ, List.foldl_cons]
        apply ih
        · simp [genStep, h1, h2, OutBatch.ProcessOutCh, share]
        · simp [genStep, h1, h2, OutBatch.ProcessOutCh, share]
    exact this n _ rfl rfl

/-- the hypotheses of the bounds are met by a loop that sends two messages and then runs into its timer -/
example (sch : BlameSched Nat) : Timely (P := Nat) (R := Sig) 10 0 [(4, .out osched share), (13, .out osched share), (23, .timeout sch)] := by
  simp [Timely, isInbound, isTimeout]

/-- the hypotheses of `c63_keygen_not_early` are met by a local party that sends nothing until the timer fires -/
example (ses : TssCommon.St Str Nat) (hs : ses.mgr.lastMsg = none) (lenv : LoopEnv Str Nat) (env : KEnv Nat Nat Nat Unit Unit Unit Nat) (sch : BlameSched Nat) :
    Timely (P := Nat) (R := End Unit Unit Nat) 10 0 ([] ++ [(10, .timeout sch)]) ∧
    (genRun env lenv [] ses [] (untimed ([] ++ [(10, .timeout sch)]))).result = some (.error .noMessage) := by
  constructor
  · simp [Timely, isInbound, isTimeout]
  · simp [genRun, untimed, genStep, genInit, hs]

end Verif.Props.Timing
