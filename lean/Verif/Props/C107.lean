import Verif.Props.C94

/-!
# C107: the error of a failed key generation names what happened

`run env disk req h` is the Keygen call for `req` after the events `h`, started with the files `disk`.
-/
set_option linter.unusedSectionVars false
namespace Verif.Props.KeyGeneration
open Verif.Go Verif.Conversion Verif.Blame Verif.Server Verif.Session Verif.Keygen Verif.Spec.Keygen Verif.Spec.Server
open Verif.JoinParty hiding Event
open scoped List

variable {P S H L Pt A Q : Type} [DecidableEq P] [LinearOrder S] [LinearOrder H]
section
variable {env : KEnv P S H L Pt A Q} {req : Request} {id : String} {disk : Storage.Disk}

/-! ## specification -/

/-- Specification: the local party has produced a message in the events -/
def Produced (pre : List (LoopEvent P (End L A Q))) : Prop := ∃ sch o, LoopEvent.out sch o ∈ pre

/-- Specification: the write of the share `e` for the pool key `k` fails with an error -/
def WriteFails (env : KEnv P S H L Pt A Q) (keys : List Str) (d : Storage.Disk) (e : End L A Q) (k : Str) : Prop :=
  ∃ msg, (Storage.SaveLocalState env.base.storage (fun st : LocalState L => String.ofList st.pubKey) env.base.folder
    ⟨k, e.share, keys, env.ownKey⟩ e.fault d).2 = .err msg

/-- Specification: `x` is the error of an event that comes after the events `pre` -/
inductive Fault (env : KEnv P S H L Pt A Q) (keys : List Str) (d : Storage.Disk) (pre : List (LoopEvent P (End L A Q))) :
    LoopEvent P (End L A Q) → LoopErr → Prop
  | start : Fault env keys d pre .startFailed .start
  | stop : Fault env keys d pre .stop .exit
  | noMessage (sch : BlameSched P) : ¬ Produced pre → Fault env keys d pre (.timeout sch) .noMessage
  | timeout (sch : BlameSched P) : Produced pre → Fault env keys d pre (.timeout sch) .timeout
  | out (sch : OutBatch.Sched) (o : OutBatch.Output) : o.wire = none → Fault env keys d pre (.out sch o) .out
  | pubkey (e : End L A Q) : (∀ k, ¬ PoolKey env (env.pubOf e.share) k) → Fault env keys d pre (.done e) .pubkey
  | save (e : End L A Q) (k : Str) : PoolKey env (env.pubOf e.share) k → WriteFails env keys d e k → Fault env keys d pre (.done e) .save

/-- Specification: the history gives a reason for the error of the call: all keys are empty; a key cannot be decoded or the own key is not among
them; there are no pre-parameters; or, in the session of the formed party, an event which came while the session was running -/
def Reason (env : KEnv P S H L Pt A Q) (disk : Storage.Disk) (req : Request) (h : List (Event P L A Q)) : Err → Prop
  | .msgID => ∀ k ∈ req.keys, k = []
  | .parties => (∃ k ∈ req.keys, env.base.codec.dec k = none) ∨ env.ownKey ∉ req.keys
  | .threshold => False
  | .preParams => env.preParams = false
  | .loop x => ∃ id sch lenv mgr lh pre e post, HasId env req id ∧ PartyFormed env req id h ∧
      genSetup env sch id (sortedKeys req) = .run lenv mgr ∧ lh <+ loopEvents h ∧ lh = pre ++ e :: post ∧
      (genRun env lenv (sortedKeys req) (TssCommon.newTssCommon mgr) disk pre).result = none ∧
      Fault env (sortedKeys req) (genRun env lenv (sortedKeys req) (TssCommon.newTssCommon mgr) disk pre).disk pre e x

/-! ## the session -/

theorem produced_iff (lenv : LoopEnv Str P) (pre : List (LoopEvent P (End L A Q))) :
    Props.TimeoutVerdict.lastOut lenv pre ≠ none ↔ Produced pre := by
  unfold Props.TimeoutVerdict.lastOut Produced
  rw [Ne, List.getLast?_eq_none_iff, ← Ne]
  constructor
  · intro h
    obtain ⟨x, hx⟩ := List.exists_mem_of_ne_nil _ h
    obtain ⟨e, he, h2⟩ := List.mem_filterMap.1 hx
    cases e with
    | out sch o => exact ⟨sch, o, he⟩
    | _ => cases h2
  · rintro ⟨sch, o, h⟩ h0
    have : (o.type, lenv.isBroadcast o) ∈ ([] : List (String × Bool)) := h0 ▸ List.mem_filterMap.2 ⟨_, h, rfl⟩
    cases this

theorem processOutCh_err {lenv : LoopEnv Str P} {sch : OutBatch.Sched} {o : OutBatch.Output} {t : Messages.MsgType} {s : OutBatch.St P} :
    (∃ e, (OutBatch.ProcessOutCh lenv.out sch o t s).2 = .err e) ↔ o.wire = none := by
  unfold OutBatch.ProcessOutCh
  rcases o.wire with _ | ⟨data, r⟩
  · simp
  · dsimp only
    split
    · simp
    · split <;> simp

/-- the loop of key generation returns with an error exactly by an event that is a reason for it -/
theorem gen_error_step (lenv : LoopEnv Str P) (keys : List Str) (m₀ : Manager Str P) (hm : m₀.lastMsg = none) (lh : List (LoopEvent P (End L A Q)))
    (e : LoopEvent P (End L A Q)) (x : LoopErr) (hres : (genRun env lenv keys (TssCommon.newTssCommon m₀) disk lh).result = none)
    (hcr : (genRun env lenv keys (TssCommon.newTssCommon m₀) disk lh).crashed = false)
    (h : (genStep env lenv keys (genRun env lenv keys (TssCommon.newTssCommon m₀) disk lh) e).result = some (.error x)) :
    Fault env keys (genRun env lenv keys (TssCommon.newTssCommon m₀) disk lh).disk lh e x := by
  have hlast := (Props.TimeoutVerdict.gen_loop env lenv keys m₀ disk hm lh hcr).2.2 hres
  have hprod := produced_iff lenv lh
  rw [← hlast] at hprod
  generalize genRun env lenv keys (TssCommon.newTssCommon m₀) disk lh = s at *
  unfold genStep at h
  rw [if_neg (by simp [hcr])] at h
  cases e with
  | inbound e => dsimp only at h; rw [hres] at h; cases h
  | startFailed =>
    simp only [hres, Option.isSome_none, Bool.false_eq_true, if_false, Option.some.injEq, Except.error.injEq] at h
    subst h; exact .start
  | stop =>
    simp only [hres, Option.isSome_none, Bool.false_eq_true, if_false, Option.some.injEq, Except.error.injEq] at h
    subst h; exact .stop
  | timeout sch =>
    simp only [hres, Option.isSome_none, Bool.false_eq_true, if_false] at h
    split at h
    · rename_i hl
      simp only [Option.some.injEq, Except.error.injEq] at h
      subst h
      exact .noMessage sch (fun hp => hprod.2 hp hl)
    · rename_i hl
      have hp := hprod.1 (by rw [hl]; simp)
      split at h
      · simp only [Option.some.injEq, Except.error.injEq] at h
        subst h
        exact .timeout sch hp
      · cases h
  | out sch o =>
    simp only [hres, Option.isSome_none, Bool.false_eq_true, if_false] at h
    split at h
    · cases h
    · rename_i m hr
      simp only [Option.some.injEq, Except.error.injEq] at h
      subst h
      exact .out sch o (processOutCh_err.1 ⟨m, hr⟩)
    · cases h
  | done r =>
    simp only [hres, Option.isSome_none, Bool.false_eq_true, if_false] at h
    unfold genDone at h
    split at h
    · rename_i k a hk
      have hpk := ((pubKey_true _ _ _).1 hk).1
      dsimp only at h
      split at h
      · cases h
      · rename_i d m hs
        simp only [Option.some.injEq, Except.error.injEq] at h
        subst h
        exact .save r k hpk ⟨m, by rw [hs]⟩
      · rw [hres] at h; cases h
    · rename_i hn
      simp only [Option.some.injEq, Except.error.injEq] at h
      subst h
      exact .pubkey r (fun k hk => hn k _ ((pubKey_true _ _ _).2 ⟨hk, rfl⟩))

/-- the other direction: such an event ends the session with its error (a timeout whose evaluation panics excepted) -/
theorem gen_error_step' (lenv : LoopEnv Str P) (keys : List Str) (m₀ : Manager Str P) (hm : m₀.lastMsg = none) (lh : List (LoopEvent P (End L A Q)))
    (e : LoopEvent P (End L A Q)) (x : LoopErr) (hres : (genRun env lenv keys (TssCommon.newTssCommon m₀) disk lh).result = none)
    (hcr : (genRun env lenv keys (TssCommon.newTssCommon m₀) disk lh).crashed = false)
    (hf : Fault env keys (genRun env lenv keys (TssCommon.newTssCommon m₀) disk lh).disk lh e x) :
    (genStep env lenv keys (genRun env lenv keys (TssCommon.newTssCommon m₀) disk lh) e).result = some (.error x) ∨
    (∃ sch, e = .timeout sch) ∧ (genStep env lenv keys (genRun env lenv keys (TssCommon.newTssCommon m₀) disk lh) e).crashed = true := by
  have hlast := (Props.TimeoutVerdict.gen_loop env lenv keys m₀ disk hm lh hcr).2.2 hres
  have hprod := produced_iff lenv lh
  rw [← hlast] at hprod
  generalize genRun env lenv keys (TssCommon.newTssCommon m₀) disk lh = s at *
  unfold genStep
  rw [if_neg (by simp [hcr])]
  cases hf with
  | start => left; simp [hres]
  | stop => left; simp [hres]
  | noMessage sch hn =>
    left
    have : s.ses.mgr.lastMsg = none := by
      rcases hl : s.ses.mgr.lastMsg with _ | v
      · rfl
      · exact absurd (hprod.1 (by rw [hl]; simp)) hn
    simp [hres, this]
  | timeout sch hp =>
    obtain ⟨v, hl⟩ := Option.ne_none_iff_exists'.1 (hprod.2 hp)
    simp only [hres, Option.isSome_none, Bool.false_eq_true, if_false, hl]
    split
    · exact .inl rfl
    · exact .inr ⟨⟨sch, rfl⟩, rfl⟩
  | out sch o hw =>
    left
    simp [hres, OutBatch.ProcessOutCh, hw]
  | pubkey r hn =>
    left
    simp only [hres, Option.isSome_none, Bool.false_eq_true, if_false]
    unfold genDone
    split
    · rename_i k a hk
      exact absurd ((pubKey_true _ _ _).1 hk).1 (hn k)
    · rfl
  | save r k hk hw =>
    left
    obtain ⟨m, hw⟩ := hw
    have hpk := (pubKey_true (env := env) (env.pubOf r.share) k _).2 ⟨hk, rfl⟩
    simp only [hres, Option.isSome_none, Bool.false_eq_true, if_false]
    unfold genDone
    rw [hpk]
    dsimp only
    split
    · rename_i d u hs; rw [hs] at hw; cases hw
    · rfl
    · rename_i d hs; rw [hs] at hw; cases hw

/-- C107 for the session: it ends with the error `x` exactly if some event is a reason for `x` and came when the session was still running. -/
theorem c107_session_error (lenv : LoopEnv Str P) (keys : List Str) (m₀ : Manager Str P) (hm : m₀.lastMsg = none)
    (lh : List (LoopEvent P (End L A Q))) (x : LoopErr) :
    let s := fun l => genRun env lenv keys (TssCommon.newTssCommon m₀) disk l
    (s lh).result = some (.error x) ↔
      ∃ pre e post, lh = pre ++ e :: post ∧ (s pre).result = none ∧ (s pre).crashed = false ∧ Fault env keys (s pre).disk pre e x ∧
        ((∀ sch, e ≠ .timeout sch) ∨ (s (pre ++ [e])).crashed = false) := by
  intro s
  have hsnoc : ∀ l e, s (l ++ [e]) = genStep env lenv keys (s l) e := by
    intro l e
    show genRun _ _ _ _ _ _ = genStep _ _ _ (genRun _ _ _ _ _ _) _
    simp [genRun]
  have hkeep : ∀ (post pre : List (LoopEvent P (End L A Q))) r, (s pre).result = some r → (s (pre ++ post)).result = some r := by
    intro post
    induction post with
    | nil => intro pre r h; rw [List.append_nil]; exact h
    | cons e post ih =>
      intro pre r h
      have := ih (pre ++ [e]) r (by rw [hsnoc]; exact (genStep_ended lenv keys (s pre) e r h).1)
      rwa [List.append_assoc] at this
  constructor
  · intro h
    induction lh using List.reverseRecOn with
    | nil => cases h
    | append_singleton lh e ih =>
      rcases hres : (s lh).result with _ | r
      · rcases hcr : (s lh).crashed with _ | _
        · rw [hsnoc] at h
          refine ⟨lh, e, [], by simp, hres, hcr, gen_error_step lenv keys m₀ hm lh e x hres hcr h, ?_⟩
          rcases hc2 : (s (lh ++ [e])).crashed with _ | _
          · exact .inr rfl
          · left
            rintro sch rfl
            rw [hsnoc] at hc2
            unfold genStep at h hc2
            rw [if_neg (by simp [hcr])] at h hc2
            simp only [hres, Option.isSome_none, Bool.false_eq_true, if_false] at h hc2
            split at hc2
            · rw [hcr] at hc2; cases hc2
            · rename_i hl
              simp only [hl] at h
              split at hc2
              · rw [hcr] at hc2; cases hc2
              · rename_i hk
                split at h
                · rename_i hk'; exact hk _ hk'
                · cases h
        · rw [hsnoc] at h
          unfold genStep at h
          rw [if_pos hcr, hres] at h
          cases h
      · have := hkeep [e] lh r hres
        rw [h] at this
        cases this
        obtain ⟨pre, e', post, h1, h2⟩ := ih hres
        exact ⟨pre, e', post ++ [e], by rw [h1]; simp, h2⟩
  · rintro ⟨pre, e, post, rfl, h1, h2, h3, h4⟩
    have : (s (pre ++ [e])).result = some (.error x) := by
      rw [hsnoc]
      rcases gen_error_step' lenv keys m₀ hm pre e x h1 h2 h3 with h | ⟨⟨sch, he⟩, h⟩
      · exact h
      · rcases h4 with h4 | h4
        · exact absurd he (h4 sch)
        · rw [hsnoc] at h4; rw [show (s pre) = _ from rfl] at h4; rw [h] at h4; cases h4
    have := hkeep post (pre ++ [e]) _ this
    rwa [List.append_assoc] at this

/-! ## the call -/

theorem genSetup_error {sch : SetupSched P} {keys : List Str} {e : Err} (h : genSetup env sch id keys = .error e) :
    (e = .parties ∧ ((∃ k ∈ keys, env.base.codec.dec k = none) ∨ env.ownKey ∉ keys)) ∨ (e = .preParams ∧ env.preParams = false) := by
  unfold genSetup at h
  split at h
  · rename_i m hp
    cases h
    exact .inl ⟨rfl, (Conv.c03_parties_fails_iff _ _ _).1.1 ⟨m, hp⟩⟩
  · cases h
  · split at h
    · rename_i ht
      unfold Threshold.GetThreshold at ht
      rw [if_neg (by omega)] at ht
      cases ht
    · cases h
    · split at h
      · rename_i hpre
        cases h
        exact .inr ⟨rfl, hpre⟩
      · dsimp only at h
        split at h
        · split at h <;> cases h
        · cases h

theorem genSetup_fresh {sch : SetupSched P} {keys : List Str} {lenv : LoopEnv Str P} {mgr : Manager Str P}
    (h : genSetup env sch id keys = .run lenv mgr) : mgr.lastMsg = none := by
  unfold genSetup at h
  split at h
  · cases h
  · cases h
  · split at h
    · cases h
    · cases h
    · split at h
      · cases h
      · dsimp only at h
        split at h
        · split at h
          · rename_i mgr' hm
            cases h
            unfold Manager.setPartyInfo at hm
            split at hm
            · cases hm
            · cases hm; rfl
          · cases h
        · cases h

/-- C107: an error returned by Keygen names its reason. Without an id the request has only empty keys; an error of the set-up means a key that
cannot be decoded, a request without the own key, or missing pre-parameters; an error of the session is that of the event that ended it. -/
theorem c107_error_names_reason (h : List (Event P L A Q)) (resp : Response) (x : Err) (hr : (run env disk req h).ret = some (resp, some x)) :
    Reason env disk req h x := by
  have hkeys : ∀ k, k ∈ sortedKeys req ↔ k ∈ req.keys := fun k => (List.perm_insertionSort (· ≤ ·) req.keys).mem_iff
  by_cases hid : ∃ id, HasId env req id
  · obtain ⟨id, hid⟩ := hid
    have hi := inv_run (disk := disk) hid h
    generalize run env disk req h = s at hi hr
    cases hi with
    | done a d l hc =>
      cases hr
      generalize ha : (resp, some x) = a at hc
      have hfail : ∀ b, a = failed b none → False := by
        intro b hf
        rw [← ha] at hf
        cases hf
      cases hc with
      | noJoin out _ =>
        obtain ⟨b, hb⟩ := joinFailed_fail env (sortedKeys req) out
        exact (hfail b hb).elim
      | joinFailed jh leader r e _ _ =>
        obtain ⟨b, hb⟩ := joinFailed_fail env (sortedKeys req) ⟨some r.online, leader, some (.join e)⟩
        exact (hfail b hb).elim
      | setup sch e _ h2 =>
        cases ha
        rcases genSetup_error h2 with ⟨rfl, h3⟩ | ⟨rfl, h3⟩
        · show (∃ k ∈ req.keys, _) ∨ _
          simpa only [hkeys] using h3
        · exact h3
      | gaveUp sch _ _ => unfold success at ha; cases ha
      | generated lh st pt _ _ => unfold success at ha; split at ha <;> cases ha
      | session lh st e h1 h2 =>
        cases ha
        obtain ⟨g1, g2, sch, lenv, mgr, g3, rfl⟩ := h1
        obtain ⟨pre, ev, post, f1, f2, -, f4, -⟩ := (c107_session_error (env := env) (disk := disk) lenv (sortedKeys req) mgr (genSetup_fresh g3) lh e).1 h2
        exact ⟨id, sch, lenv, mgr, lh, pre, ev, post, hid, g2, g3, g1, f1, f2, f4⟩
    | _ => cases hr
  · have hn : ∀ id, ¬ HasId env req id := fun id h => hid ⟨id, h⟩
    rw [(refused hn h).1] at hr
    cases hr
    intro k hk
    by_contra hne
    refine hid ⟨env.base.shaID (MsgId.msgData (.keygen req.keys req.blockHeight req.version)), ?_⟩
    unfold HasId MsgId.requestToMsgId MsgId.MsgToHashString
    rw [if_neg]
    intro h0
    apply hne
    have h1 := List.length_eq_zero_iff.1 h0
    unfold MsgId.msgData at h1
    exact List.flatten_eq_nil_iff.1 h1 k ((hkeys k).2 hk)

end

/-! ## examples -/

/-- the call of the demo ends with each of these errors of a session -/
example :
    let err := fun l : List (LoopEvent Nat (End Unit Unit Nat)) => ((demo (answer [10, 11, 12, 13] .success ++ l.map .loop ++ [.finish])).ret.map fun a => a.2)
    err [.startFailed] = some (some (.loop .start)) ∧ err [.stop] = some (some (.loop .exit)) ∧
    err [.out ⟨Go.Shuffle.id _, Go.Shuffle.id _, fun _ => true⟩ ⟨"KGRound1Message", "", none⟩, .stop] = some (some (.loop .out)) ∧
    err [.timeout ⟨Go.Shuffle.id _, Go.Shuffle.id _, Go.Shuffle.id _, Go.Shuffle.id _, Go.Shuffle.id _, Go.Shuffle.id _, Go.Shuffle.id _,
      fun _ => Go.Shuffle.id _⟩] = some (some (.loop .noMessage)) ∧
    err [.done ⟨(), some .open_, Go.Shuffle.id _, [], none⟩] = some (some (.loop .save)) := by
  decide +kernel

/-- a request with empty keys only, and one without the key of the node -/
example : ((run (env 1) [] ⟨[[], []], 5, ['n']⟩ []).ret.map fun a => a.2) = some (some .msgID) := by decide +kernel

end Verif.Props.KeyGeneration
