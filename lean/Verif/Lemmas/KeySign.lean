import Verif.Spec.KeySign
import Verif.Props.C47_C48
import Verif.Props.C46

/-!
# The invariant of a KeySign call
-/
set_option linter.unusedSectionVars false
namespace Verif.KeySign
open Verif.Go Verif.Conversion Verif.Blame Verif.JoinParty Verif.Server Verif.Session Verif.Spec.KeySign Verif.Props
open scoped List

variable {P S H L : Type} [DecidableEq P] [LinearOrder S] [LinearOrder H]

/-- what is known when the generating goroutine has ended with answer `a` -/
inductive GenOutcome (env : Env P S H L) (req : Request) (task : Job L) (old : Bool) (hist : List (Event P)) (effects : List (Effect P)) : Answer → Prop
  | peers : (∀ l, GetPeerIDsFromPubKeys env.codec task.state.participantKeys ≠ .ok l) →
      GenOutcome env req task old hist effects (failed (NewBlame InternalError []))
  | notSigner : old = true → ¬ OwnKeyAmongSigners env task → GenOutcome env req task old hist effects (zero, some .notActive)
  | noJoin (gs : Groups P) (out : JoinOut P) (e : JErr) : Event.genStart gs ∈ hist → (old = true → OwnKeyAmongSigners env task) →
      joinParty env gs task.msgID req.version req.blockHeight (participants old task) task.threshold = .error out → out.err = some e →
      GenOutcome env req task old hist effects (joinFailed env task.signers out e).1
  | joinFailed (jh : List (JoinParty.Event P)) (c : JoinCall P) (out : JoinOut P) (e : JErr) : JoinRun env req task old hist jh c →
      c.out = some out → out.err = some e → GenOutcome env req task old hist effects (joinFailed env task.signers out e).1
  | notOnline (online : List P) : PartyFormed env req task old hist online → env.me ∉ online →
      GenOutcome env req task old hist effects (zero, some .notActive)
  | badKeys (online : List P) : PartyFormed env req task old hist online → env.me ∈ online →
      (∀ l, GetPubKeysFromPeerIDs env.codec online ≠ .ok l) → GenOutcome env req task old hist effects (failed (NewBlame "" []))
  | setupFailed (online : List P) (signers : List Str) (sch : SetupSched P) : Member env req task old hist online signers →
      signSetup env sch task signers = .error → GenOutcome env req task old hist effects (failed (NewBlame "" []))
  | failed (lh : List (LoopEvent P Sig)) (st : SignSt Str P) (e : LoopErr) : SessionRun env req task old hist lh st → st.result = some (.error e) →
      GenOutcome env req task old hist effects (failed st.ses.mgr.blame)
  | signed (results l : List Sig) (r : Response) : Generated env req task old hist results → l = sortResults results →
      batchSignatures l task.msgs = some r → Effect.broadcastSigs l (poolPeers env task) ∈ effects → GenOutcome env req task old hist effects (r, none)
  | gaveUp : GaveUp env req task old hist → Effect.broadcastSigs [] (poolPeers env task) ∈ effects →
      GenOutcome env req task old hist effects (⟨[], .success, NewBlame "" []⟩, none)

/-- what is known of a continuation after the send -/
inductive AfterInv (env : Env P S H L) (req : Request) (task : Job L) (old : Bool) (hist : List (Event P)) : After P → Prop
  | badKeys (online : List P) : PartyFormed env req task old hist online → env.me ∈ online →
      (∀ l, GetPubKeysFromPeerIDs env.codec online ≠ .ok l) → AfterInv env req task old hist .badKeys
  | setupFailed (online : List P) (signers : List Str) (sch : SetupSched P) : Member env req task old hist online signers →
      signSetup env sch task signers = .error → AfterInv env req task old hist .setupFailed
  | failed (lenv : LoopEnv Str P) (lh : List (LoopEvent P Sig)) (st : SignSt Str P) (e : LoopErr) (online : List P) (signers : List Str)
      (sch : SetupSched P) (mgr : Manager Str P) : lh <+ signEvents hist → Member env req task old hist online signers →
      signSetup env sch task signers = .run lenv mgr → st = signRun lenv task.msgs.length (TssCommon.newTssCommon mgr) lh →
      st.result = some (.error e) → AfterInv env req task old hist (.failed lenv st)
  | signed (results : List Sig) : Generated env req task old hist results → AfterInv env req task old hist (.signed (sortResults results))
  | gaveUp : GaveUp env req task old hist → AfterInv env req task old hist (.signed [])

/-- what is known of the generating goroutine -/
inductive GenInv (env : Env P S H L) (req : Request) (task : Job L) (old : Bool) (hist : List (Event P)) (received : Prop) (effects : List (Effect P)) : Gen P → Prop
  | start : GenInv env req task old hist received effects .start
  | joining (jh : List (JoinParty.Event P)) (c : JoinCall P) : JoinRun env req task old hist jh c →
      (∀ x, JoinParty.Event.sig x ∈ jh → x = "signature received" ∧ received) → GenInv env req task old hist received effects (.joining c)
  | signing (lenv : LoopEnv Str P) (lh : List (LoopEvent P Sig)) (st : SignSt Str P) (online : List P) (signers : List Str)
      (sch : SetupSched P) (mgr : Manager Str P) : lh <+ signEvents hist → Member env req task old hist online signers →
      signSetup env sch task signers = .run lenv mgr → st = signRun lenv task.msgs.length (TssCommon.newTssCommon mgr) lh →
      GenInv env req task old hist received effects (.signing lenv st)
  | send (k : After P) : AfterInv env req task old hist k → GenInv env req task old hist received effects (.send k)
  | finish (k : After P) : AfterInv env req task old hist k → GenInv env req task old hist received effects (.finish k)
  | done (a : Answer) : GenOutcome env req task old hist effects a → (a.2 = some .signReceived → received) →
      GenInv env req task old hist received effects (.done a)

/-- the waiter got signatures and gives response `r` -/
def Received (nenv : SigNotifier.Env) (req : Request) (task : Job L) (nh : List SigNotifier.Event) (r : Response) : Prop :=
  ∃ d, Notified.GoodAnswer nenv nh (task.msgID, task.msgs, String.ofList req.poolPubKey) d ∧ batchSignatures d task.msgs = some r

/-- the waiter has sent -/
def Waiter.sent : Waiter → Prop
  | .done (some _) => True
  | _ => False

/-- the number of values the waiter may have sent -/
def Waiter.count : Waiter → Nat
  | .done (some _) => 1
  | _ => 0

/-- has the generating goroutine passed its send? -/
def Gen.count : Gen P → Nat
  | .finish _ | .done _ => 1
  | _ => 0

/-- what is known of the waiter -/
inductive WaiterInv (nenv : SigNotifier.Env) (req : Request) (task : Job L) (nh : List SigNotifier.Event) (nt : SigNotifier.St) : Waiter → Prop
  | start : WaiterInv nenv req task nh nt .start
  | waiting (w : Nat) : (Notified.waitsOf nh)[w]? = some (task.msgID, task.msgs, String.ofList req.poolPubKey) →
      WaiterInv nenv req task nh nt (.waiting w)
  | send (r : Response) : Received nenv req task nh r → WaiterInv nenv req task nh nt (.send r)
  | got (r : Response) : Received nenv req task nh r → WaiterInv nenv req task nh nt (.done (some r))
  | failed : WaiterInv nenv req task nh nt (.done none)

/-- why the program crashed: in the notifier, in the set-up of the session or in the session -/
def Why (env : Env P S H L) (req : Request) (task : Job L) (old : Bool) (hist : List (Event P)) (nt : SigNotifier.St) : Prop :=
  nt.crashed = true ∨
  (∃ (online : List P) (signers : List Str) (sch : SetupSched P), Member env req task old hist online signers ∧
    signSetup env sch task signers = .panic) ∨
  ∃ (lh : List (LoopEvent P Sig)) (st : SignSt Str P), SessionRun env req task old hist lh st ∧ st.crashed = true

/-- the invariant; `nh` is the history of the notifier -/
structure Inv (env : Env P S H L) (nenv : SigNotifier.Env) (req : Request) (task : Job L) (old : Bool) (hist : List (Event P)) (nh : List SigNotifier.Event)
    (s : St P) : Prop where
  nt : s.nt = SigNotifier.run nenv nh
  alive : s.crashed = false → s.nt.crashed = false
  why : s.crashed = true → Why env req task old hist s.nt
  waiter : WaiterInv nenv req task nh s.nt s.waiter
  gen : GenInv env req task old hist s.waiter.sent s.effects s.gen
  count : s.sends.length ≤ s.waiter.count + s.gen.count
  nodup : s.sends.Nodup
  bufLen : s.buf.length ≤ s.sends.length
  bufSub : ∀ x ∈ s.buf, x ∈ s.sends
  sends : ∀ x ∈ s.sends, x = "signature received" ∧ s.waiter.sent ∨ x = "signature generated" ∧ s.gen.count = 1
  sentMem : s.waiter.sent → "signature received" ∈ s.sends
  closed : s.closed = s.ret.isSome
  ret : ∀ a, s.ret = some a → ∃ w g, s.waiter = .done w ∧ s.gen = .done g ∧ a = decision w g
  effSign : ∀ online, Effect.signing online ∈ s.effects → ∃ signers, Member env req task old hist online signers
  effJoin : Effect.joining ∈ s.effects → ∃ jh c, JoinRun env req task old hist jh c
  effSigs : ∀ l ps, Effect.broadcastSigs l ps ∈ s.effects → ∃ r, s.gen = .done (r, none) ∧ batchSignatures l task.msgs = some r ∧
    (l = [] ∧ GaveUp env req task old hist ∨ ∃ results, Generated env req task old hist results ∧ l = sortResults results)
  effFail : ∀ ps, Effect.broadcastFailure ps ∈ s.effects → ∃ b, s.gen = .done (failed b)
  effMetric : s.effects.filter (fun e => match e with | .metric _ => true | _ => false) =
    (s.ret.map fun a => Effect.metric (decide (a.1.status = .success))).toList

/-! ## Preparations -/

theorem batchLoop_eq (sigs : List Sig) (msgs : List Bytes) (entries : List Signature) :
    batchLoop sigs msgs = some entries ↔ Entries sigs msgs entries := by
  induction sigs generalizing msgs entries with
  | nil => simp [batchLoop, Entries, eq_comm]
  | cons s sigs ih =>
    rcases msgs with _ | ⟨m, ms⟩
    · simp [batchLoop, Entries]
    · simp only [batchLoop, Option.map_eq_some_iff, Entries, List.length_cons, List.zipWith_cons_cons, Nat.add_le_add_iff_right]
      constructor
      · rintro ⟨l, h, rfl⟩
        obtain ⟨h1, h2⟩ := (ih _ _).1 h
        exact ⟨h1, by rw [h2]⟩
      · rintro ⟨h1, rfl⟩
        exact ⟨_, (ih _ _).2 ⟨h1, rfl⟩, rfl⟩

theorem batch_some (sigs : List Sig) (msgs : List Bytes) (h : sigs.length ≤ msgs.length) : ∃ r, batchSignatures sigs msgs = some r := by
  have := (batchLoop_eq sigs msgs _).2 ⟨h, rfl⟩
  exact ⟨_, by rw [batchSignatures, this]; rfl⟩

/-- a signing session that delivered has delivered one result for each message -/
theorem generated_length {env : Env P S H L} {req : Request} {task : Job L} {old : Bool} {hist : List (Event P)} {results : List Sig}
    (h : Generated env req task old hist results) : results.length = task.msgs.length := by
  obtain ⟨lh, st, ⟨-, online, signers, sch, lenv, mgr, -, -, rfl⟩, hr⟩ := h
  exact ((Signing.signRun_prefix lenv task.msgs.length _ lh).2.2 results hr).2

theorem sortResults_length (l : List Sig) : (sortResults l).length = l.length := by
  rw [Signing.sortResults_eq]
  exact (GoSort.sliceStable_perm _ _).length_eq

theorem joinFailed_ne (env : Env P S H L) (signers : List Str) (out : JoinOut P) (e : JErr) :
    ((joinFailed env signers out e).1.2 = some .signReceived → e = .join .signReceived) ∧
    ((joinFailed env signers out e).2 = true → ∃ b, (joinFailed env signers out e).1 = failed b) := by
  unfold joinFailed
  split
  · rename_i h; exact ⟨fun _ => h, fun h => (by cases h)⟩
  · split
    · split
      · exact ⟨fun h => (by cases h), fun _ => ⟨_, rfl⟩⟩
      · exact ⟨fun h => (by cases h), fun _ => ⟨_, rfl⟩⟩
    · exact ⟨fun h => (by cases h), fun _ => ⟨_, rfl⟩⟩

theorem joinParty_error {env : Env P S H L} {gs : Groups P} {msgID : String} {version : Str} {bh : Int} {parts : List Str} {t : Int}
    {out : JoinOut P} (h : joinParty env gs msgID version bh parts t = .error out) : out.err = some .before ∧ out.online = none := by
  unfold joinParty startJoin at h
  repeat' split at h
  all_goals cases h
  all_goals exact ⟨rfl, rfl⟩

theorem joinParty_start {env : Env P S H L} {gs : Groups P} {msgID : String} {version : Str} {bh : Int} {parts : List Str} {t : Int}
    {c : JoinCall P} (h : joinParty env gs msgID version bh parts t = .ok c) : c.st.sigNotify = "" ∧ c.st.result = none := by
  unfold joinParty startJoin at h
  repeat' split at h
  all_goals cases h
  all_goals exact ⟨rfl, rfl⟩

/-- "signature received" is reported only after it was taken from the channel -/
theorem join_sig (env : Env P S H L) (c₀ : JoinCall P) (h0 : c₀.st.sigNotify = "") (h1 : c₀.st.result = none)
    (jh : List (JoinParty.Event P)) :
    ((jh.foldl (JoinCall.step env) c₀).st.sigNotify = "signature received" → JoinParty.Event.sig "signature received" ∈ jh) ∧
    (∀ r, (jh.foldl (JoinCall.step env) c₀).st.result = some r → r.err = some .signReceived →
      JoinParty.Event.sig "signature received" ∈ jh) := by
  induction jh using List.reverseRecOn with
  | nil => simp [h0, h1]
  | append_singleton jh e ih =>
    rw [List.foldl_append]
    simp only [List.foldl_cons, List.foldl_nil]
    generalize jh.foldl (JoinCall.step env) c₀ = c at ih
    obtain ⟨i1, i2⟩ := ih
    have i1' : c.st.sigNotify = "signature received" → JoinParty.Event.sig "signature received" ∈ jh ++ [e] := fun h => by simp [i1 h]
    have i2' : ∀ r, c.st.result = some r → r.err = some .signReceived → JoinParty.Event.sig "signature received" ∈ jh ++ [e] :=
      fun r h h' => by simp [i2 r h h']
    unfold JoinCall.step
    cases e with
    | incoming id b => cases c.kind <;> exact ⟨i1', i2'⟩
    | other id g => cases c.kind <;> exact ⟨i1', i2'⟩
    | wake σ =>
      cases c.kind <;> simp only [leaderStep, memberStep, retryStep] <;> repeat' split
      all_goals exact ⟨i1', i2'⟩
    | timeout =>
      cases c.kind <;> simp only [leaderStep, memberStep, retryStep] <;> repeat' split
      all_goals exact ⟨i1', i2'⟩
    | sig x =>
      cases c.kind <;> simp only [leaderStep, memberStep, retryStep] <;> repeat' split
      all_goals first | exact ⟨i1', i2'⟩ | exact ⟨fun (h : x = _) => by simp [h], i2'⟩
    | step σ =>
      cases c.kind with
      | leaderless n =>
        simp only [retryStep]
        split
        · refine ⟨i1', fun r hr he => ?_⟩
          cases hr
          simp only at he
          split at he <;> cases he
        · exact ⟨i1', i2'⟩
      | leader t =>
        simp only [leaderStep]
        split
        · refine ⟨i1', fun r hr he => ?_⟩
          cases hr
          unfold leaderFinish at he
          by_cases hs : c.st.sigNotify = "signature received"
          · exact i1' hs
          · rw [if_neg hs] at he
            dsimp only at he
            split at he <;> cases he
        · exact ⟨i1', i2'⟩
      | member t =>
        simp only [memberStep]
        repeat' split
        all_goals first
          | exact ⟨i1', i2'⟩
          | (refine ⟨i1', fun r hr he => ?_⟩; cases hr; cases he; done)
          | (rename_i hs; exact ⟨i1', fun r hr he => i1' hs⟩)

theorem joinEvents_sub {hist hist' : List (Event P)} (hp : hist <+ hist') : joinEvents hist <+ joinEvents hist' := hp.filterMap _

theorem signEvents_sub {hist hist' : List (Event P)} (hp : hist <+ hist') : signEvents hist <+ signEvents hist' := hp.filterMap _

section mono
variable {env : Env P S H L} {req : Request} {task : Job L} {old : Bool} {hist hist' : List (Event P)}

theorem joinRun_mono {jh : List (JoinParty.Event P)} {c : JoinCall P} (h : JoinRun env req task old hist jh c) (hp : hist <+ hist') :
    JoinRun env req task old hist' jh c := by
  obtain ⟨h0, h1, gs, c₀, h2, h3⟩ := h
  exact ⟨h0.trans (joinEvents_sub hp), h1, gs, c₀, hp.subset h2, h3⟩

theorem partyFormed_mono {o : List P} (h : PartyFormed env req task old hist o) (hp : hist <+ hist') : PartyFormed env req task old hist' o := by
  obtain ⟨jh, c, r, h1, h2⟩ := h
  exact ⟨jh, c, r, joinRun_mono h1 hp, h2⟩

theorem member_mono {o : List P} {l : List Str} (h : Member env req task old hist o l) (hp : hist <+ hist') : Member env req task old hist' o l :=
  ⟨partyFormed_mono h.1 hp, h.2⟩

theorem sessionRun_mono {lh : List (LoopEvent P Sig)} {st : SignSt Str P} (h : SessionRun env req task old hist lh st) (hp : hist <+ hist') :
    SessionRun env req task old hist' lh st := by
  obtain ⟨h0, o, l, sch, lenv, mgr, h1, h2⟩ := h
  exact ⟨h0.trans (signEvents_sub hp), o, l, sch, lenv, mgr, member_mono h1 hp, h2⟩

theorem generated_mono {l : List Sig} (h : Generated env req task old hist l) (hp : hist <+ hist') : Generated env req task old hist' l := by
  obtain ⟨lh, st, h1, h2⟩ := h
  exact ⟨lh, st, sessionRun_mono h1 hp, h2⟩

theorem gaveUp_mono (h : GaveUp env req task old hist) (hp : hist <+ hist') : GaveUp env req task old hist' := by
  obtain ⟨o, l, sch, h1, h2⟩ := h
  exact ⟨o, l, sch, member_mono h1 hp, h2⟩

end mono

theorem GenOutcome.mono {env : Env P S H L} {req : Request} {task : Job L} {old : Bool} {hist hist' : List (Event P)} {ef ef' : List (Effect P)} {a : Answer}
    (h : GenOutcome env req task old hist ef a) (hs : ∀ e ∈ ef, e ∈ ef') (hp : hist <+ hist') : GenOutcome env req task old hist' ef' a := by
  cases h with
  | peers h => exact .peers h
  | notSigner h h' => exact .notSigner h h'
  | noJoin gs out e h0 h h' h'' => exact .noJoin gs out e (hp.subset h0) h h' h''
  | joinFailed jh c out e h h' h'' => exact .joinFailed jh c out e (joinRun_mono h hp) h' h''
  | notOnline o h h' => exact .notOnline o (partyFormed_mono h hp) h'
  | badKeys o h h' h'' => exact .badKeys o (partyFormed_mono h hp) h' h''
  | setupFailed o s sch h h' => exact .setupFailed o s sch (member_mono h hp) h'
  | failed lh st e h h' => exact .failed lh st e (sessionRun_mono h hp) h'
  | signed results l r h h' h'' h3 => exact .signed results l r (generated_mono h hp) h' h'' (hs _ h3)
  | gaveUp h h' => exact .gaveUp (gaveUp_mono h hp) (hs _ h')

theorem AfterInv.mono {env : Env P S H L} {req : Request} {task : Job L} {old : Bool} {hist hist' : List (Event P)} {k : After P}
    (h : AfterInv env req task old hist k) (hp : hist <+ hist') : AfterInv env req task old hist' k := by
  cases h with
  | badKeys o h h' h'' => exact .badKeys o (partyFormed_mono h hp) h' h''
  | setupFailed o s sch h h' => exact .setupFailed o s sch (member_mono h hp) h'
  | failed lenv lh st e o s sch mgr h0 h h' h'' h3 => exact .failed lenv lh st e o s sch mgr (h0.trans (signEvents_sub hp)) (member_mono h hp) h' h'' h3
  | signed results h => exact .signed results (generated_mono h hp)
  | gaveUp h => exact .gaveUp (gaveUp_mono h hp)

theorem GenInv.mono {env : Env P S H L} {req : Request} {task : Job L} {old : Bool} {hist hist' : List (Event P)} {rc rc' : Prop} {ef ef' : List (Effect P)} {g : Gen P}
    (h : GenInv env req task old hist rc ef g) (hr : rc → rc') (hs : ∀ e ∈ ef, e ∈ ef') (hp : hist <+ hist') :
    GenInv env req task old hist' rc' ef' g := by
  cases h with
  | start => exact .start
  | joining jh c h h' => exact .joining jh c (joinRun_mono h hp) fun x hx => ⟨(h' x hx).1, hr (h' x hx).2⟩
  | signing lenv lh st o s sch mgr h0 h1 h2 h3 => exact .signing lenv lh st o s sch mgr (h0.trans (signEvents_sub hp)) (member_mono h1 hp) h2 h3
  | send k h => exact .send k (h.mono hp)
  | finish k h => exact .finish k (h.mono hp)
  | done a h h' => exact .done a (h.mono hs hp) fun x => hr (h' x)

theorem goodAnswer_append {nenv : SigNotifier.Env} {nh : List SigNotifier.Event} {wt : String × List Bytes × String} {d : List Sig}
    (h : Notified.GoodAnswer nenv nh wt d) (ex : List SigNotifier.Event) : Notified.GoodAnswer nenv (nh ++ ex) wt d := by
  obtain ⟨h1, p, h2, h3⟩ := h
  exact ⟨h1, p, by simp [h2], h3⟩

theorem WaiterInv.mono {nenv : SigNotifier.Env} {req : Request} {task : Job L} {nh : List SigNotifier.Event} {nt nt' : SigNotifier.St}
    {w : Waiter} (h : WaiterInv nenv req task nh nt w) (ex : List SigNotifier.Event) : WaiterInv nenv req task (nh ++ ex) nt' w := by
  have hrec : ∀ r, Received nenv req task nh r → Received nenv req task (nh ++ ex) r := by
    rintro r ⟨d, h1, h2⟩
    exact ⟨d, goodAnswer_append h1 ex, h2⟩
  cases h with
  | start => exact .start
  | waiting w h =>
    refine .waiting w ?_
    unfold Notified.waitsOf at h ⊢
    rw [List.filterMap_append, List.getElem?_append_left]
    · exact h
    · exact (List.getElem?_eq_some_iff.1 h).1
  | send r h => exact .send r (hrec r h)
  | got r h => exact .got r (hrec r h)
  | failed => exact .failed

/-- the events the notifier sees in a step -/
def Seen (e : Event P) (ex : List SigNotifier.Event) : Prop :=
  ∀ x ∈ ex, e = .notifier x ∨ ∃ id m k, x = SigNotifier.Event.wait id m k

theorem run_append (nenv : SigNotifier.Env) (nh : List SigNotifier.Event) (e : SigNotifier.Event) :
    SigNotifier.run nenv (nh ++ [e]) = SigNotifier.step nenv (SigNotifier.run nenv nh) e := by
  simp [SigNotifier.run]

theorem cancel_crashed (nenv : SigNotifier.Env) (nt : SigNotifier.St) (w : Nat) :
    (SigNotifier.step nenv nt (.cancel w)).crashed = nt.crashed := by
  unfold SigNotifier.step
  split
  · rfl
  · dsimp only
    split <;> rfl

theorem wait_crashed (nenv : SigNotifier.Env) (nt : SigNotifier.St) (id : String) (m : List Bytes) (k : String) :
    (SigNotifier.step nenv nt (.wait id m k)).crashed = nt.crashed := by
  unfold SigNotifier.step
  split
  · rfl
  · dsimp only
    split <;> rfl

section steps
variable {env : Env P S H L} {nenv : SigNotifier.Env} {req : Request} {task : Job L} {old : Bool} {hist : List (Event P)} {nh : List SigNotifier.Event} {s : St P}

theorem Inv.notifier (hi : Inv env nenv req task old hist nh s) (e : SigNotifier.Event) (nt : SigNotifier.St)
    (hnt : nt = SigNotifier.step nenv s.nt e) (buf : List String) (crashed : Bool) (hc : crashed = false → nt.crashed = false)
    (hw : crashed = true → nt.crashed = true) (hb : buf.length ≤ s.buf.length) (hb' : ∀ x ∈ buf, x ∈ s.buf) :
    Inv env nenv req task old hist (nh ++ [e]) { s with nt, buf, crashed } :=
  { nt := by rw [run_append, ← hi.nt]; exact hnt
    alive := hc
    why := fun h => .inl (hw h)
    waiter := hi.waiter.mono [e]
    gen := hi.gen
    count := hi.count
    nodup := hi.nodup
    bufLen := hb.trans hi.bufLen
    bufSub := fun x hx => hi.bufSub x (hb' x hx)
    sends := hi.sends
    sentMem := hi.sentMem
    closed := hi.closed
    ret := hi.ret
    effSign := hi.effSign
    effJoin := hi.effJoin
    effSigs := hi.effSigs
    effFail := hi.effFail
    effMetric := hi.effMetric }

/-- the waiter moves without having sent -/
theorem Inv.moveWaiter (hi : Inv env nenv req task old hist nh s) (w : Waiter) (hw : WaiterInv nenv req task nh s.nt w)
    (hws : ¬ w.sent)
    (hs : ¬ s.waiter.sent) (hd : ∀ r, s.waiter ≠ .done r) : Inv env nenv req task old hist nh { s with waiter := w } := by
  have h0 : s.waiter.count = 0 := by
    rcases hx : s.waiter with _ | _ | _ | r
    · rfl
    · rfl
    · rfl
    · exact absurd hx (hd r)
  exact
  { nt := hi.nt
    alive := hi.alive
    why := hi.why
    waiter := hw
    gen := hi.gen.mono (fun h => absurd h hs) (fun _ h => h) (List.Sublist.refl _)
    count := by have h := hi.count; rw [h0] at h; exact h.trans (Nat.add_le_add_right (Nat.zero_le _) _)
    nodup := hi.nodup
    bufLen := hi.bufLen
    bufSub := hi.bufSub
    sends := fun x hx => by
      rcases hi.sends x hx with ⟨-, h⟩ | h
      · exact absurd h hs
      · exact .inr h
    sentMem := fun h => absurd h hws
    closed := hi.closed
    ret := fun a ha => by
      obtain ⟨w', g, h, -⟩ := hi.ret a ha
      exact absurd h (hd w')
    effSign := hi.effSign
    effJoin := hi.effJoin
    effSigs := hi.effSigs
    effFail := hi.effFail
    effMetric := hi.effMetric }

/-- the generating goroutine moves, with effects other than those of the end -/
theorem Inv.moveGen (hi : Inv env nenv req task old hist nh s) (g : Gen P) (ef : List (Effect P)) (buf : List String) (crashed : Bool)
    (hcr : crashed = false → s.crashed = false) (hwhy : crashed = true → Why env req task old hist s.nt)
    (hg : GenInv env req task old hist s.waiter.sent (s.effects ++ ef) g) (hc : s.gen.count ≤ g.count) (hd : ∀ a, s.gen ≠ .done a)
    (hb : buf.length ≤ s.buf.length) (hb' : ∀ x ∈ buf, x ∈ s.buf)
    (h1 : ∀ online, Effect.signing online ∈ ef → ∃ signers, Member env req task old hist online signers)
    (h2 : Effect.joining ∈ ef → ∃ jh c, JoinRun env req task old hist jh c)
    (h3 : ∀ l ps, Effect.broadcastSigs l ps ∈ ef → ∃ r, g = .done (r, none) ∧ batchSignatures l task.msgs = some r ∧
      (l = [] ∧ GaveUp env req task old hist ∨ ∃ results, Generated env req task old hist results ∧ l = sortResults results))
    (h4 : ∀ ps, Effect.broadcastFailure ps ∈ ef → ∃ b, g = .done (KeySign.failed b))
    (h5 : ∀ b, Effect.metric b ∉ ef) :
    Inv env nenv req task old hist nh { s with gen := g, effects := s.effects ++ ef, buf, crashed } :=
  { nt := hi.nt
    alive := fun h => hi.alive (hcr h)
    why := hwhy
    waiter := hi.waiter
    gen := hg
    count := hi.count.trans (Nat.add_le_add_left hc _)
    nodup := hi.nodup
    bufLen := hb.trans hi.bufLen
    bufSub := fun x hx => hi.bufSub x (hb' x hx)
    sends := fun x hx => by
      rcases hi.sends x hx with h | ⟨h, h'⟩
      · exact .inl h
      · refine .inr ⟨h, ?_⟩
        have : g.count ≤ 1 := by cases g <;> simp [Gen.count]
        dsimp only
        omega
    sentMem := hi.sentMem
    closed := hi.closed
    ret := fun a ha => by
      obtain ⟨w', g', -, h, -⟩ := hi.ret a ha
      exact absurd h (hd g')
    effSign := fun online h => by
      rcases List.mem_append.1 h with h | h
      · exact hi.effSign online h
      · exact h1 online h
    effJoin := fun h => by
      rcases List.mem_append.1 h with h | h
      · exact hi.effJoin h
      · exact h2 h
    effSigs := fun l ps h => by
      rcases List.mem_append.1 h with h | h
      · obtain ⟨r, hr, -⟩ := hi.effSigs l ps h
        exact absurd hr (hd _)
      · exact h3 l ps h
    effFail := fun ps h => by
      rcases List.mem_append.1 h with h | h
      · obtain ⟨b, hb⟩ := hi.effFail ps h
        exact absurd hb (hd _)
      · exact h4 ps h
    effMetric := by
      have : ef.filter (fun e => match e with | .metric _ => true | _ => false) = [] := by
        rw [List.filter_eq_nil_iff]
        intro e he
        cases e <;> simp
        exact h5 _ he
      rw [List.filter_append, this, List.append_nil]
      exact hi.effMetric }

/-- one of the goroutines sends: the channel takes the value -/
theorem sendChan_ok (hi : Inv env nenv req task old hist nh s) (x : String) (hr : s.ret = none) (hn : s.sends.length ≤ 1) :
    s.sendChan x = some { s with buf := s.buf ++ [x], sends := s.sends ++ [x] } := by
  have hcl : s.closed = false := by rw [hi.closed, hr]; rfl
  have := hi.bufLen
  simp only [St.sendChan, hcl, Bool.false_eq_true, if_false]
  rw [if_pos (by omega)]

theorem Inv.ret_none (hi : Inv env nenv req task old hist nh s) (h : (∀ w, s.waiter ≠ .done w) ∨ (∀ g, s.gen ≠ .done g)) : s.ret = none := by
  rcases hr : s.ret with _ | a
  · rfl
  · obtain ⟨w, g, h1, h2, -⟩ := hi.ret a hr
    rcases h with h | h
    · exact absurd h1 (h w)
    · exact absurd h2 (h g)

/-- the waiter sends -/
theorem Inv.waitSend (hi : Inv env nenv req task old hist nh s) (r : Response) (hw : s.waiter = .send r) :
    Inv env nenv req task old hist nh
      { s with buf := s.buf ++ ["signature received"], sends := s.sends ++ ["signature received"], waiter := .done (some r) } := by
  have hrec : Received nenv req task nh r := by
    have := hi.waiter
    rw [hw] at this
    cases this with | send _ h => exact h
  have hns : ¬ s.waiter.sent := by rw [hw]; simp [Waiter.sent]
  have hret := hi.ret_none (.inl (by rw [hw]; intro w h; cases h))
  exact
  { nt := hi.nt
    alive := hi.alive
    why := hi.why
    waiter := .got r hrec
    gen := hi.gen.mono (fun h => absurd h hns) (fun _ h => h) (List.Sublist.refl _)
    count := by
      have h := hi.count
      rw [hw] at h
      simp only [Waiter.count, List.length_append, List.length_cons, List.length_nil] at h ⊢
      omega
    nodup := by
      rw [List.nodup_append]
      refine ⟨hi.nodup, by simp, ?_⟩
      intro a ha b hb
      rw [List.mem_singleton.1 hb]
      intro hab
      subst hab
      rcases hi.sends _ ha with ⟨-, h⟩ | ⟨h, -⟩
      · exact hns h
      · exact absurd h (by decide)
    bufLen := by simpa using hi.bufLen
    bufSub := fun x hx => by
      rcases List.mem_append.1 hx with h | h
      · exact List.mem_append.2 (.inl (hi.bufSub x h))
      · exact List.mem_append.2 (.inr h)
    sends := fun x hx => by
      rcases List.mem_append.1 hx with h | h
      · rcases hi.sends x h with ⟨h1, -⟩ | h1
        · exact .inl ⟨h1, trivial⟩
        · exact .inr h1
      · exact .inl ⟨List.mem_singleton.1 h, trivial⟩
    sentMem := fun _ => by simp
    closed := hi.closed
    ret := fun a ha => by rw [show s.ret = none from hret] at ha; cases ha
    effSign := hi.effSign
    effJoin := hi.effJoin
    effSigs := hi.effSigs
    effFail := hi.effFail
    effMetric := hi.effMetric }

/-- the generating goroutine sends -/
theorem Inv.genSend (hi : Inv env nenv req task old hist nh s) (k : After P) (hg : s.gen = .send k) :
    Inv env nenv req task old hist nh
      { s with buf := s.buf ++ ["signature generated"], sends := s.sends ++ ["signature generated"], gen := .finish k } := by
  have hk : AfterInv env req task old hist k := by
    have := hi.gen
    rw [hg] at this
    cases this with | send _ h => exact h
  have hret := hi.ret_none (.inr (by rw [hg]; intro w h; cases h))
  have hd : ∀ a, s.gen ≠ .done a := by rw [hg]; intro w h; cases h
  have h0 : s.gen.count = 0 := by rw [hg]; rfl
  exact
  { nt := hi.nt
    alive := hi.alive
    why := hi.why
    waiter := hi.waiter
    gen := .finish k hk
    count := by
      have h := hi.count
      rw [h0] at h
      simp only [Gen.count, List.length_append, List.length_cons, List.length_nil]
      omega
    nodup := by
      rw [List.nodup_append]
      refine ⟨hi.nodup, by simp, ?_⟩
      intro a ha b hb
      rw [List.mem_singleton.1 hb]
      intro hab
      subst hab
      rcases hi.sends _ ha with ⟨h, -⟩ | ⟨-, h⟩
      · exact absurd h (by decide)
      · omega
    bufLen := by simpa using hi.bufLen
    bufSub := fun x hx => by
      rcases List.mem_append.1 hx with h | h
      · exact List.mem_append.2 (.inl (hi.bufSub x h))
      · exact List.mem_append.2 (.inr h)
    sends := fun x hx => by
      rcases List.mem_append.1 hx with h | h
      · rcases hi.sends x h with h1 | ⟨h1, -⟩
        · exact .inl h1
        · exact .inr ⟨h1, rfl⟩
      · exact .inr ⟨List.mem_singleton.1 h, rfl⟩
    sentMem := fun h => by simp [hi.sentMem h]
    closed := hi.closed
    ret := fun a ha => by rw [show s.ret = none from hret] at ha; cases ha
    effSign := hi.effSign
    effJoin := hi.effJoin
    effSigs := fun l ps h => by
      obtain ⟨r, hr, -⟩ := hi.effSigs l ps h
      exact absurd hr (hd _)
    effFail := fun ps h => by
      obtain ⟨b, hb⟩ := hi.effFail ps h
      exact absurd hb (hd _)
    effMetric := hi.effMetric }

theorem Inv.crash (hi : Inv env nenv req task old hist nh s) (hw : Why env req task old hist s.nt) : Inv env nenv req task old hist nh { s with crashed := true } :=
  { hi with alive := fun h => by cases h
            why := fun _ => hw }

/-- a failed join ends the generating goroutine -/
theorem Inv.joinFail (hi : Inv env nenv req task old hist nh s) (out : JoinOut P) (e : JErr) (hd : ∀ a, s.gen ≠ .done a)
    (ho : ∀ ef, GenOutcome env req task old hist ef (KeySign.joinFailed env task.signers out e).1) (hr : e = .join .signReceived → s.waiter.sent)
    (h0 : s.gen.count = 0) : Inv env nenv req task old hist nh (s.joinFail env task out e) := by
  obtain ⟨j1, j2⟩ := joinFailed_ne env task.signers out e
  unfold St.joinFail
  generalize hf : KeySign.joinFailed env task.signers out e = f at *
  obtain ⟨a, b⟩ := f
  have hg : GenInv env req task old hist s.waiter.sent (s.effects ++ (if b then [Effect.joinMetric false, Effect.broadcastFailure (poolPeers env task)] else [])) (.done a) :=
    .done a (ho _) fun h => hr (j1 h)
  refine hi.moveGen (.done a) (if b then [.joinMetric false, .broadcastFailure (poolPeers env task)] else []) s.buf s.crashed (fun h => h) hi.why hg (by rw [h0]; exact Nat.zero_le _) hd
    (le_refl _) (fun _ h => h) ?_ ?_ ?_ ?_ ?_
  · intro o h; split at h <;> simp at h
  · intro h; split at h <;> simp at h
  · intro l ps h; split at h <;> simp at h
  · intro ps h
    split at h
    · rename_i hb
      obtain ⟨b', hb'⟩ := j2 hb
      exact ⟨b', by rw [← hb']⟩
    · simp at h
  · intro b' h; split at h <;> simp at h

/-- the end of the generating goroutine without an effect -/
theorem Inv.endGen (hi : Inv env nenv req task old hist nh s) (a : Answer) (hd : ∀ a, s.gen ≠ .done a)
    (ho : GenOutcome env req task old hist s.effects a) (hr : a.2 ≠ some .signReceived) :
    Inv env nenv req task old hist nh { s with gen := .done a } := by
  have := hi.moveGen (.done a) [] s.buf s.crashed (fun h => h) hi.why (.done a (by rw [List.append_nil]; exact ho) (fun h => absurd h hr))
    (by cases s.gen <;> simp [Gen.count]) hd (le_refl _) (fun _ h => h)
    (by simp) (by simp) (by simp) (by simp) (by simp)
  simpa using this

theorem Inv.genStart (hi : Inv env nenv req task old hist nh s) (hv : Version.VersionLTCheck env.parseVer req.version env.gate = .ok old)
    (gs : Groups P) (hgs : Event.genStart gs ∈ hist) (hg : s.gen = .start) : Inv env nenv req task old hist nh (s.genStart env req task gs) := by
  have hd : ∀ a, s.gen ≠ .done a := by rw [hg]; intro w h; cases h
  have h0 : s.gen.count = 0 := by rw [hg]; rfl
  have key : ∀ (parts : List Str), parts = participants old task → (old = true → OwnKeyAmongSigners env task) →
      Inv env nenv req task old hist nh (match joinParty env gs task.msgID req.version req.blockHeight parts task.threshold with
        | .ok c => { s with gen := .joining c, effects := s.effects ++ [.joining] }
        | .error out => match out.err with
          | some e => s.joinFail env task out e
          | none => s) := by
    rintro parts rfl hown
    rcases hj : joinParty env gs task.msgID req.version req.blockHeight (participants old task) task.threshold with out | c
    · obtain ⟨he, -⟩ := joinParty_error hj
      simp only [he]
      exact hi.joinFail out .before hd (fun ef => .noJoin gs out .before hgs hown hj he) (fun h => by cases h) h0
    · have hrun : JoinRun env req task old hist [] c := ⟨List.nil_sublist _, hown, gs, c, hgs, hj, rfl⟩
      exact hi.moveGen (.joining c) [.joining] s.buf s.crashed (fun h => h) hi.why (.joining [] c hrun (by simp)) (by rw [h0]; exact Nat.zero_le _) hd
        (le_refl _) (fun _ h => h) (by simp) (fun _ => ⟨[], c, hrun⟩) (by simp) (by simp) (by simp)
  unfold St.genStart
  split
  · rw [hv]
    dsimp only
    split
    · rename_i ho
      split
      · rename_i pk hpk
        split
        · rename_i hm
          exact key _ (by simp [participants, ho]) fun _ => ⟨pk, hpk, hm⟩
        · rename_i hm
          refine hi.endGen _ hd (.notSigner ho ?_) (by simp)
          rintro ⟨pk', h1, h2⟩
          rw [hpk] at h1
          cases h1
          exact hm h2
      · rename_i hpk
        refine hi.endGen _ hd (.notSigner ho ?_) (by simp)
        rintro ⟨pk', h1, h2⟩
        exact hpk pk' h1
    · rename_i ho
      exact key _ (by simp [participants, ho]) fun h => absurd h ho
  · rename_i hp
    exact hi.endGen _ hd (.peers fun l h => hp l h) (by simp [failed])

theorem Inv.genJoined (hi : Inv env nenv req task old hist nh s) (sch : SetupSched P) (online : List P)
    (hp : PartyFormed env req task old hist online) (hd : ∀ a, s.gen ≠ .done a) (h0 : s.gen.count = 0) :
    Inv env nenv req task old hist nh (s.genJoined env task sch online) := by
  have move : ∀ (g : Gen P), GenInv env req task old hist s.waiter.sent (s.effects ++ [.joinMetric true]) g →
      Inv env nenv req task old hist nh { s with gen := g, effects := s.effects ++ [.joinMetric true] } := by
    intro g hg
    exact hi.moveGen g [.joinMetric true] s.buf s.crashed (fun h => h) hi.why hg (by rw [h0]; exact Nat.zero_le _) hd (le_refl _) (fun _ h => h)
      (by simp) (by simp) (by simp) (by simp) (by simp)
  unfold St.genJoined
  split
  · rename_i hm
    exact move _ (.done _ (.notOnline online hp hm) (by simp))
  · rename_i hm
    have hm : env.me ∈ online := by simpa using hm
    split
    · rename_i signers hs
      have hmem : Member env req task old hist online signers := ⟨hp, hm, hs⟩
      split
      · rename_i hset
        exact move _ (.send _ (.setupFailed online signers sch hmem hset))
      · rename_i hset
        exact move _ (.send _ (.gaveUp ⟨online, signers, sch, hmem, hset⟩))
      · rename_i hset
        exact hi.moveGen s.gen [.joinMetric true] s.buf true (fun h => by cases h) (fun _ => .inr (.inl ⟨online, signers, sch, hmem, hset⟩))
          (hi.gen.mono (fun h => h) (fun e h => List.mem_append.2 (.inl h)) (List.Sublist.refl _)) (le_refl _) hd (le_refl _) (fun _ h => h)
          (by simp) (by simp) (by simp) (by simp) (by simp)
      · rename_i lenv mgr hset
        exact hi.moveGen (.signing lenv (signInit (TssCommon.newTssCommon mgr))) [.joinMetric true, .signing online] s.buf s.crashed (fun h => h) hi.why
          (.signing lenv [] _ online signers sch mgr (List.nil_sublist _) hmem hset rfl) (by rw [h0]; exact Nat.zero_le _) hd (le_refl _) (fun _ h => h)
          (fun o h => by simp at h; subst h; exact ⟨signers, hmem⟩) (by simp) (by simp) (by simp) (by simp)
    · rename_i hs
      exact move _ (.send _ (.badKeys online hp hm fun l h => hs l h))

theorem Inv.genFinish (hi : Inv env nenv req task old hist nh s) (k : After P) (hg : s.gen = .finish k) :
    Inv env nenv req task old hist nh (s.genFinish env task k) ∧ (s.genFinish env task k).crashed = s.crashed := by
  have hk : AfterInv env req task old hist k := by
    have := hi.gen
    rw [hg] at this
    cases this with | finish _ h => exact h
  have hd : ∀ a, s.gen ≠ .done a := by rw [hg]; intro w h; cases h
  have h1 : s.gen.count = 1 := by rw [hg]; rfl
  have hfail : ∀ b, (∀ ef, GenOutcome env req task old hist ef (KeySign.failed b)) →
      Inv env nenv req task old hist nh { s with gen := .done (KeySign.failed b), effects := s.effects ++ [.broadcastFailure (poolPeers env task)] } := by
    intro b ho
    exact hi.moveGen _ [.broadcastFailure (poolPeers env task)] s.buf s.crashed (fun h => h) hi.why (.done _ (ho _) (by simp [failed])) (by rw [h1]; exact le_refl _) hd
      (le_refl _) (fun _ h => h) (by simp) (by simp) (by simp) (fun _ _ => ⟨b, rfl⟩) (by simp)
  have hsig : ∀ (l : List Sig) (r : Response), batchSignatures l task.msgs = some r →
      (l = [] ∧ GaveUp env req task old hist ∨ ∃ results, Generated env req task old hist results ∧ l = sortResults results) →
      Inv env nenv req task old hist nh { s with gen := .done (r, none), effects := s.effects ++ [.broadcastSigs l (poolPeers env task)] } := by
    intro l r hb ho
    refine hi.moveGen _ [.broadcastSigs l (poolPeers env task)] s.buf s.crashed (fun h => h) hi.why (.done _ ?_ (by simp)) (by rw [h1]; exact le_refl _) hd
      (le_refl _) (fun _ h => h) (by simp) (by simp) (fun l' _ h => ?_) (by simp) (by simp)
    · rcases ho with ⟨rfl, ho⟩ | ⟨results, ho, hl⟩
      · simp [batchSignatures, batchLoop] at hb
        subst hb
        exact .gaveUp ho (by simp)
      · exact .signed results l r ho hl hb (by simp)
    · simp at h
      obtain ⟨rfl, -⟩ := h
      exact ⟨r, rfl, hb, ho⟩
  cases hk with
  | badKeys online h1 h2 h3 => exact ⟨hi.endGen _ hd (.badKeys online h1 h2 h3) (by simp [KeySign.failed]), rfl⟩
  | setupFailed online signers sch h1 h2 => exact ⟨hfail _ fun ef => .setupFailed online signers sch h1 h2, rfl⟩
  | failed lenv lh st e online signers sch mgr h0 h1 h2 h3 h4 =>
    exact ⟨hfail _ fun ef => .failed lh st e ⟨h0, online, signers, sch, lenv, mgr, h1, h2, h3⟩ h4, rfl⟩
  | signed results h =>
    obtain ⟨r, hr⟩ := batch_some (sortResults results) task.msgs (by rw [sortResults_length, generated_length h])
    simp only [St.genFinish, hr]
    exact ⟨hsig _ r hr (.inr ⟨results, h, rfl⟩), trivial⟩
  | gaveUp h =>
    obtain ⟨r, hr⟩ := batch_some [] task.msgs (by simp)
    simp only [St.genFinish, hr]
    exact ⟨hsig _ r hr (.inl ⟨rfl, h⟩), trivial⟩

theorem joinRun_snoc {jh : List (JoinParty.Event P)} {c : JoinCall P} (h : JoinRun env req task old hist jh c) (e : JoinParty.Event P) :
    JoinRun env req task old (hist ++ [.join e]) (jh ++ [e]) (c.step env e) := by
  obtain ⟨h0, h1, gs, c₀, h2, h3, rfl⟩ := h
  refine ⟨?_, h1, gs, c₀, by simp [h2], h3, by simp⟩
  unfold joinEvents at h0 ⊢
  rw [List.filterMap_append]
  exact h0.append (List.Sublist.refl _)

theorem signEvents_snoc {lh : List (LoopEvent P Sig)} (h : lh <+ signEvents hist) (e : LoopEvent P Sig) :
    lh ++ [e] <+ signEvents (hist ++ [.sign e]) := by
  unfold signEvents at h ⊢
  rw [List.filterMap_append]
  exact h.append (List.Sublist.refl _)

theorem why_mono {hist' : List (Event P)} {nt : SigNotifier.St} (h : Why env req task old hist nt) (hp : hist <+ hist') :
    Why env req task old hist' nt := by
  rcases h with h | ⟨o, l, sch, h1, h2⟩ | ⟨lh, st, h1, h2⟩
  · exact .inl h
  · exact .inr (.inl ⟨o, l, sch, member_mono h1 hp, h2⟩)
  · exact .inr (.inr ⟨lh, st, sessionRun_mono h1 hp, h2⟩)

/-- the invariant of the state holds with a longer history -/
theorem Inv.mono (hi : Inv env nenv req task old hist nh s) (e : Event P) : Inv env nenv req task old (hist ++ [e]) nh s :=
  have hp : hist <+ hist ++ [e] := List.sublist_append_left _ _
  { hi with
    why := fun h => why_mono (hi.why h) hp
    gen := hi.gen.mono (fun h => h) (fun _ h => h) hp
    effSign := fun o h => by
      obtain ⟨l, hl⟩ := hi.effSign o h
      exact ⟨l, member_mono hl hp⟩
    effJoin := fun h => by
      obtain ⟨jh, c, hj⟩ := hi.effJoin h
      exact ⟨jh, c, joinRun_mono hj hp⟩
    effSigs := fun l ps h => by
      obtain ⟨r, h1, h2, h3⟩ := hi.effSigs l ps h
      refine ⟨r, h1, h2, ?_⟩
      rcases h3 with ⟨h3, h4⟩ | ⟨results, h3, h4⟩
      · exact .inl ⟨h3, gaveUp_mono h4 hp⟩
      · exact .inr ⟨results, generated_mono h3 hp, h4⟩ }

theorem signRun_snoc (lenv : LoopEnv Str P) (n : Nat) (ses : TssCommon.St Str P) (h : List (LoopEvent P Sig)) (e : LoopEvent P Sig) :
    signStep lenv n (signRun lenv n ses h) e = signRun lenv n ses (h ++ [e]) := by simp [signRun]

theorem Inv.join (hi₀ : Inv env nenv req task old hist nh s) (c : JoinCall P) (hg : s.gen = .joining c) (e : JoinParty.Event P) (buf : List String)
    (hx : ∀ x, e = .sig x → x ∈ s.sends) (hb : buf.length ≤ s.buf.length) (hb' : ∀ x ∈ buf, x ∈ s.buf) :
    Inv env nenv req task old (hist ++ [.join e]) nh { s with gen := .joining (c.step env e), buf } := by
  have hi := hi₀.mono (.join e)
  have hd : ∀ a, s.gen ≠ .done a := by rw [hg]; intro w h; cases h
  have h0 : s.gen.count = 0 := by rw [hg]; rfl
  have hgi := hi₀.gen
  rw [hg] at hgi
  cases hgi with
  | joining jh _ h1 h2 =>
    have hgen : GenInv env req task old (hist ++ [.join e]) s.waiter.sent (s.effects ++ []) (.joining (c.step env e)) := by
      refine .joining (jh ++ [e]) _ (joinRun_snoc h1 e) fun x hmem => ?_
      rcases List.mem_append.1 hmem with h | h
      · exact h2 x h
      · have he : e = .sig x := (List.mem_singleton.1 h).symm
        rcases hi.sends x (hx x he) with h | ⟨-, h⟩
        · exact h
        · omega
    have := hi.moveGen _ [] buf s.crashed (fun h => h) hi.why hgen (by rw [h0]; exact Nat.zero_le _) hd hb hb'
      (by simp) (by simp) (by simp) (by simp) (by simp)
    simpa using this

theorem Inv.setGen (hi : Inv env nenv req task old hist nh s) (g : Gen P) (crashed : Bool) (hcr : crashed = false → s.crashed = false)
    (hwhy : crashed = true → Why env req task old hist s.nt) (hg : GenInv env req task old hist s.waiter.sent s.effects g)
    (hc : s.gen.count ≤ g.count) (hd : ∀ a, s.gen ≠ .done a) :
    Inv env nenv req task old hist nh { s with gen := g, crashed } := by
  have := hi.moveGen g [] s.buf crashed hcr hwhy (by rw [List.append_nil]; exact hg) hc hd (le_refl _) (fun _ h => h)
    (by simp) (by simp) (by simp) (by simp) (by simp)
  simpa using this

theorem inv_step (hi₀ : Inv env nenv req task old hist nh s) (hv : Version.VersionLTCheck env.parseVer req.version env.gate = .ok old)
    (e : Event P) : ∃ ex, Seen e ex ∧ Inv env nenv req task old (hist ++ [e]) (nh ++ ex) (step env nenv req task s e) := by
  have hi := hi₀.mono e
  have keep : ∀ s', Inv env nenv req task old (hist ++ [e]) nh s' → ∃ ex, Seen e ex ∧ Inv env nenv req task old (hist ++ [e]) (nh ++ ex) s' :=
    fun s' h => ⟨[], by simp [Seen], by rw [List.append_nil]; exact h⟩
  unfold step
  split
  · exact keep _ hi
  · rename_i hcr
    have hcr : s.crashed = false := by simpa using hcr
    cases e with
    | notifier e =>
      dsimp only
      have plain : ∃ ex, Seen (Event.notifier (P := P) e) ex ∧ Inv env nenv req task old (hist ++ [.notifier e]) (nh ++ ex)
          { s with nt := SigNotifier.step nenv s.nt e, crashed := (SigNotifier.step nenv s.nt e).crashed } :=
        ⟨[e], by simp [Seen], hi.notifier e _ rfl s.buf _ (fun h => h) (fun h => h) (le_refl _) (fun _ h => h)⟩
      split
      · split
        · rename_i w hw hcan
          split
          · rename_i x rest hbuf
            split
            · refine ⟨[e], by simp [Seen], hi.notifier e _ rfl rest s.crashed (fun h => ?_) (fun h => by rw [hcr] at h; cases h) (by rw [hbuf]; simp) (fun y h => by rw [hbuf]; simp [h])⟩
              have hec : ∃ w', e = .cancel w' := by
                cases e <;> simp [isCancel] at hcan
                exact ⟨_, rfl⟩
              obtain ⟨w', rfl⟩ := hec
              rw [cancel_crashed]
              exact hi.alive h
            · exact keep _ hi
          · exact keep _ hi
        · exact plain
      · exact plain
    | waitStart =>
      dsimp only
      split
      · rename_i hw
        refine ⟨[.wait task.msgID task.msgs (String.ofList req.poolPubKey)], by simp [Seen], ?_⟩
        have h1 := hi.notifier (.wait task.msgID task.msgs (String.ofList req.poolPubKey)) _ rfl s.buf s.crashed
          (fun h => by rw [wait_crashed]; exact hi.alive h) (fun h => by rw [hcr] at h; cases h) (le_refl _) (fun _ h => h)
        have hlen : s.nt.waits.length = (Notified.waitsOf nh).length := by
          have hal := hi.alive hcr
          rw [hi.nt] at hal ⊢
          exact (Notified.inv_run nenv nh).len hal
        refine h1.moveWaiter (.waiting s.nt.waits.length) (.waiting _ ?_) id (by rw [hw]; simp [Waiter.sent]) (by rw [hw]; intro r h; cases h)
        rw [Notified.waitsOf_append, hlen]
        simp
      · exact keep _ hi
    | waitReturn =>
      dsimp only
      split
      · rename_i w hw
        have hns : ¬ s.waiter.sent := by rw [hw]; simp [Waiter.sent]
        have hnd : ∀ r, s.waiter ≠ .done r := by rw [hw]; intro r h; cases h
        split
        · rename_i n d hn
          split
          · exact keep _ (hi.moveWaiter _ .failed id hns hnd)
          · have hwi := hi.waiter
            rw [hw] at hwi
            cases hwi with
            | waiting _ hwo =>
              rw [hi.nt] at hn
              have hni := Notified.inv_run nenv nh
              have hf := hni.fields w n _ hn
              have hok := hni.ok w n _ hn d (.inr rfl)
              rw [hwo] at hf
              simp only [Option.some.injEq] at hf
              rw [← hf] at hok
              obtain ⟨r, hr⟩ := batch_some d task.msgs hok.1.2.1
              rw [hr]
              exact keep _ (hi.moveWaiter _ (.send r ⟨d, hok, hr⟩) id hns hnd)
        · exact keep _ (hi.moveWaiter _ .failed id hns hnd)
        · exact keep _ hi
      · exact keep _ hi
    | waitSend =>
      dsimp only
      split
      · rename_i r hw
        have hret := hi.ret_none (.inl (by rw [hw]; intro w h; cases h))
        rw [sendChan_ok hi _ hret (by
          have := hi.count
          rw [hw] at this
          have h1 : s.gen.count ≤ 1 := by cases s.gen <;> simp [Gen.count]
          simp only [Waiter.count] at this
          omega)]
        exact keep _ (hi.waitSend r hw)
      · exact keep _ hi
    | genStart gs =>
      dsimp only
      split
      · rename_i hg
        exact keep _ (hi.genStart hv gs (by simp) hg)
      · exact keep _ hi
    | join e =>
      dsimp only
      split
      · rename_i c hg
        have other : ∀ e', (∀ x, e' ≠ JoinParty.Event.sig x) → Inv env nenv req task old (hist ++ [.join e']) nh { s with gen := .joining (c.step env e') } :=
          fun e' he' => hi₀.join c hg e' s.buf (fun x h => absurd h (he' x)) (le_refl _) (fun _ h => h)
        cases e with
        | sig x =>
          dsimp only
          have take : ∀ y rest, s.buf = y :: rest → x = y → Inv env nenv req task old (hist ++ [.join (.sig x)]) nh { s with gen := .joining (c.step env (.sig x)), buf := rest } := by
            intro y rest hbuf hxy
            exact hi₀.join c hg (.sig x) rest (fun z h => by cases h; exact hi.bufSub x (by rw [hbuf, hxy]; simp)) (by rw [hbuf]; simp)
              (fun z h => by rw [hbuf]; simp [h])
          split
          · rename_i y rest t hbuf hk
            split
            · rename_i h; exact keep _ (take _ _ hbuf h.1)
            · exact keep _ hi
          · rename_i y rest t hbuf hk
            split
            · rename_i h; exact keep _ (take _ _ hbuf h.1)
            · exact keep _ hi
          · exact keep _ hi
        | incoming id b => exact keep _ (other _ fun x h => by cases h)
        | other id g => exact keep _ (other _ fun x h => by cases h)
        | wake σ => exact keep _ (other _ fun x h => by cases h)
        | timeout => exact keep _ (other _ fun x h => by cases h)
        | step σ => exact keep _ (other _ fun x h => by cases h)
      · exact keep _ hi
    | genJoined sch =>
      dsimp only
      split
      · rename_i c hg
        have hd : ∀ a, s.gen ≠ .done a := by rw [hg]; intro w h; cases h
        have h0 : s.gen.count = 0 := by rw [hg]; rfl
        have hgi := hi.gen
        rw [hg] at hgi
        cases hgi with
        | joining jh _ h1 h2 =>
          split
          · rename_i out hout
            split
            · rename_i e he
              refine keep _ (hi.joinFail out e hd (fun ef => .joinFailed jh c out e h1 hout he) (fun hes => ?_) h0)
              obtain ⟨-, -, gs, c₀, -, hj, hc⟩ := h1
              obtain ⟨s1, s2⟩ := joinParty_start hj
              unfold JoinCall.out at hout
              obtain ⟨r, hr, hro⟩ := Option.map_eq_some_iff.1 hout
              have hre : r.err = some .signReceived := by
                rw [← hro] at he
                dsimp only at he
                obtain ⟨e', he', rfl⟩ := Option.map_eq_some_iff.1 he
                simpa [he'] using hes
              rw [hc] at hr
              exact (h2 _ ((join_sig env c₀ s1 s2 jh).2 r hr hre)).2
            · rename_i he
              unfold JoinCall.out at hout
              obtain ⟨r, hr, hro⟩ := Option.map_eq_some_iff.1 hout
              subst hro
              refine keep _ (hi.genJoined sch _ ⟨jh, c, r, h1, hr, rfl, ?_⟩ hd h0)
              simpa using he
          · exact keep _ hi
      · exact keep _ hi
    | sign e =>
      dsimp only
      split
      · rename_i lenv st hg
        have hd : ∀ a, s.gen ≠ .done a := by rw [hg]; intro w h; cases h
        have hgi := hi₀.gen
        rw [hg] at hgi
        cases hgi with
        | signing _ lh _ online signers sch mgr h0 h1 h2 h3 =>
          subst h3
          rw [signRun_snoc]
          exact keep _ (hi.setGen _ _ (fun _ => hcr)
            (fun hc => .inr (.inr ⟨lh ++ [e], _, ⟨signEvents_snoc h0 _, online, signers, sch, lenv, mgr, member_mono h1 (List.sublist_append_left _ _), h2, rfl⟩, hc⟩))
            (.signing lenv (lh ++ [e]) _ online signers sch mgr (signEvents_snoc h0 _) (member_mono h1 (List.sublist_append_left _ _)) h2 rfl) (by rw [hg]; exact le_refl _) hd)
      · rename_i lenv st hg
        have hd : ∀ a, s.gen ≠ .done a := by rw [hg]; intro w h; cases h
        have hgi := hi₀.gen
        rw [hg] at hgi
        cases hgi with
        | send _ hk =>
          cases hk with
          | failed _ lh _ er online signers sch mgr h0 h1 h2 h3 h4 =>
            split
            · rename_i e
              have h4' : (signStep lenv task.msgs.length st (.inbound e)).result = some (.error er) := by
                unfold signStep; split <;> exact h4
              refine keep _ (hi.setGen _ _ (fun _ => hcr)
                (fun hc => .inr (.inr ⟨lh ++ [.inbound e], _, ⟨signEvents_snoc h0 _, online, signers, sch, lenv, mgr, member_mono h1 (List.sublist_append_left _ _), h2, by rw [h3, signRun_snoc]⟩, hc⟩))
                (.send _ (.failed lenv (lh ++ [.inbound e]) _ er online signers sch mgr (signEvents_snoc h0 _) (member_mono h1 (List.sublist_append_left _ _)) h2 ?_ h4')) (by rw [hg]; exact le_refl _) hd)
              rw [h3, signRun_snoc]
            · exact keep _ hi
      · rename_i lenv st hg
        have hd : ∀ a, s.gen ≠ .done a := by rw [hg]; intro w h; cases h
        have hgi := hi₀.gen
        rw [hg] at hgi
        cases hgi with
        | finish _ hk =>
          cases hk with
          | failed _ lh _ er online signers sch mgr h0 h1 h2 h3 h4 =>
            split
            · rename_i e
              have h4' : (signStep lenv task.msgs.length st (.inbound e)).result = some (.error er) := by
                unfold signStep; split <;> exact h4
              refine keep _ (hi.setGen _ _ (fun _ => hcr)
                (fun hc => .inr (.inr ⟨lh ++ [.inbound e], _, ⟨signEvents_snoc h0 _, online, signers, sch, lenv, mgr, member_mono h1 (List.sublist_append_left _ _), h2, by rw [h3, signRun_snoc]⟩, hc⟩))
                (.finish _ (.failed lenv (lh ++ [.inbound e]) _ er online signers sch mgr (signEvents_snoc h0 _) (member_mono h1 (List.sublist_append_left _ _)) h2 ?_ h4')) (by rw [hg]; exact le_refl _) hd)
              rw [h3, signRun_snoc]
            · exact keep _ hi
      · exact keep _ hi
    | genSigned =>
      dsimp only
      split
      · rename_i lenv st hg
        have hd : ∀ a, s.gen ≠ .done a := by rw [hg]; intro w h; cases h
        have h0 : s.gen.count = 0 := by rw [hg]; rfl
        have hgi := hi.gen
        rw [hg] at hgi
        cases hgi with
        | signing _ lh _ online signers sch mgr hsub h1 h2 h3 =>
          split
          · rename_i sigs hres
            exact keep _ (hi.setGen _ s.crashed (fun h => h) hi.why (.send _ (.signed sigs ⟨lh, st, ⟨hsub, online, signers, sch, lenv, mgr, h1, h2, h3⟩, hres⟩))
              (by rw [h0]; exact Nat.zero_le _) hd)
          · rename_i er hres
            exact keep _ (hi.setGen _ s.crashed (fun h => h) hi.why (.send _ (.failed lenv lh st er online signers sch mgr hsub h1 h2 h3 hres))
              (by rw [h0]; exact Nat.zero_le _) hd)
          · exact keep _ hi
      · exact keep _ hi
    | genSend =>
      dsimp only
      split
      · rename_i k hg
        have hret := hi.ret_none (.inr (by rw [hg]; intro w h; cases h))
        rw [sendChan_ok hi _ hret (by
          have := hi.count
          rw [hg] at this
          have h1 : s.waiter.count ≤ 1 := by unfold Waiter.count; split <;> omega
          simp only [Gen.count] at this
          omega)]
        exact keep _ (hi.genSend k hg)
      · exact keep _ hi
    | genFinish =>
      dsimp only
      split
      · rename_i k hg
        exact keep _ (hi.genFinish k hg).1
      · exact keep _ hi
    | main =>
      dsimp only
      split
      · rename_i w a hw hg
        split
        · exact keep _ hi
        · rename_i hret
          have hret : s.ret = none := by simpa using hret
          have hcl : s.closed = false := by rw [hi.closed, hret]; rfl
          rw [if_neg (by simp [hcl])]
          refine keep _
            { hi with
              closed := rfl
              ret := fun a' ha' => ⟨w, a, hw, hg, by cases ha'; rfl⟩
              gen := hi.gen.mono (fun h => h) (fun e he => List.mem_append.2 (.inl he)) (List.Sublist.refl _)
              effSign := fun o h => hi.effSign o (by simpa using h)
              effJoin := fun h => hi.effJoin (by simpa using h)
              effSigs := fun l ps h => hi.effSigs l ps (by simpa using h)
              effFail := fun ps h => hi.effFail ps (by simpa using h)
              effMetric := by
                have := hi.effMetric
                rw [hret] at this
                rw [List.filter_append, this]
                rfl }
      · exact keep _ hi

end steps

theorem inv_init (env : Env P S H L) (nenv : SigNotifier.Env) (req : Request) (task : Job L) (old : Bool) (nh : List SigNotifier.Event)
    (hc : (SigNotifier.run nenv nh).crashed = false) : Inv env nenv req task old [] nh (init (SigNotifier.run nenv nh)) :=
  { nt := rfl
    alive := fun _ => hc
    why := fun h => by cases h
    waiter := .start
    gen := .start
    count := by simp [init]
    nodup := by simp [init]
    bufLen := by simp [init]
    bufSub := by simp [init]
    sends := by simp [init]
    sentMem := fun h => h.elim
    closed := rfl
    ret := fun a ha => by cases ha
    effSign := fun o h => by cases h
    effJoin := fun h => by cases h
    effSigs := fun l ps h => by cases h
    effFail := fun ps h => by cases h
    effMetric := rfl }

/-- the invariant holds after every history; what the notifier saw is its earlier history, the notifications during the call and waits -/
theorem inv_run (env : Env P S H L) (nenv : SigNotifier.Env) (req : Request) (task : Job L) (old : Bool) (nh : List SigNotifier.Event)
    (hc : (SigNotifier.run nenv nh).crashed = false) (hv : Version.VersionLTCheck env.parseVer req.version env.gate = .ok old)
    (h : List (Event P)) :
    ∃ ex, (∀ x ∈ ex, Event.notifier x ∈ h ∨ ∃ id m k, x = SigNotifier.Event.wait id m k) ∧
      Inv env nenv req task old h (nh ++ ex) (h.foldl (step env nenv req task) (init (SigNotifier.run nenv nh))) := by
  induction h using List.reverseRecOn with
  | nil => exact ⟨[], by simp, by rw [List.append_nil]; exact inv_init env nenv req task old nh hc⟩
  | append_singleton h e ih =>
    obtain ⟨ex, h1, h2⟩ := ih
    obtain ⟨ex', h3, h4⟩ := inv_step h2 hv e
    refine ⟨ex ++ ex', fun x hx => ?_, ?_⟩
    · rcases List.mem_append.1 hx with hx | hx
      · rcases h1 x hx with h | h
        · exact .inl (by simp [h])
        · exact .inr h
      · rcases h3 x hx with h | h
        · exact .inl (by simp [h])
        · exact .inr h
    · rw [List.foldl_append]
      simp only [List.foldl_cons, List.foldl_nil]
      rw [← List.append_assoc]
      exact h4

theorem decodeAll_eq (base64 : Str → Option Bytes) (l : List Str) (d : List Bytes) :
    decodeAll base64 l = some d ↔ List.Forall₂ (fun m b => base64 m = some b) l d := by
  induction l generalizing d with
  | nil => simp [decodeAll, eq_comm]
  | cons m l ih =>
    simp only [decodeAll, Option.bind_eq_some_iff, Option.map_eq_some_iff]
    constructor
    · rintro ⟨b, hb, d', hd, rfl⟩
      exact .cons hb ((ih d').1 hd)
    · intro h
      cases h with
      | cons hb hd => exact ⟨_, hb, _, (ih _).2 hd, rfl⟩

theorem sortStrings_length (l : List Str) : (MsgId.sortStrings l).length = l.length := by
  unfold MsgId.sortStrings
  exact List.length_insertionSort _ _

/-- the accepted requests -/
theorem prepare_ok (env : Env P S H L) (base64 : Str → Option Bytes) (disk : Storage.Disk) (req : Request) (task : Job L) :
    prepare env base64 disk req = .ok (.ok task) ↔ ∃ old, Accepted env base64 disk req old task := by
  constructor
  · intro h
    unfold prepare at h
    split at h
    · cases h
    · cases h
    · rename_i id hid
      dsimp only at h
      split at h
      · cases h
      · cases h
      · rename_i state hst
        split at h
        · cases h
        · rename_i decoded hdec
          split at h
          · rename_i old hold
            split at h
            · cases h
            · rename_i h1
              split at h
              · rename_i t ht
                split at h
                · cases h
                · rename_i h2
                  cases h
                  refine ⟨old, hid, hst, ⟨decoded, (decodeAll_eq _ _ _).1 hdec, rfl⟩, hold, ht, fun ho => ?_, rfl⟩
                  rw [sortStrings_length] at h1 h2
                  refine ⟨fun hn => h1 ⟨by simpa using congrArg List.length hn, ho⟩, ?_⟩
                  by_contra hlt
                  exact h2 ⟨by simpa using hlt, ho⟩
              · cases h
          · cases h
  · rintro ⟨old, hid, hst, ⟨decoded, hdec, hms⟩, hold, ht, hen, hsig⟩
    obtain ⟨msgID, msgs, threshold, state, signers⟩ := task
    dsimp only at hid hst hms ht hen hsig
    subst hms hsig
    unfold prepare
    rw [hid]
    dsimp only
    rw [hst]
    dsimp only
    rw [(decodeAll_eq _ _ _).2 hdec]
    dsimp only
    rw [hold]
    dsimp only
    rw [sortStrings_length, if_neg (by
      rintro ⟨h1, h2⟩
      exact (hen h2).1 (List.length_eq_zero_iff.1 h1)), ht]
    dsimp only
    rw [if_neg (by
      rintro ⟨h1, h2⟩
      have := (hen h2).2
      omega)]

end Verif.KeySign
