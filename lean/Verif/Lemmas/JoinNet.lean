import Verif.Model.JoinNet
import Verif.Lemmas.Server
import Mathlib.Data.List.Induction

/-! Facts about networks of joining nodes -/
set_option linter.unusedSectionVars false
namespace Verif.JoinNet
open Verif.Go Verif.JoinParty Verif.Server

variable {P S A H L : Type} [DecidableEq P] [LinearOrder A] [LinearOrder H]

theorem run_snoc (env : Env P A H L) (w : Wire) (job : Job) (h : List (Event P S)) (e : Event P S) :
    run env w job (h ++ [e]) = step env w job (run env w job h) e := by simp [run]

theorem netRun_snoc (env : P → Env P A H L) (w : Wire) (job : P → Job) (honest : P → Bool) (h : List (NetEvent P S)) (e : NetEvent P S) :
    netRun env w job honest (h ++ [e]) = netStep env w job honest (netRun env w job honest h) e := by simp [netRun]

/-! ## the join call of a node -/

theorem step_kind (env : Env P A H L) (c : JoinCall P) (e : JoinParty.Event P) :
    (c.step env e).kind = c.kind ∧ (c.step env e).leader = c.leader ∧ (c.step env e).msgID = c.msgID := ⟨rfl, rfl, rfl⟩

theorem fold_kind (env : Env P A H L) (jh : List (JoinParty.Event P)) (c : JoinCall P) :
    (jh.foldl (JoinCall.step env) c).kind = c.kind ∧ (jh.foldl (JoinCall.step env) c).leader = c.leader ∧
      (jh.foldl (JoinCall.step env) c).msgID = c.msgID := by
  induction jh generalizing c with
  | nil => exact ⟨rfl, rfl, rfl⟩
  | cons e jh ih => exact ih _

/-- is it the start of a join call? -/
def isStart : Event P S → Bool
  | .start _ => true
  | _ => false

/-- the groups that the first start of a history finds -/
def startGroups : List (Event P S) → Groups P
  | [] => []
  | .start gs :: _ => gs
  | _ :: h => startGroups h

theorem startGroups_append (a b : List (Event P S)) (h : a.any isStart = true) : startGroups (a ++ b) = startGroups a := by
  induction a with
  | nil => cases h
  | cons e a ih =>
    cases e with
    | start gs => rfl
    | _ => exact ih h

theorem startGroups_first (a : List (Event P S)) (gs : Groups P) (h : a.any isStart = false) : startGroups (a ++ [.start gs]) = gs := by
  induction a with
  | nil => rfl
  | cons e a ih =>
    cases e with
    | start gs' => cases h
    | _ => exact ih h

/-- the join call started at some time, and its history; every message of that history came in -/
def CallFrom (env : Env P A H L) (w : Wire) (job : Job) (hp : List (Event P S)) (c : JoinCall P) (c₀ : JoinCall P) (jh : List (JoinParty.Event P)) :
    Prop :=
  joinParty env (startGroups hp) job.msgID job.version job.blockHeight job.keys job.threshold = .ok c₀ ∧ c = jh.foldl (JoinCall.step env) c₀ ∧
    (∀ id b, .incoming id b ∈ jh → ∃ pr s p chunks, .incoming pr s p chunks ∈ hp ∧ (readStream w pr p chunks).2 = some (id, b)) ∧
    (∀ e, isLocal e = true → e ∈ jh → .local_ e ∈ hp)

theorem CallFrom.mono {env : Env P A H L} {w : Wire} {job : Job} {hp : List (Event P S)} {c c₀ : JoinCall P} {jh : List (JoinParty.Event P)}
    (h : CallFrom env w job hp c c₀ jh) (hs : hp.any isStart = true) (e : Event P S) : CallFrom env w job (hp ++ [e]) c c₀ jh := by
  obtain ⟨h1, h2, h3, h4⟩ := h
  refine ⟨by rw [startGroups_append _ _ hs]; exact h1, h2, fun id b hi => ?_, fun e' he hm => List.mem_append_left _ (h4 e' he hm)⟩
  obtain ⟨pr, s, p, chunks, h5, h6⟩ := h3 id b hi
  exact ⟨pr, s, p, chunks, List.mem_append_left _ h5, h6⟩

theorem sent_call (n : Node P S) (id : String) (pr : Proto) (q : P) (o : Option (S × Bytes)) :
    (n.sent id pr q o).call = n.call ∧ (n.sent id pr q o).pending = n.pending ∧ (n.sent id pr q o).sends = n.sends ++ [⟨pr, q, o⟩] := ⟨rfl, rfl, rfl⟩

/-- what an event of a node is for its running join call -/
def toJoin (w : Wire) : Event P S → List (JoinParty.Event P)
  | .local_ e => if isLocal e then [e] else []
  | .incoming pr _ p chunks => match (readStream w pr p chunks).2 with
    | some (id, b) => [.incoming id b]
    | none => []
  | _ => []

/-- the history of the join call of a node -/
def joinHist (w : Wire) : List (Event P S) → List (JoinParty.Event P)
  | [] => []
  | .start _ :: h => h.flatMap (toJoin w)
  | _ :: h => joinHist w h

theorem joinHist_append (w : Wire) (a b : List (Event P S)) :
    joinHist w (a ++ b) = if a.any isStart then joinHist w a ++ b.flatMap (toJoin w) else joinHist w b := by
  induction a with
  | nil => rfl
  | cons e a ih => cases e <;> simp [joinHist, isStart, ih]

theorem call_none (env : Env P A H L) (w : Wire) (job : Job) (hp : List (Event P S)) : (run env w job hp).call = none ↔ hp.any isStart = false := by
  induction hp using List.reverseRecOn with
  | nil => simp [run]
  | append_singleton hp e ih =>
    rw [run_snoc, List.any_append, List.any_cons, List.any_nil, Bool.or_false, Bool.or_eq_false_iff]
    cases e with
    | start gs =>
      simp only [step, isStart]
      split
      · simp
      · rename_i h1; simp [h1]
    | local_ e =>
      simp only [step, isStart, and_true]
      rw [← ih]
      split
      · rename_i h1
        split <;> simp [h1]
      · rfl
    | request q o =>
      simp only [step, isStart, and_true]
      rw [← ih]
      split
      · split <;> simp [sent_call]
      · rfl
    | answer i o =>
      simp only [step, isStart, and_true]
      rw [← ih]
      split
      · split <;> simp [sent_call]
      · rfl
    | incoming pr s p chunks =>
      simp only [step, isStart, and_true]
      rw [← ih]
      split
      · rename_i h1 h2; simp [h1]
      · rfl
    | release id => simp only [step, isStart, and_true]; exact ih

theorem call_some (env : Env P A H L) (w : Wire) (job : Job) (hp : List (Event P S)) (h : (run env w job hp).call ≠ none) :
    hp.any isStart = true := by
  by_contra hn
  exact h ((call_none env w job hp).2 (by simpa using hn))

/-- one more event -/
theorem joinHist_snoc (env : Env P A H L) (w : Wire) (job : Job) (hp : List (Event P S)) (e : Event P S) (h : (run env w job hp).call ≠ none) :
    joinHist w (hp ++ [e]) = joinHist w hp ++ toJoin w e := by
  rw [joinHist_append, if_pos (call_some env w job hp h)]
  simp

/-- where the join call of a node comes from -/
theorem call_from (env : Env P A H L) (w : Wire) (job : Job) (hp : List (Event P S)) (c : JoinCall P) (hc : (run env w job hp).call = some (.ok c)) :
    ∃ c₀, CallFrom env w job hp c c₀ (joinHist w hp) := by
  induction hp using List.reverseRecOn generalizing c with
  | nil => simp [run] at hc
  | append_singleton hp e ih =>
    rw [run_snoc] at hc
    have same : (run env w job hp).call = some (.ok c) → toJoin w e = [] → ∃ c₀, CallFrom env w job (hp ++ [e]) c c₀ (joinHist w (hp ++ [e])) :=
      fun h he => by
        obtain ⟨c₀, h1⟩ := ih c h
        rw [joinHist_snoc env w job hp e (by rw [h]; simp), he, List.append_nil]
        exact ⟨c₀, h1.mono (call_some env w job hp (by rw [h]; simp)) e⟩
    cases e with
    | start gs =>
      simp only [step] at hc
      split at hc
      · rename_i hn
        simp only [Option.some.injEq] at hc
        have : joinHist w (hp ++ [.start gs]) = [] := by
          rw [joinHist_append, if_neg (by rw [(call_none env w job hp).1 hn]; simp)]
          rfl
        rw [this]
        exact ⟨c, by rw [startGroups_first _ _ ((call_none env w job hp).1 hn)]; exact hc, rfl, by simp, by simp⟩
      · exact same hc rfl
    | local_ e =>
      simp only [step] at hc
      split at hc
      · rename_i c₁ hc₁
        split at hc
        · rename_i hl
          simp only [Option.some.injEq, Except.ok.injEq] at hc
          obtain ⟨c₀, h1, h2, h3, h4⟩ := ih c₁ hc₁
          rw [joinHist_snoc env w job hp _ (by rw [hc₁]; simp), toJoin, if_pos hl]
          refine ⟨c₀, by rw [startGroups_append _ _ (call_some env w job hp (by rw [hc₁]; simp))]; exact h1, ?_, ?_, ?_⟩
          · rw [List.foldl_append, ← h2]; exact hc.symm
          · intro id b hi
            rcases List.mem_append.1 hi with hi | hi
            · obtain ⟨pr, s, p, chunks, h5, h6⟩ := h3 id b hi
              exact ⟨pr, s, p, chunks, List.mem_append_left _ h5, h6⟩
            · rw [List.mem_singleton] at hi
              subst hi
              cases hl
          · intro e' he hm
            rcases List.mem_append.1 hm with hm | hm
            · exact List.mem_append_left _ (h4 e' he hm)
            · rw [List.mem_singleton] at hm
              subst hm
              simp
        · rename_i hl
          exact same hc (by rw [toJoin, if_neg hl])
      · rename_i hno
        exact absurd hc (hno c)
    | request q o =>
      simp only [step] at hc
      split at hc
      · split at hc <;> exact same hc rfl
      · exact same hc rfl
    | answer i o =>
      simp only [step] at hc
      split at hc
      · split at hc <;> exact same hc rfl
      · exact same hc rfl
    | incoming pr s p chunks =>
      simp only [step] at hc
      split at hc
      · rename_i c₁ id b hc₁ hr
        simp only [Option.some.injEq, Except.ok.injEq] at hc
        obtain ⟨c₀, h1, h2, h3, h4⟩ := ih c₁ hc₁
        rw [joinHist_snoc env w job hp _ (by rw [hc₁]; simp), toJoin, hr]
        refine ⟨c₀, by rw [startGroups_append _ _ (call_some env w job hp (by rw [hc₁]; simp))]; exact h1, ?_, ?_, ?_⟩
        · rw [List.foldl_append, ← h2]; exact hc.symm
        · intro id' b' hi
          rcases List.mem_append.1 hi with hi | hi
          · obtain ⟨pr, s, p, chunks, h5, h6⟩ := h3 id' b' hi
            exact ⟨pr, s, p, chunks, List.mem_append_left _ h5, h6⟩
          · rw [List.mem_singleton] at hi
            cases hi
            exact ⟨pr, s, p, chunks, by simp, hr⟩
        · intro e' he hm
          rcases List.mem_append.1 hm with hm | hm
          · exact List.mem_append_left _ (h4 e' he hm)
          · rw [List.mem_singleton] at hm
            subst hm
            cases he
      · rename_i hno
        refine same hc ?_
        simp only [toJoin]
        split
        · rename_i id b hr
          exact absurd hr (hno c id b hc)
        · rfl
    | release id => exact same hc rfl

/-! ## the verdict of a leader does not change -/

theorem memberStep_sent (cd : PeerCodec P) (t : Int) (id : String) (st : State P) (e : JoinParty.Event P) : (memberStep cd t id st e).sent = st.sent := by
  cases e <;> simp only [memberStep] <;> repeat' split
  all_goals rfl

theorem retryStep_sent (cd : PeerCodec P) (me : P) (n : Nat) (id : String) (st : State P) (e : JoinParty.Event P) : (retryStep cd me n id st e).sent = st.sent := by
  cases e <;> simp only [retryStep] <;> repeat' split
  all_goals rfl

theorem leaderStep_sent (cd : PeerCodec P) (me : P) (t : Int) (id : String) (st : State P) (e : JoinParty.Event P)
    (hi : st.sent ≠ none → st.phase = .done) :
    ((leaderStep cd me t id st e).sent ≠ none → (leaderStep cd me t id st e).phase = .done) ∧
      (st.sent ≠ none → (leaderStep cd me t id st e).sent = st.sent) := by
  cases e with
  | incoming id' b => exact ⟨hi, fun _ => rfl⟩
  | other id' g => exact ⟨hi, fun _ => rfl⟩
  | wake σ =>
    simp only [leaderStep]
    split
    · rename_i hw
      split
      · exact ⟨hi, fun _ => rfl⟩
      · refine ⟨fun h => ?_, fun _ => rfl⟩
        have := hi h
        rw [hw] at this; cases this
    · exact ⟨hi, fun _ => rfl⟩
  | timeout =>
    simp only [leaderStep]
    split
    · rename_i hw
      refine ⟨fun h => ?_, fun _ => rfl⟩
      have := hi h
      rw [hw] at this; cases this
    · exact ⟨hi, fun _ => rfl⟩
  | sig s => simp only [leaderStep]; split <;> exact ⟨hi, fun _ => rfl⟩
  | step σ =>
    simp only [leaderStep]
    split
    · rename_i he
      refine ⟨fun _ => rfl, fun h => ?_⟩
      have := hi h
      rw [he] at this; cases this
    · exact ⟨hi, fun _ => rfl⟩

/-- a join call that has announced a verdict is over, and only a leader announces one -/
def VerdictInv (c : JoinCall P) : Prop := c.st.sent ≠ none → c.st.phase = .done ∧ ∃ t, c.kind = .leader t

theorem step_verdict (env : Env P A H L) (c : JoinCall P) (e : JoinParty.Event P) (hi : VerdictInv c) :
    VerdictInv (c.step env e) ∧ (c.st.sent ≠ none → (c.step env e).st.sent = c.st.sent) := by
  obtain ⟨k, l, i, st⟩ := c
  cases k with
  | leaderless n =>
    have h0 : st.sent = none := by
      by_contra h
      obtain ⟨-, t, ht⟩ := hi h
      cases ht
    constructor
    · intro h
      simp only [JoinCall.step, retryStep_sent] at h
      exact absurd h0 h
    · intro h; exact absurd h0 h
  | member t =>
    have h0 : st.sent = none := by
      by_contra h
      obtain ⟨-, t, ht⟩ := hi h
      cases ht
    constructor
    · intro h
      simp only [JoinCall.step, memberStep_sent] at h
      exact absurd h0 h
    · intro h; exact absurd h0 h
  | leader t =>
    obtain ⟨h1, h2⟩ := leaderStep_sent env.peers env.me t i st e fun h => (hi h).1
    exact ⟨fun h => ⟨h1 h, t, rfl⟩, h2⟩

theorem joinParty_start {env : Env P A H L} {gs : Groups P} {id : String} {v : Str} {bh : Int} {keys : List Str} {t : Int} {c : JoinCall P}
    (h : joinParty env gs id v bh keys t = .ok c) : c.st.sent = none ∧ c.st.result = none ∧ c.msgID = id := by
  unfold joinParty at h
  repeat' split at h
  all_goals first
    | (obtain ⟨gs', -, rfl⟩ := startJoin_ok h; exact ⟨rfl, rfl, rfl⟩)
    | cases h

theorem fold_verdict (env : Env P A H L) (jh : List (JoinParty.Event P)) (c : JoinCall P) (hi : VerdictInv c) :
    VerdictInv (jh.foldl (JoinCall.step env) c) := by
  induction jh generalizing c with
  | nil => exact hi
  | cons e jh ih => exact ih _ (step_verdict env c e hi).1

theorem callFrom_verdict {env : Env P A H L} {w : Wire} {job : Job} {hp : List (Event P S)} {c c₀ : JoinCall P} {jh : List (JoinParty.Event P)}
    (h : CallFrom env w job hp c c₀ jh) : VerdictInv c ∧ c.msgID = job.msgID := by
  obtain ⟨h1, rfl, -⟩ := h
  obtain ⟨h2, -, h3⟩ := joinParty_start h1
  exact ⟨fold_verdict env jh c₀ (fun h => absurd h2 h), (fold_kind env jh c₀).2.2.trans h3⟩

/-! ## a join call returns once -/

/-- a join call that has returned is over -/
def ResultInv (c : JoinCall P) : Prop := c.st.result ≠ none → c.st.phase = .done

theorem step_result (env : Env P A H L) (c : JoinCall P) (e : JoinParty.Event P) (hi : ResultInv c) :
    ResultInv (c.step env e) ∧ (c.st.result ≠ none → (c.step env e).st.result = c.st.result) := by
  obtain ⟨k, l, i, st⟩ := c
  by_cases hr : st.result = none
  · refine ⟨fun h => ?_, fun h => absurd hr h⟩
    cases k with
    | leaderless n =>
      simp only [JoinCall.step] at h ⊢
      cases e <;> simp only [retryStep] at h ⊢ <;> repeat' split at h
      all_goals first | exact absurd hr h | skip
      all_goals simp_all
    | member t =>
      simp only [JoinCall.step] at h ⊢
      cases e <;> simp only [memberStep] at h ⊢ <;> repeat' split at h
      all_goals first | exact absurd hr h | skip
      all_goals simp_all
    | leader t =>
      simp only [JoinCall.step] at h ⊢
      cases e <;> simp only [leaderStep] at h ⊢ <;> repeat' split at h
      all_goals first | exact absurd hr h | skip
      all_goals simp_all
  · have hd : st.phase = .done := hi hr
    have key : (JoinCall.step env ⟨k, l, i, st⟩ e).st.phase = .done ∧ (JoinCall.step env ⟨k, l, i, st⟩ e).st.result = st.result := by
      cases k with
      | leaderless n => cases e <;> simp [JoinCall.step, retryStep, hd]
      | leader t => cases e <;> simp [JoinCall.step, leaderStep, hd]
      | member t =>
        cases e with
        | step σ => rcases hown : (own st i).bind Group.leaderResponse with _ | a <;> simp [JoinCall.step, memberStep, hown, hd]
        | _ => simp [JoinCall.step, memberStep, hd]
    exact ⟨fun _ => key.1, fun _ => key.2⟩

theorem fold_result (env : Env P A H L) (jh : List (JoinParty.Event P)) (c : JoinCall P) (hi : ResultInv c) :
    ResultInv (jh.foldl (JoinCall.step env) c) ∧ (c.st.result ≠ none → (jh.foldl (JoinCall.step env) c).st.result = c.st.result) := by
  induction jh generalizing c with
  | nil => exact ⟨hi, fun _ => rfl⟩
  | cons e jh ih =>
    obtain ⟨h1, h2⟩ := step_result env c e hi
    obtain ⟨h3, h4⟩ := ih _ h1
    refine ⟨h3, fun h => ?_⟩
    have h5 := h2 h
    rw [List.foldl_cons, h4 (by rw [h5]; exact h), h5]

/-- what a join call has returned at some time it has returned at all later times -/
theorem result_stays (env : Env P A H L) (c₀ : JoinCall P) (h0 : c₀.st.result = none) (a b : List (JoinParty.Event P)) (r : Result P)
    (hr : (a.foldl (JoinCall.step env) c₀).st.result = some r) : ((a ++ b).foldl (JoinCall.step env) c₀).st.result = some r := by
  rw [List.foldl_append]
  have hi := (fold_result env a c₀ (fun h => absurd h0 h)).1
  rw [(fold_result env b _ hi).2 (by rw [hr]; simp), hr]

/-- of two times, at the first of which the call has returned and at the second of which it has not, the second is the earlier one -/
theorem returned_later (env : Env P A H L) (c₀ : JoinCall P) (h0 : c₀.st.result = none) {a b jh : List (JoinParty.Event P)} (ha : a <+: jh) (hb : b <+: jh)
    (hra : (a.foldl (JoinCall.step env) c₀).st.result ≠ none) (hrb : (b.foldl (JoinCall.step env) c₀).st.result = none) : b.length < a.length := by
  by_contra hlt
  obtain ⟨x, hx⟩ := List.prefix_of_prefix_length_le ha hb (by omega)
  obtain ⟨r, hr⟩ := Option.ne_none_iff_exists'.1 hra
  have := result_stays env c₀ h0 a x r hr
  rw [hx, hrb] at this
  cases this

/-- a leader that is done has a result -/
theorem leader_done (cd : PeerCodec P) (me : P) (t : Int) (id : String) (gs : Groups P) (jh : List (JoinParty.Event P))
    (h : (runLeader cd me t id gs jh).phase = .done) : ∃ r, (runLeader cd me t id gs jh).result = some r := by
  induction jh using List.reverseRecOn with
  | nil => cases h
  | append_singleton jh e ih =>
    rw [runLeader_snoc] at h ⊢
    cases e with
    | incoming id' b => exact ih h
    | other id' g => exact ih h
    | wake σ =>
      simp only [leaderStep] at h ⊢
      split at h
      · rename_i hw
        rw [if_pos hw]
        split at h
        · exact ih h
        · cases h
      · rename_i hw
        rw [if_neg hw]
        exact ih h
    | timeout =>
      simp only [leaderStep] at h ⊢
      split at h
      · cases h
      · rename_i hw
        rw [if_neg hw]
        exact ih h
    | sig s =>
      simp only [leaderStep] at h ⊢
      split at h
      · rename_i hw
        simp only at h
        rw [hw] at h; cases h
      · rename_i hw
        rw [if_neg hw]
        exact ih h
    | step σ =>
      simp only [leaderStep] at h ⊢
      split
      · exact ⟨_, rfl⟩
      · rename_i hw
        rw [if_neg hw] at h
        exact ih h

/-! ## what a node writes -/

/-- the bytes that reached the stream are a part of the frame of `b` -/
def Written (b : Bytes) (o : Option (S × Bytes)) : Prop := ∀ st b', o = some (st, b') → b' <+: Stream.frame b

theorem written_send (b : Bytes) (o : Comm.Outcome S) : Written b (sendMsgToPeer b o) := by
  intro st b' h
  cases o with
  | noStream => cases h
  | stream s fault =>
    simp only [sendMsgToPeer, Option.some.injEq, Prod.mk.injEq] at h
    rw [← h.2]
    unfold Stream.WriteStreamWithBuffer
    cases fault with
    | none => exact List.prefix_rfl
    | some k =>
      simp only
      split
      · exact List.take_prefix _ _
      · exact List.prefix_rfl

/-- what an entry of the log of a node may be, its join call being `c` -/
def SendInv (env : Env P A H L) (w : Wire) (job : Job) (c : JoinCall P) (s : Send P S) : Prop :=
  (∃ r b, c.st.sent = some r ∧ w.encComm ⟨c.msgID, "response", r.typ, r.peerIDs⟩ = some b ∧ s.proto = .joinPartyWithLeader ∧ s.peer ∈ allPeers env job ∧
    s.peer ≠ env.me ∧ Written b s.out) ∨
  (∃ t b, c.kind = .member t ∧ env.peers.decode c.leader = some s.peer ∧ w.encComm ⟨c.msgID, "request", .unknown, []⟩ = some b ∧
    s.proto = .joinPartyWithLeader ∧ Written b s.out) ∨
  (∃ k b, c.kind = .leaderless k ∧ s.peer ∈ allPeers env job ∧ s.peer ≠ env.me ∧ w.encReq c.msgID = some b ∧ s.proto = .joinParty ∧ Written b s.out)

theorem SendInv.step {env : Env P A H L} {w : Wire} {job : Job} {c : JoinCall P} {s : Send P S} (h : SendInv env w job c s) (hv : VerdictInv c)
    (e : JoinParty.Event P) : SendInv env w job (c.step env e) s := by
  rcases h with ⟨r, b, h1, h2⟩ | h | h
  · exact .inl ⟨r, b, ((step_verdict env c e hv).2 (by rw [h1]; simp)).trans h1, h2⟩
  · exact .inr (.inl h)
  · exact .inr (.inr h)

/-- state of a node -/
def NodeInv (env : Env P A H L) (w : Wire) (job : Job) (n : Node P S) : Prop :=
  (∀ s ∈ n.sends, ∃ c, n.call = some (.ok c) ∧ SendInv env w job c s) ∧
  (∀ q b, (q, b) ∈ n.pending → ∃ c r, n.call = some (.ok c) ∧ c.st.sent = some r ∧
    w.encComm ⟨c.msgID, "response", r.typ, r.peerIDs⟩ = some b ∧ q ∈ allPeers env job)

theorem mem_sendResponseToAll {env : Env P A H L} {w : Wire} {job : Job} {c : JoinCall P} {r : Resp} {q : P} {b : Bytes}
    (h : (q, b) ∈ sendResponseToAll env w job c r) :
    w.encComm ⟨c.msgID, "response", r.typ, r.peerIDs⟩ = some b ∧ q ∈ allPeers env job := by
  unfold sendResponseToAll at h
  split at h
  · simp at h
  · rename_i b' hb
    simp only [List.mem_map, Prod.mk.injEq] at h
    obtain ⟨q', h1, rfl, rfl⟩ := h
    exact ⟨hb, h1⟩

theorem node_inv (env : Env P A H L) (w : Wire) (job : Job) (hp : List (Event P S)) : NodeInv env w job (run env w job hp) := by
  induction hp using List.reverseRecOn with
  | nil => exact ⟨by simp [run], by simp [run]⟩
  | append_singleton hp e ih =>
    rw [run_snoc]
    obtain ⟨i1, i2⟩ := ih
    have hv : ∀ c, (run env w job hp).call = some (.ok c) → VerdictInv c := fun c hc => by
      obtain ⟨c₀, h⟩ := call_from env w job hp c hc
      exact (callFrom_verdict h).1
    cases e with
    | start gs =>
      simp only [step]
      split
      · rename_i hn
        refine ⟨fun s hs => ?_, fun q b hq => ?_⟩
        · obtain ⟨c, hc, -⟩ := i1 s hs
          rw [hn] at hc; cases hc
        · obtain ⟨c, r, hc, -⟩ := i2 q b hq
          rw [hn] at hc; cases hc
      · exact ⟨i1, i2⟩
    | local_ e =>
      simp only [step]
      split
      · rename_i c hc
        split
        · refine ⟨fun s hs => ?_, fun q b hq => ?_⟩
          · obtain ⟨c', hc', h⟩ := i1 s hs
            rw [hc] at hc'; cases hc'
            exact ⟨_, rfl, h.step (hv c hc) e⟩
          · have old : (q, b) ∈ (run env w job hp).pending → ∃ c' r, some (Except.ok (ε := JoinOut P) (c.step env e)) = some (.ok c') ∧ c'.st.sent = some r ∧
                w.encComm ⟨c'.msgID, "response", r.typ, r.peerIDs⟩ = some b ∧ q ∈ allPeers env job := fun hq => by
              obtain ⟨c', r, hc', h1, h2, h3⟩ := i2 q b hq
              rw [hc] at hc'; cases hc'
              exact ⟨_, r, rfl, ((step_verdict env c e (hv c hc)).2 (by rw [h1]; simp)).trans h1, h2, h3⟩
            simp only at hq
            split at hq
            · rename_i r h1 h2
              rcases List.mem_append.1 hq with hq | hq
              · exact old hq
              · obtain ⟨h3, h4⟩ := mem_sendResponseToAll hq
                exact ⟨_, r, rfl, h2, h3, h4⟩
            · exact old hq
        · exact ⟨i1, i2⟩
      · exact ⟨i1, i2⟩
    | request q o =>
      simp only [step]
      split
      · rename_i c hc
        split
        · exact ⟨i1, i2⟩
        · rename_i pr b hw
          refine ⟨fun s hs => ?_, i2⟩
          rw [(sent_call _ _ _ _ _).2.2] at hs
          rcases List.mem_append.1 hs with hs | hs
          · exact i1 s hs
          · rw [List.mem_singleton] at hs
            subst hs
            refine ⟨c, hc, ?_⟩
            unfold wish at hw
            split at hw
            · cases hw
            · rename_i t hk
              split at hw
              · rename_i hcond
                rw [Option.map_eq_some_iff] at hw
                obtain ⟨b', h1, h2⟩ := hw
                cases h2
                exact .inr (.inl ⟨t, _, hk, hcond.1, h1, rfl, written_send _ o⟩)
              · cases hw
            · rename_i k hk
              split at hw
              · rename_i hcond
                rw [Option.map_eq_some_iff] at hw
                obtain ⟨b', h1, h2⟩ := hw
                cases h2
                exact .inr (.inr ⟨k, _, hk, hcond.1, hcond.2.1, h1, rfl, written_send _ o⟩)
              · cases hw
      · exact ⟨i1, i2⟩
    | answer i o =>
      simp only [step]
      split
      · rename_i c q b hc hq
        have hmem := List.mem_of_getElem? hq
        obtain ⟨c', r, hc', h1, h2, h3⟩ := i2 q b hmem
        rw [hc] at hc'; cases hc'
        have hpend : ∀ q b, (q, b) ∈ (run env w job hp).pending.eraseIdx i → ∃ c r, (run env w job hp).call = some (.ok c) ∧ c.st.sent = some r ∧
            w.encComm ⟨c.msgID, "response", r.typ, r.peerIDs⟩ = some b ∧ q ∈ allPeers env job :=
          fun q b hq => i2 q b ((List.eraseIdx_sublist _ _).subset hq)
        split
        · exact ⟨i1, hpend⟩
        · rename_i hne
          refine ⟨fun s hs => ?_, hpend⟩
          rw [(sent_call _ _ _ _ _).2.2] at hs
          rcases List.mem_append.1 hs with hs | hs
          · exact i1 s hs
          · rw [List.mem_singleton] at hs
            subst hs
            exact ⟨c, hc, .inl ⟨r, b, h1, h2, rfl, h3, hne, written_send _ o⟩⟩
      · exact ⟨i1, i2⟩
    | incoming pr s p chunks =>
      simp only [step]
      refine ⟨fun s' hs => ?_, fun q b hq => ?_⟩
      · obtain ⟨c, hc, h⟩ := i1 s' hs
        simp only [hc]
        split
        · rename_i c' id b hc' hr
          cases hc'
          exact ⟨_, rfl, h.step (hv c hc) _⟩
        · exact ⟨c, rfl, h⟩
      · obtain ⟨c, r, hc, h1, h2, h3⟩ := i2 q b hq
        simp only [hc]
        split
        · rename_i c' id b hc' hr
          cases hc'
          exact ⟨_, r, rfl, ((step_verdict env c _ (hv c hc)).2 (by rw [h1]; simp)).trans h1, h2, h3⟩
        · exact ⟨c, r, rfl, h1, h2, h3⟩
    | release id => exact ⟨i1, i2⟩

theorem sends_mono (env : Env P A H L) (w : Wire) (job : Job) (n : Node P S) (e : Event P S) : n.sends <+: (step env w job n e).sends := by
  cases e with
  | start gs => simp only [step]; split <;> exact List.prefix_rfl
  | local_ e => simp only [step]; repeat' split
                all_goals exact List.prefix_rfl
  | request q o =>
    simp only [step]
    split
    · split
      · exact List.prefix_rfl
      · exact List.prefix_append _ _
    · exact List.prefix_rfl
  | answer i o =>
    simp only [step]
    split
    · split
      · exact List.prefix_rfl
      · exact List.prefix_append _ _
    · exact List.prefix_rfl
  | incoming pr s p chunks => exact List.prefix_rfl
  | release id => exact List.prefix_rfl

/-! ## how often a leader writes -/

/-- the receivers of the verdict `r` -/
def receivers (env : Env P A H L) (w : Wire) (job : Job) (c : JoinCall P) (r : Resp) : List P :=
  ((sendResponseToAll env w job c r).map Prod.fst).filter (· ≠ env.me)

/-- state of the node of a leader: before the verdict nothing is written, after it what is written and what waits is what is wanted -/
def CountInv (env : Env P A H L) (w : Wire) (job : Job) (n : Node P S) : Prop :=
  ∀ c t, n.call = some (.ok c) → c.kind = .leader t →
    match c.st.sent with
    | none => n.sends = [] ∧ n.pending = []
    | some r => List.Perm (n.sends.map Send.peer ++ (n.pending.map Prod.fst).filter (· ≠ env.me)) (receivers env w job c r)

theorem perm_eraseIdx {α : Type} {l : List α} {i : Nat} {a : α} (h : l[i]? = some a) : List.Perm l (a :: l.eraseIdx i) := by
  induction l generalizing i with
  | nil => simp at h
  | cons b l ih =>
    cases i with
    | zero => simp only [List.getElem?_cons_zero, Option.some.injEq] at h; subst h; exact List.Perm.refl _
    | succ i =>
      simp only [List.getElem?_cons_succ] at h
      exact ((ih h).cons b).trans (List.Perm.swap _ _ _)

theorem count_inv (env : Env P A H L) (w : Wire) (job : Job) (hp : List (Event P S)) : CountInv env w job (run env w job hp) := by
  induction hp using List.reverseRecOn with
  | nil => intro c t hc; simp [run] at hc
  | append_singleton hp e ih =>
    rw [run_snoc]
    have hv : ∀ c, (run env w job hp).call = some (.ok c) → VerdictInv c := fun c hc => by
      obtain ⟨c₀, h⟩ := call_from env w job hp c hc
      exact (callFrom_verdict h).1
    have hstart := node_inv env w job hp
    generalize run env w job hp = n at *
    intro c t hc hk
    cases e with
    | start gs =>
      rcases hn : n.call with _ | x
      · have hstep : step env w job n (.start gs) =
          { n with call := some (joinParty env gs job.msgID job.version job.blockHeight job.keys job.threshold) } := by simp only [step, hn]
        rw [hstep] at hc ⊢
        simp only [Option.some.injEq] at hc
        rw [(joinParty_start hc).1]
        refine ⟨?_, ?_⟩
        · rw [List.eq_nil_iff_forall_not_mem]
          intro s hs
          obtain ⟨c', hc', -⟩ := hstart.1 s hs
          rw [hn] at hc'; cases hc'
        · rw [List.eq_nil_iff_forall_not_mem]
          rintro ⟨q, b⟩ hq
          obtain ⟨c', r, hc', -⟩ := hstart.2 q b hq
          rw [hn] at hc'; cases hc'
      · have hstep : step env w job n (.start gs) = n := by simp only [step, hn]
        rw [hstep] at hc ⊢
        exact ih c t hc hk
    | local_ e =>
      by_cases hex : ∃ c₁, n.call = some (.ok c₁)
      · obtain ⟨c₁, hc₁⟩ := hex
        by_cases hl : isLocal e = true
        · have hstep : step env w job n (.local_ e) = { n with call := some (.ok (c₁.step env e)), pending := match c₁.st.sent, (c₁.step env e).st.sent with
                  | none, some r => n.pending ++ sendResponseToAll env w job c₁ r
                  | _, _ => n.pending } := by simp only [step, hc₁, hl, if_true]; rfl
          rw [hstep] at hc ⊢
          simp only [Option.some.injEq, Except.ok.injEq] at hc
          subst hc
          have hi := ih c₁ t hc₁ hk
          rcases hs : c₁.st.sent with _ | r
          · rw [hs] at hi
            simp only
            rcases hs' : (c₁.step env e).st.sent with _ | r'
            · simp only; exact hi
            · simp only [hi.1, hi.2, List.map_nil, List.nil_append]
              exact List.Perm.refl _
          · rw [hs] at hi
            have hs' := ((step_verdict env c₁ e (hv c₁ hc₁)).2 (by rw [hs]; simp)).trans hs
            simp only [hs']
            exact hi
        · have hstep : step env w job n (.local_ e) = n := by simp [step, hc₁, hl]
          rw [hstep] at hc ⊢
          exact ih c t hc hk
      · have hstep : step env w job n (.local_ e) = n := by
          simp only [step]
          split
          · rename_i c₁ hc₁; exact absurd ⟨c₁, hc₁⟩ hex
          · rfl
        rw [hstep] at hc ⊢
        exact ih c t hc hk
    | request q o =>
      have hcall : (step env w job n (.request q o)).call = n.call := by
        simp only [step]; repeat' split
        all_goals rfl
      rw [hcall] at hc
      have hwish : wish env w job c q = none := by simp [wish, hk]
      have : step env w job n (.request q o) = n := by simp only [step, hc, hwish]
      rw [this]
      exact ih c t hc hk
    | answer i o =>
      have hcall : (step env w job n (.answer i o)).call = n.call := by
        simp only [step]
        split
        · split <;> rfl
        · rfl
      rw [hcall] at hc
      have hi := ih c t hc hk
      rcases hp : n.pending[i]? with _ | ⟨q, b⟩
      · have : step env w job n (.answer i o) = n := by simp only [step, hc, hp]
        rw [this]; exact hi
      · obtain ⟨c', r, hc', hr, -⟩ := hstart.2 q b (List.mem_of_getElem? hp)
        rw [hc] at hc'; cases hc'
        have hperm := (perm_eraseIdx hp).map Prod.fst
        simp only [hr] at hi ⊢
        by_cases hq : q = env.me
        · have : step env w job n (.answer i o) = { n with pending := n.pending.eraseIdx i } := by simp only [step, hc, hp, hq, if_true]
          rw [this]
          refine List.Perm.trans ?_ hi
          refine List.Perm.append_left _ ?_
          have h1 := (hperm.filter (· ≠ env.me)).symm
          simp only [List.map_cons, List.filter_cons, hq, ne_eq, not_true_eq_false, decide_false, Bool.false_eq_true, if_false] at h1
          exact h1
        · have : step env w job n (.answer i o) = ({ n with pending := n.pending.eraseIdx i } : Node P S).sent c.msgID .joinPartyWithLeader q
              (sendMsgToPeer b o) := by simp only [step, hc, hp, if_neg hq]
          rw [this, (sent_call _ _ _ _ _).2.1, (sent_call _ _ _ _ _).2.2]
          refine List.Perm.trans ?_ hi
          have h1 := (hperm.filter (· ≠ env.me)).symm
          simp only [List.map_cons, List.filter_cons, hq, ne_eq, not_false_eq_true, decide_true, if_true] at h1
          simp only [List.map_append, List.map_cons, List.map_nil, List.append_assoc, List.singleton_append]
          exact List.Perm.append_left _ h1
    | incoming pr s p chunks =>
      simp only [step] at hc ⊢
      split at hc
      · rename_i c₁ id b hc₁ hr
        simp only [Option.some.injEq, Except.ok.injEq] at hc
        subst hc
        have hi := ih c₁ t hc₁ hk
        have hs' : (c₁.step env (.incoming id b)).st.sent = c₁.st.sent := by
          have : c₁.kind = .leader t := hk
          simp [JoinCall.step, this, leaderStep]
        rw [hs']
        exact hi
      · exact ih c t hc hk
    | release id => exact ih c t hc hk

/-! ## networks -/

/-- an honest node `q` has written bytes starting with `b` to `p` -/
def WroteTo (n : Net P S) (q p : P) (pr : Proto) (b : Bytes) : Prop := ∃ st, (⟨pr, p, some (st, b)⟩ : Send P S) ∈ (n.nodes q).sends

/-- where streams come from -/
def StreamInv (honest : P → Bool) (n : Net P S) : Prop := ∀ p q pr b, (p, q, pr, b) ∈ n.pool → honest p = true ∧ WroteTo n p q pr b

/-- the history of a node, and where its incoming streams come from -/
def NodeFrom (env : P → Env P A H L) (w : Wire) (job : P → Job) (honest : P → Bool) (n : Net P S) (p : P) (hp : List (Event P S)) : Prop :=
  n.nodes p = run (env p) w (job p) hp ∧ ∀ pr s q chunks, .incoming pr s q chunks ∈ hp →
    honest q = true → ∃ b, chunks.flatten <+: b ∧ WroteTo n q p pr b

/-- where a node stands determines where it stands later -/
theorem run_append (env : Env P A H L) (w : Wire) (job : Job) (a b : List (Event P S)) : run env w job (a ++ b) = b.foldl (step env w job) (run env w job a) := by
  simp [run]

/-- what an event of the network is for node `p` -/
def nodeEvent (honest : P → Bool) (n : Net P S) (p : P) : NetEvent P S → List (Event P S)
  | .at_ q e => if (honest q = true ∧ isIncoming e = false) ∧ p = q then [e] else []
  | .deliver i s chunks => match n.pool[i]? with
    | none => []
    | some (p', q, pr, b) => if (honest q = true ∧ chunks.flatten <+: b) ∧ p = q then [.incoming pr s p' chunks] else []
  | .foreign pr s p' q chunks => if (honest p' = false ∧ honest q = true) ∧ p = q then [.incoming pr s p' chunks] else []

/-- the history of node `p`, the network being in state `n` at the beginning -/
def nodeHist (env : P → Env P A H L) (w : Wire) (job : P → Job) (honest : P → Bool) (p : P) : Net P S → List (NetEvent P S) → List (Event P S)
  | _, [] => []
  | n, e :: h => nodeEvent honest n p e ++ nodeHist env w job honest p (netStep env w job honest n e) h

theorem nodeHist_append (env : P → Env P A H L) (w : Wire) (job : P → Job) (honest : P → Bool) (p : P) (n : Net P S) (a b : List (NetEvent P S)) :
    nodeHist env w job honest p n (a ++ b) =
      nodeHist env w job honest p n a ++ nodeHist env w job honest p (a.foldl (netStep env w job honest) n) b := by
  induction a generalizing n with
  | nil => rfl
  | cons e a ih => simp [nodeHist, ih]

/-- the history of node `p` in a network -/
def histOf (env : P → Env P A H L) (w : Wire) (job : P → Job) (honest : P → Bool) (h : List (NetEvent P S)) (p : P) : List (Event P S) :=
  nodeHist env w job honest p ⟨fun _ => {}, []⟩ h

theorem histOf_append (env : P → Env P A H L) (w : Wire) (job : P → Job) (honest : P → Bool) (p : P) (a b : List (NetEvent P S)) :
    histOf env w job honest (a ++ b) p = histOf env w job honest a p ++ nodeHist env w job honest p (netRun env w job honest a) b :=
  nodeHist_append _ _ _ _ _ _ _ _

theorem histOf_snoc (env : P → Env P A H L) (w : Wire) (job : P → Job) (honest : P → Bool) (p : P) (a : List (NetEvent P S)) (e : NetEvent P S) :
    histOf env w job honest (a ++ [e]) p = histOf env w job honest a p ++ nodeEvent honest (netRun env w job honest a) p e := by
  rw [histOf_append]; simp [nodeHist]

theorem net_inv (env : P → Env P A H L) (w : Wire) (job : P → Job) (honest : P → Bool) (h : List (NetEvent P S)) :
    StreamInv honest (netRun env w job honest h) ∧
      ∀ p, NodeFrom env w job honest (netRun env w job honest h) p (histOf env w job honest h p) := by
  induction h using List.reverseRecOn with
  | nil => exact ⟨fun p q pr b hm => by simp [netRun] at hm, fun p => ⟨rfl, by simp [histOf, nodeHist]⟩⟩
  | append_singleton h e ih =>
    simp only [histOf_snoc]
    rw [netRun_snoc]
    obtain ⟨ih1, ih2⟩ := ih
    generalize netRun env w job honest h = n at ih1 ih2 ⊢
    -- a step of node `q` keeps what was written
    have wrote : ∀ (q : P) (ev : Event P S) (pool : List (P × P × Proto × Bytes)) {q' p' : P} {pr : Proto} {b : Bytes}, WroteTo n q' p' pr b →
        WroteTo (⟨n.update q (step (env q) w (job q) (n.nodes q) ev), pool⟩ : Net P S) q' p' pr b := by
      intro q ev pool q' p' pr b ⟨st, hs⟩
      refine ⟨st, ?_⟩
      simp only [Net.update]
      split
      · rename_i hq; subst hq; exact (sends_mono _ _ _ _ _).subset hs
      · exact hs
    have nodes : ∀ (q : P) (ev : Event P S) (pool : List (P × P × Proto × Bytes)),
        (∀ pr s q' chunks, ev = .incoming pr s q' chunks → honest q' = true → ∃ b, chunks.flatten <+: b ∧ WroteTo n q' q pr b) →
        ∀ p, NodeFrom env w job honest (⟨n.update q (step (env q) w (job q) (n.nodes q) ev), pool⟩ : Net P S) p
          (histOf env w job honest h p ++ if p = q then [ev] else []) := by
      intro q ev pool hev p
      obtain ⟨h1, h2⟩ := ih2 p
      by_cases hpq : p = q
      · subst hpq
        rw [if_pos rfl]
        refine ⟨?_, ?_⟩
        · simp only [Net.update, if_true, run_snoc, h1]
        · intro pr s q' chunks hm hq'
          rcases List.mem_append.1 hm with hm | hm
          · obtain ⟨b, h3, h4⟩ := h2 pr s q' chunks hm hq'
            exact ⟨b, h3, wrote _ _ _ h4⟩
          · rw [List.mem_singleton] at hm
            obtain ⟨b, h3, h4⟩ := hev pr s q' chunks hm.symm hq'
            exact ⟨b, h3, wrote _ _ _ h4⟩
      · rw [if_neg hpq, List.append_nil]
        refine ⟨?_, ?_⟩
        · simp only [Net.update, if_neg hpq]; exact h1
        · intro pr s q' chunks hm hq'
          obtain ⟨b, h3, h4⟩ := h2 pr s q' chunks hm hq'
          exact ⟨b, h3, wrote _ _ _ h4⟩
    cases e with
    | at_ q ev =>
      simp only [netStep, nodeEvent]
      split
      · rename_i hc
        refine ⟨?_, fun p => ?_⟩
        · intro p' q' pr b hm
          rcases List.mem_append.1 hm with hm | hm
          · obtain ⟨h1, h2⟩ := ih1 _ _ _ _ hm
            exact ⟨h1, wrote _ _ _ h2⟩
          · unfold written at hm
            rw [List.mem_filterMap] at hm
            obtain ⟨s, hs, ho⟩ := hm
            rw [Option.map_eq_some_iff] at ho
            obtain ⟨⟨st, b'⟩, ho, he⟩ := ho
            cases he
            refine ⟨hc.1, st, ?_⟩
            simp only [Net.update, if_true]
            have := List.mem_of_mem_drop hs
            obtain ⟨pr, peer, out⟩ := s
            simp only at ho
            subst ho
            exact this
        · simp only [hc, true_and, and_self]
          exact nodes q ev _ (fun pr s q' chunks he => by subst he; exact absurd hc.2 (by simp [isIncoming])) p
      · rename_i hc
        simp only [hc, false_and, if_false, List.append_nil]
        exact ⟨ih1, ih2⟩
    | deliver i s chunks =>
      rcases hp : n.pool[i]? with _ | ⟨p, q, pr, b⟩
      · simp only [netStep, nodeEvent, hp, List.append_nil]
        exact ⟨ih1, ih2⟩
      · simp only [netStep, nodeEvent, hp]
        split
        · rename_i hc
          have hm := List.mem_of_getElem? hp
          refine ⟨?_, fun p' => ?_⟩
          · intro p' q' pr' b' hm'
            obtain ⟨h1, h2⟩ := ih1 _ _ _ _ ((List.eraseIdx_sublist _ _).subset hm')
            exact ⟨h1, wrote _ _ _ h2⟩
          · simp only [hc, true_and, and_self]
            refine nodes q _ _ ?_ p'
            intro pr' s' q' chunks' he hq'
            cases he
            exact ⟨b, hc.2, (ih1 _ _ _ _ hm).2⟩
        · rename_i hc
          simp only [hc, false_and, if_false, List.append_nil]
          exact ⟨ih1, ih2⟩
    | foreign pr s p q chunks =>
      simp only [netStep, nodeEvent]
      split
      · rename_i hc
        refine ⟨?_, fun p' => ?_⟩
        · intro p' q' pr' b' hm'
          obtain ⟨h1, h2⟩ := ih1 _ _ _ _ hm'
          exact ⟨h1, wrote _ _ _ h2⟩
        · simp only [hc, true_and, and_self]
          refine nodes q _ _ ?_ p'
          intro pr' s' q' chunks' he hq'
          cases he
          rw [hc.1] at hq'; cases hq'
      · rename_i hc
        simp only [hc, false_and, if_false, List.append_nil]
        exact ⟨ih1, ih2⟩

end Verif.JoinNet
