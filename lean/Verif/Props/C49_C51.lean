import Verif.Lemmas.KeySign
import Verif.Lemmas.Server
import Verif.Props.C08
import Verif.Props.C38_C41
import Verif.Spec.DemoServer

/-! # C49-C51, C53 (KeySign), C76, C77: KeySign -/
set_option linter.unusedSectionVars false
namespace Verif.Props.KeySigning
open Verif.Go Verif.Conversion Verif.Blame Verif.Server Verif.Session Verif.KeySign Verif.Spec.KeySign Verif.Spec.Server Verif.Props Verif.Props.Join
open Verif.JoinParty hiding Event
open scoped List

section main
variable {P S H L : Type} [DecidableEq P] [LinearOrder S] [LinearOrder H]

variable {env : Env P S H L} {base64 : Str → Option Bytes} {nenv : SigNotifier.Env} {disk : Storage.Disk} {req : Request} {nh : List SigNotifier.Event}
  {old : Bool} {task : Job L}

/-- a KeySign call with these requests while the notifier has seen `nh` -/
abbrev call (env : Env P S H L) (base64 : Str → Option Bytes) (nenv : SigNotifier.Env) (disk : Storage.Disk) (req : Request)
    (nh : List SigNotifier.Event) (h : List (Event P)) : St P := KeySign.run env base64 nenv disk req (SigNotifier.run nenv nh) h

theorem call_accepted (hacc : Accepted env base64 disk req old task) (h : List (Event P)) :
    call env base64 nenv disk req nh h = h.foldl (step env nenv req task) (init (SigNotifier.run nenv nh)) := by
  unfold call KeySign.run
  rw [(prepare_ok env base64 disk req task).2 ⟨old, hacc⟩]

theorem call_snoc (hacc : Accepted env base64 disk req old task) (h : List (Event P)) (e : Event P) :
    call env base64 nenv disk req nh (h ++ [e]) = step env nenv req task (call env base64 nenv disk req nh h) e := by
  rw [call_accepted hacc, call_accepted hacc, List.foldl_append]
  rfl

theorem call_inv (hc : (SigNotifier.run nenv nh).crashed = false) (hacc : Accepted env base64 disk req old task) (h : List (Event P)) :
    ∃ ex, (∀ x ∈ ex, Event.notifier x ∈ h ∨ ∃ i m k, x = .wait i m k) ∧
      KeySign.Inv env nenv req task old h (nh ++ ex) (call env base64 nenv disk req nh h) := by
  rw [call_accepted hacc]
  exact inv_run env nenv req task old nh hc hacc.version h

/-! ## C50 the channel -/

/-- C50: at most two values are ever sent on the channel, each of the two once, which is its capacity. -/
theorem c50_at_most_two (hc : (SigNotifier.run nenv nh).crashed = false) (hacc : Accepted env base64 disk req old task) (h : List (Event P)) :
    let s := call env base64 nenv disk req nh h
    s.sends.length ≤ 2 ∧ s.sends.Nodup ∧ (∀ x ∈ s.sends, x = "signature received" ∨ x = "signature generated") ∧ s.buf.length ≤ 2 := by
  obtain ⟨ex, -, hi⟩ := call_inv hc hacc h
  have h1 := hi.count
  have h2 : (call env base64 nenv disk req nh h).waiter.count ≤ 1 := by
    rcases (call env base64 nenv disk req nh h).waiter with _ | _ | _ | (_ | _) <;> simp [Waiter.count]
  have h3 : (call env base64 nenv disk req nh h).gen.count ≤ 1 := by
    cases (call env base64 nenv disk req nh h).gen <;> simp [Gen.count]
  have h4 := hi.bufLen
  refine ⟨by omega, hi.nodup, fun x hx => ?_, by omega⟩
  rcases hi.sends x hx with h | h
  · exact .inl h.1
  · exact .inr h.1

/-- C50: the values on the channel are for the call's own wait. What happens to the waits of other calls, their cancellation included, leaves the
channel alone and goes its way; a value is taken from the channel only by the cancellation of the own wait. -/
theorem c50_own_channel (hacc : Accepted env base64 disk req old task) (h : List (Event P)) (e : SigNotifier.Event)
    (hal : (call env base64 nenv disk req nh h).crashed = false) :
    let s := call env base64 nenv disk req nh h
    let s' := call env base64 nenv disk req nh (h ++ [.notifier e])
    ((∀ w, s.waiter = .waiting w → e ≠ .cancel w) → s'.buf = s.buf ∧ s'.nt = SigNotifier.step nenv s.nt e) ∧
    (s'.buf ≠ s.buf → ∃ w x, s.waiter = .waiting w ∧ e = .cancel w ∧ s.buf = x :: s'.buf) := by
  intro s s'
  have hs : s' = step env nenv req task s (.notifier e) := call_snoc hacc h _
  rw [hs]
  have hal' : s.crashed = false := hal
  clear_value s s'
  unfold step
  rw [if_neg (by simp [hal'])]
  dsimp only
  rcases hw : s.waiter with _ | w | r | r <;> dsimp only
  · exact ⟨fun _ => ⟨rfl, rfl⟩, fun h => absurd rfl h⟩
  · by_cases hc : isCancel w e = true
    · have he : e = .cancel w := by
        unfold isCancel at hc
        split at hc
        · rw [of_decide_eq_true hc]
        · cases hc
      rw [if_pos hc]
      refine ⟨fun h => absurd he (h w rfl), ?_⟩
      rcases hb : s.buf with _ | ⟨x, rest⟩
      · exact fun h => absurd hb h
      · dsimp only
        split
        · exact fun _ => ⟨w, x, rfl, he, rfl⟩
        · exact fun h => absurd hb h
    · rw [if_neg hc]
      exact ⟨fun _ => ⟨rfl, rfl⟩, fun h => absurd rfl h⟩
  · exact ⟨fun _ => ⟨rfl, rfl⟩, fun h => absurd rfl h⟩
  · exact ⟨fun _ => ⟨rfl, rfl⟩, fun h => absurd rfl h⟩

/-- C50: a goroutine that wants to send can do so at once; the channel is open and has room. -/
theorem c50_sends_succeed (hc : (SigNotifier.run nenv nh).crashed = false) (hacc : Accepted env base64 disk req old task) (h : List (Event P))
    (hal : (call env base64 nenv disk req nh h).crashed = false) :
    (∀ r, (call env base64 nenv disk req nh h).waiter = .send r →
      (call env base64 nenv disk req nh (h ++ [.waitSend])).waiter = .done (some r) ∧
      (call env base64 nenv disk req nh (h ++ [.waitSend])).crashed = false) ∧
    (∀ k, (call env base64 nenv disk req nh h).gen = .send k →
      (call env base64 nenv disk req nh (h ++ [.genSend])).gen = .finish k ∧
      (call env base64 nenv disk req nh (h ++ [.genSend])).crashed = false) := by
  obtain ⟨ex, -, hi⟩ := call_inv hc hacc h
  rw [call_snoc hacc, call_snoc hacc]
  generalize call env base64 nenv disk req nh h = s at hi hal ⊢
  have hcount := hi.count
  constructor
  · intro r hw
    have hret := hi.ret_none (.inl (by rw [hw]; intro w h; cases h))
    have hn : s.sends.length ≤ 1 := by
      have : s.gen.count ≤ 1 := by cases s.gen <;> simp [Gen.count]
      rw [hw] at hcount
      simp only [Waiter.count] at hcount
      omega
    unfold step
    rw [if_neg (by simp [hal])]
    simp only [hw, sendChan_ok hi _ hret hn, hal, and_self]
  · intro k hg
    have hret := hi.ret_none (.inr (by rw [hg]; intro w h; cases h))
    have hn : s.sends.length ≤ 1 := by
      have : s.waiter.count ≤ 1 := by rcases s.waiter with _ | _ | _ | (_ | _) <;> simp [Waiter.count]
      rw [hg] at hcount
      simp only [Gen.count] at hcount
      omega
    unfold step
    rw [if_neg (by simp [hal])]
    simp only [hg, sendChan_ok hi _ hret hn, hal, and_self]

/-- C50: sends and the close never panic. -/
theorem c50_no_panic (hc : (SigNotifier.run nenv nh).crashed = false) (hacc : Accepted env base64 disk req old task) (h : List (Event P))
    (e : Event P) (he : e = .waitSend ∨ e = .genSend ∨ e = .main) :
    (call env base64 nenv disk req nh (h ++ [e])).crashed = (call env base64 nenv disk req nh h).crashed := by
  obtain ⟨ex, -, hi⟩ := call_inv hc hacc h
  have hs := c50_sends_succeed hc hacc h
  rcases hal : (call env base64 nenv disk req nh h).crashed with _ | _
  · obtain ⟨h1, h2⟩ := hs hal
    rcases he with rfl | rfl | rfl
    · rcases hw : (call env base64 nenv disk req nh h).waiter with _ | _ | r | _
      case send => exact (h1 r hw).2
      all_goals
        rw [call_snoc hacc]
        unfold step
        rw [if_neg (by simp [hal])]
        simp only [hw, hal]
    · rcases hw : (call env base64 nenv disk req nh h).gen with _ | _ | _ | k | _ | _
      case send => exact (h2 k hw).2
      all_goals
        rw [call_snoc hacc]
        unfold step
        rw [if_neg (by simp [hal])]
        simp only [hw, hal]
    · rw [call_snoc hacc]
      have hcl := hi.closed
      generalize call env base64 nenv disk req nh h = s at hcl hal ⊢
      unfold step
      rw [if_neg (by simp [hal])]
      dsimp only
      split
      · split
        · exact hal
        · rename_i hr
          rw [if_neg (by rw [hcl]; exact hr)]
          exact hal
      · exact hal
  · rw [call_snoc hacc]
    unfold step
    rw [if_pos hal]
    exact hal

/-- C50: the channel is closed exactly when KeySign has returned, and from then on nothing is sent, closed, broadcast or returned again. -/
theorem c50_closed_once (hc : (SigNotifier.run nenv nh).crashed = false) (hacc : Accepted env base64 disk req old task) (h h' : List (Event P)) :
    (call env base64 nenv disk req nh h).closed = (call env base64 nenv disk req nh h).ret.isSome ∧
    ((call env base64 nenv disk req nh h).closed = true →
      (call env base64 nenv disk req nh (h ++ h')).sends = (call env base64 nenv disk req nh h).sends ∧
      (call env base64 nenv disk req nh (h ++ h')).ret = (call env base64 nenv disk req nh h).ret ∧
      (call env base64 nenv disk req nh (h ++ h')).effects = (call env base64 nenv disk req nh h).effects ∧
      (call env base64 nenv disk req nh (h ++ h')).closed = true) := by
  obtain ⟨ex, -, hi⟩ := call_inv hc hacc h
  refine ⟨hi.closed, fun hcl => ?_⟩
  have hcl' := hcl
  rw [hi.closed] at hcl
  obtain ⟨a, ha⟩ := Option.isSome_iff_exists.1 hcl
  obtain ⟨w, g, hw, hg, -⟩ := hi.ret a ha
  suffices hs : (call env base64 nenv disk req nh (h ++ h')).sends = (call env base64 nenv disk req nh h).sends ∧
      (call env base64 nenv disk req nh (h ++ h')).ret = (call env base64 nenv disk req nh h).ret ∧
      (call env base64 nenv disk req nh (h ++ h')).effects = (call env base64 nenv disk req nh h).effects ∧
      (call env base64 nenv disk req nh (h ++ h')).closed = true ∧
      (call env base64 nenv disk req nh (h ++ h')).waiter = .done w ∧ (call env base64 nenv disk req nh (h ++ h')).gen = .done g from
    ⟨hs.1, hs.2.1, hs.2.2.1, hs.2.2.2.1⟩
  induction h' using List.reverseRecOn with
  | nil => simp [hcl', hw, hg]
  | append_singleton h' e ih =>
    rw [← List.append_assoc, call_snoc hacc]
    generalize call env base64 nenv disk req nh (h ++ h') = s at ih ⊢
    obtain ⟨i1, i2, i3, i4, i5, i6⟩ := ih
    have hr : s.ret.isSome = true := by rw [i2]; exact hcl
    unfold step
    split
    · exact ⟨i1, i2, i3, i4, i5, i6⟩
    · cases e <;> simp_all

/-! ## C49 the answer -/

/-- Some notification handed in to the node (before or during the call) carried the signatures `d` for the request's message id, and each of
them verifies for the message at its position. -/
def ReceivedSigs (nenv : SigNotifier.Env) (nh : List SigNotifier.Event) (h : List (Event P)) (req : Request) (task : Job L) (d : List Sig) : Prop :=
  Notified.AllValid nenv (String.ofList req.poolPubKey) task.msgs d ∧
  ∃ payload, (SigNotifier.Event.notify payload ∈ nh ∨ Event.notifier (.notify payload) ∈ h) ∧ Notified.Carries nenv payload task.msgID d

/-- the waiter's answer comes from notifications -/
theorem received_sigs {nh' ex : List SigNotifier.Event} (hn : nh' = nh ++ ex) {h : List (Event P)}
    (hex : ∀ x ∈ ex, Event.notifier x ∈ h ∨ ∃ i m k, x = .wait i m k) {r : Response} (hr : Received nenv req task nh' r) :
    r.status = .success ∧ r.blame = NewBlame "" [] ∧ ∃ d, ReceivedSigs nenv nh h req task d ∧ Entries d task.msgs r.signatures := by
  obtain ⟨d, ⟨h1, p, h2, h3⟩, h4⟩ := hr
  unfold batchSignatures at h4
  obtain ⟨l, hl, rfl⟩ := Option.map_eq_some_iff.1 h4
  refine ⟨rfl, rfl, d, ⟨h1, p, ?_, h3⟩, (batchLoop_eq _ _ _).1 hl⟩
  subst hn
  rcases List.mem_append.1 h2 with h2 | h2
  · exact .inl h2
  · rcases hex _ h2 with h | ⟨_, _, _, h⟩
    · exact .inr h
    · cases h

theorem batch_eq {l : List Sig} {msgs : List Bytes} {r : Response} (h : batchSignatures l msgs = some r) :
    r.status = .success ∧ r.blame = NewBlame "" [] ∧ Entries l msgs r.signatures := by
  unfold batchSignatures at h
  obtain ⟨l, hl, rfl⟩ := Option.map_eq_some_iff.1 h
  exact ⟨rfl, rfl, (batchLoop_eq _ _ _).1 hl⟩

theorem joinFailed_answer (env : Env P S H L) (signers : List Str) (out : JoinOut P) (e : JErr) :
    (KeySign.joinFailed env signers out e).1 = (zero, some .signReceived) ∧ e = .join .signReceived ∨
    ∃ b, (KeySign.joinFailed env signers out e).1 = failed b := by
  unfold KeySign.joinFailed
  split
  · rename_i h; exact .inl ⟨rfl, h⟩
  · split
    · split <;> exact .inr ⟨_, rfl⟩
    · exact .inr ⟨_, rfl⟩

/-- the possible answers of the generating goroutine, coarsely -/
theorem gen_answer {h : List (Event P)} {ef : List (Effect P)} {a : Answer} (ho : GenOutcome env req task old h ef a) :
    (∃ b, a = failed b) ∨ (a = (zero, some .notActive) ∧ (old = true ∧ ¬ OwnKeyAmongSigners env task ∨
      ∃ online, PartyFormed env req task old h online ∧ env.me ∉ online)) ∨ a = (zero, some .signReceived) ∨
    ∃ l, Effect.broadcastSigs l (poolPeers env task) ∈ ef ∧ ∃ r, a = (r, none) ∧ batchSignatures l task.msgs = some r ∧
      (l = [] ∧ GaveUp env req task old h ∨ ∃ results, Generated env req task old h results ∧ l = sortResults results) := by
  cases ho with
  | peers h => exact .inl ⟨_, rfl⟩
  | notSigner h h' => exact .inr (.inl ⟨rfl, .inl ⟨h, h'⟩⟩)
  | noJoin gs out e _ _ _ _ =>
    rcases joinFailed_answer env task.signers out e with h | h
    · exact .inr (.inr (.inl h.1))
    · exact .inl h
  | joinFailed jh c out e _ _ _ =>
    rcases joinFailed_answer env task.signers out e with h | h
    · exact .inr (.inr (.inl h.1))
    · exact .inl h
  | notOnline o h h' => exact .inr (.inl ⟨rfl, .inr ⟨o, h, h'⟩⟩)
  | badKeys => exact .inl ⟨_, rfl⟩
  | setupFailed => exact .inl ⟨_, rfl⟩
  | failed => exact .inl ⟨_, rfl⟩
  | signed results l r h h' h'' h3 => exact .inr (.inr (.inr ⟨l, h3, r, rfl, h'', .inr ⟨results, h, h'⟩⟩))
  | gaveUp h h' => exact .inr (.inr (.inr ⟨[], h', _, rfl, rfl, .inl ⟨rfl, h⟩⟩))

/-- C49: the answer to an accepted request. It never comes with an error, and is one of
* Success with the received signatures, if signatures were received;
* Success with the signatures generated (and broadcast) by this node; or
* Fail without signatures; or
* the empty answer, if the node does not take part in the signing.
The answer is that of the generation whenever nothing was received. (`GaveUp` is impossible for proper keys, see below.) -/
theorem c49_decision (hc : (SigNotifier.run nenv nh).crashed = false) (hacc : Accepted env base64 disk req old task) (h : List (Event P))
    (resp : Response) (err : Option Err) (hr : (call env base64 nenv disk req nh h).ret = some (resp, err)) :
    let s := call env base64 nenv disk req nh h
    err = none ∧
    ("signature received" ∈ s.sends ∧ resp.status = .success ∧ resp.blame = NewBlame "" [] ∧
        (∃ d, ReceivedSigs nenv nh h req task d ∧ Entries d task.msgs resp.signatures) ∨
     "signature received" ∉ s.sends ∧ resp.status = .success ∧ resp.blame = NewBlame "" [] ∧
        (∃ l, Effect.broadcastSigs l (poolPeers env task) ∈ s.effects ∧ Entries l task.msgs resp.signatures ∧
          (l = [] ∧ GaveUp env req task old h ∨ ∃ results, Generated env req task old h results ∧ l = sortResults results)) ∨
     "signature received" ∉ s.sends ∧ resp.status = .fail ∧ resp.signatures = [] ∧ (∀ l ps, Effect.broadcastSigs l ps ∉ s.effects) ∨
     "signature received" ∉ s.sends ∧ resp = zero ∧ (∀ l ps, Effect.broadcastSigs l ps ∉ s.effects) ∧
        (old = true ∧ ¬ OwnKeyAmongSigners env task ∨ ∃ online, PartyFormed env req task old h online ∧ env.me ∉ online)) := by
  obtain ⟨ex, hex, hi⟩ := call_inv hc hacc h
  obtain ⟨w, g, hw, hg, hd⟩ := hi.ret _ hr
  have hwi := hi.waiter
  have hgi := hi.gen
  rw [hw] at hwi hgi
  rw [hg] at hgi
  have hsend := hi.sends
  rw [hw] at hsend
  have hmem := hi.sentMem
  rw [hw] at hmem
  have hnosigs : ∀ b, g = failed b ∨ g = (zero, some .notActive) → ∀ l ps, Effect.broadcastSigs l ps ∉ (call env base64 nenv disk req nh h).effects := by
    intro b hb l ps hl
    obtain ⟨r, h1, h2, -⟩ := hi.effSigs l ps hl
    rw [hg] at h1
    cases h1
    rcases hb with hb | hb
    · cases hb
      cases (batch_eq h2).1
    · cases hb
  cases hwi with
  | got r hrec =>
    cases hd
    obtain ⟨h1, h2, h3⟩ := received_sigs rfl hex hrec
    exact ⟨rfl, .inl ⟨hmem trivial, h1, h2, h3⟩⟩
  | failed =>
    have hnr : "signature received" ∉ (call env base64 nenv disk req nh h).sends := by
      intro hm
      rcases hsend _ hm with ⟨-, h⟩ | ⟨h, -⟩
      · exact h
      · exact absurd h (by decide)
    cases hgi with
    | done _ ho hrcv =>
      rcases gen_answer ho with ⟨b, rfl⟩ | ⟨rfl, hna⟩ | rfl | ⟨l, hl, r, rfl, hb, hgen⟩
      · cases hd
        exact ⟨rfl, .inr (.inr (.inl ⟨hnr, rfl, rfl, hnosigs b (.inl rfl)⟩))⟩
      · cases hd
        exact ⟨rfl, .inr (.inr (.inr ⟨hnr, rfl, hnosigs (NewBlame "" []) (.inr rfl), hna⟩))⟩
      · exact (hrcv rfl).elim
      · cases hd
        obtain ⟨h1, h2, h3⟩ := batch_eq hb
        exact ⟨rfl, .inr (.inl ⟨hnr, h1, h2, l, hl, h3, hgen⟩)⟩

/-- C49: the answer is Success iff signatures were received or generated. -/
theorem c49_success_iff (hc : (SigNotifier.run nenv nh).crashed = false) (hacc : Accepted env base64 disk req old task) (h : List (Event P))
    (resp : Response) (err : Option Err) (hr : (call env base64 nenv disk req nh h).ret = some (resp, err)) :
    resp.status = .success ↔ "signature received" ∈ (call env base64 nenv disk req nh h).sends ∨
      ∃ l, Effect.broadcastSigs l (poolPeers env task) ∈ (call env base64 nenv disk req nh h).effects := by
  obtain ⟨-, ⟨h1, h2, -⟩ | ⟨-, h2, -, l, hl, -⟩ | ⟨h1, h2, -, h4⟩ | ⟨h1, h2, h3, -⟩⟩ := c49_decision hc hacc h resp err hr
  · exact iff_of_true h2 (.inl h1)
  · exact iff_of_true h2 (.inr ⟨l, hl⟩)
  · refine iff_of_false (by rw [h2]; exact fun h => by cases h) ?_
    rintro (h | ⟨l, hl⟩)
    · exact h1 h
    · exact h4 l _ hl
  · refine iff_of_false (by rw [h2]; exact fun h => by cases h) ?_
    rintro (h | ⟨l, hl⟩)
    · exact h1 h
    · exact h3 l _ hl

theorem refused_cases (env : Env P S H L) (base64 : Str → Option Bytes) (disk : Storage.Disk) (req : Request) (a : Answer)
    (h : prepare env base64 disk req = .ok (.error a)) : ∃ e, a = (zero, some e) ∨ a = (⟨[], .fail, NewBlame InternalError []⟩, some e) := by
  unfold prepare at h
  repeat' split at h
  all_goals try (cases h; exact ⟨_, .inl rfl⟩)
  all_goals try cases h
  all_goals dsimp only at h
  all_goals repeat' split at h
  all_goals first | (cases h; exact ⟨_, .inl rfl⟩) | (cases h; exact ⟨_, .inr rfl⟩) | cases h

/-- C49: whatever the request, signatures are returned only with Success and without an error; an answer with an error or with another status has
none. -/
theorem c49_signatures_only_with_success (hc : (SigNotifier.run nenv nh).crashed = false) (h : List (Event P)) (resp : Response) (err : Option Err)
    (hr : (call env base64 nenv disk req nh h).ret = some (resp, err)) : err ≠ none ∨ resp.status ≠ .success → resp.signatures = [] := by
  intro hn
  rcases hp : prepare env base64 disk req with (a | task) | e | _
  · unfold call KeySign.run at hr
    rw [hp] at hr
    cases hr
    obtain ⟨e, h | h⟩ := refused_cases env base64 disk req _ hp
    · cases h; rfl
    · cases h; rfl
  · obtain ⟨old, hacc⟩ := (prepare_ok env base64 disk req task).1 hp
    obtain ⟨h1, h2⟩ := c49_decision hc hacc h resp err hr
    rcases hn with hn | hn
    · exact absurd h1 hn
    · rcases h2 with ⟨-, h2, -⟩ | ⟨-, h2, -⟩ | ⟨-, -, h2, -⟩ | ⟨-, h2, -⟩
      · exact absurd h2 hn
      · exact absurd h2 hn
      · exact h2
      · rw [h2]; rfl
  · unfold call KeySign.run at hr
    rw [hp] at hr
    cases hr
  · unfold call KeySign.run at hr
    rw [hp] at hr
    cases hr

/-- For proper keys the set-up of the session does not give up silently. -/
theorem setup_not_nothing (hk : LawfulKeys env.codec) {online : List P} {signers : List Str} (hs : GetPubKeysFromPeerIDs env.codec online = .ok signers)
    (sch : SetupSched P) : signSetup env sch task signers ≠ .nothing := by
  intro h
  unfold signSetup at h
  split at h
  · cases h
  · cases h
  · rename_i parties loc hp
    split at h
    · rename_i hloc
      rcases GetParties_eq env.codec.dec signers task.state.localPartyKey with ⟨-, e⟩ | ⟨-, -, e⟩ | ⟨-, -, lp, i, h1, -, -, -, e⟩
      · rw [e] at hp; cases hp
      · rw [e] at hp; cases hp
      · rw [e] at hp; cases hp
        exact hloc h1
    · split at h
      · cases h
      · cases h
      · dsimp only at h
        rw [if_pos ⟨setupIDMaps_lawful hk hs hp sch.a [], setupIDMaps_lawful hk hs hp sch.b []⟩] at h
        split at h <;> cases h

/-- C49: with proper keys, a Success which was not received contains the signatures of a signing session of this node, one for each message. -/
theorem c49_generated (hc : (SigNotifier.run nenv nh).crashed = false) (hacc : Accepted env base64 disk req old task) (hk : LawfulKeys env.codec)
    (h : List (Event P)) (resp : Response) (err : Option Err) (hr : (call env base64 nenv disk req nh h).ret = some (resp, err))
    (hs : resp.status = .success) (hn : "signature received" ∉ (call env base64 nenv disk req nh h).sends) :
    ∃ results, Generated env req task old h results ∧ Entries (sortResults results) task.msgs resp.signatures ∧
      resp.signatures.length = task.msgs.length := by
  obtain ⟨-, ⟨h1, -⟩ | ⟨-, -, -, l, -, he, ⟨rfl, hg⟩ | ⟨results, hg, rfl⟩⟩ | ⟨-, h2, -⟩ | ⟨-, h2, -⟩⟩ := c49_decision hc hacc h resp err hr
  · exact absurd h1 hn
  · obtain ⟨online, signers, sch, hm, hx⟩ := hg
    exact absurd hx (setup_not_nothing hk hm.2.2 sch)
  · refine ⟨results, hg, he, ?_⟩
    rw [he.2, List.length_zipWith, sortResults_length, generated_length hg, Nat.min_self]
  · rw [h2] at hs; cases hs
  · rw [h2] at hs; cases hs

/-! ## C51 who signs -/

/-- C51: nothing is sent to anybody, and no goroutine is started, unless the request is in order: the share of the pool key is stored, the
messages can be decoded, the version can be parsed and (for the leaderless join) there are more signers than the threshold. -/
theorem c51_effects_need_acceptance (h : List (Event P)) (hne : (call env base64 nenv disk req nh h).effects ≠ [] ∨ (call env base64 nenv disk req nh h).sends ≠ []) :
    ∃ old task, Accepted env base64 disk req old task := by
  rcases hp : prepare env base64 disk req with (a | task) | e | _
  · unfold call KeySign.run at hne
    rw [hp] at hne
    exact (hne.elim (fun h => h rfl) (fun h => h rfl)).elim
  · obtain ⟨old, hacc⟩ := (prepare_ok env base64 disk req task).1 hp
    exact ⟨old, task, hacc⟩
  · unfold call KeySign.run at hne
    rw [hp] at hne
    exact (hne.elim (fun h => h rfl) (fun h => h rfl)).elim
  · unfold call KeySign.run at hne
    rw [hp] at hne
    exact (hne.elim (fun h => h rfl) (fun h => h rfl)).elim

theorem prepare_no_panic (hnp : Storage.GetLocalState env.storage env.folder (String.ofList req.poolPubKey) disk ≠ .panic) :
    (∃ a, prepare env base64 disk req = .ok (.error a)) ∨ ∃ task, prepare env base64 disk req = .ok (.ok task) := by
  have hid : MsgId.requestToMsgId env.shaID (.keysign req.poolPubKey req.messages req.signerPubKeys req.blockHeight req.version) ≠ .panic := by
    unfold MsgId.requestToMsgId MsgId.MsgToHashString
    split <;> exact fun h => by cases h
  unfold prepare
  split
  · rename_i h; exact absurd h hid
  · exact .inl ⟨_, rfl⟩
  · dsimp only
    split
    · rename_i h; exact absurd h hnp
    · exact .inl ⟨_, rfl⟩
    · split
      · exact .inl ⟨_, rfl⟩
      · split
        · split
          · exact .inl ⟨_, rfl⟩
          · split
            · split
              · exact .inl ⟨_, rfl⟩
              · exact .inr ⟨_, rfl⟩
            · exact .inl ⟨_, rfl⟩
        · exact .inl ⟨_, rfl⟩

/-- C51: a request for a pool key whose share is not stored, with a message that cannot be decoded, with a version that cannot be parsed or (for
the leaderless join) with no more signers than the threshold of the stored key, is answered with an error, and nothing else happens. -/
theorem c51_refuses (hnp : Storage.GetLocalState env.storage env.folder (String.ofList req.poolPubKey) disk ≠ .panic)
    (hbad : (∀ st, Storage.GetLocalState env.storage env.folder (String.ofList req.poolPubKey) disk ≠ .ok st) ∨
      (∃ m ∈ req.messages, base64 m = none) ∨
      (∀ old, Version.VersionLTCheck env.parseVer req.version env.gate ≠ .ok old) ∨
      (Version.VersionLTCheck env.parseVer req.version env.gate = .ok true ∧
        ∀ st t, Storage.GetLocalState env.storage env.folder (String.ofList req.poolPubKey) disk = .ok st →
          Threshold.GetThreshold st.participantKeys.length = .ok t → (req.signerPubKeys.length : Int) ≤ t)) (h : List (Event P)) :
    let s := call env base64 nenv disk req nh h
    ∃ resp e, s.ret = some (resp, some e) ∧ resp.status ≠ .success ∧ resp.signatures = [] ∧ s.effects = [] ∧ s.sends = [] ∧ s.crashed = false := by
  rcases prepare_no_panic hnp (base64 := base64) with ⟨a, ha⟩ | ⟨task, ht⟩
  · unfold call KeySign.run
    rw [ha]
    obtain ⟨e, rfl | rfl⟩ := refused_cases env base64 disk req a ha
    · exact ⟨_, e, rfl, (fun h => by cases h), rfl, rfl, rfl, rfl⟩
    · exact ⟨_, e, rfl, (fun h => by cases h), rfl, rfl, rfl, rfl⟩
  · exfalso
    obtain ⟨old, hacc⟩ := (prepare_ok env base64 disk req task).1 ht
    rcases hbad with hb | ⟨m, hm, hb⟩ | hb | ⟨hb, hb'⟩
    · exact hb _ hacc.stored
    · obtain ⟨d, hd, -⟩ := hacc.decoded
      have hm' : m ∈ MsgId.sortStrings req.messages := by
        unfold MsgId.sortStrings
        exact (List.perm_insertionSort _ _).mem_iff.2 hm
      obtain ⟨b, -, h1⟩ := forall₂_mem_left hd hm'
      rw [hb] at h1; cases h1
    · exact hb _ hacc.version
    · have hv := hacc.version
      rw [hb] at hv
      cases hv
      have h1 := (hacc.enough rfl).2
      have h2 := hb' _ _ hacc.stored hacc.threshold
      omega

theorem heard_sublist (id : String) {a b : List (JoinParty.Event P)} (h : a <+ b) : heard id a <+ heard id b := by
  induction h with
  | slnil => exact List.Sublist.refl _
  | cons e h ih =>
    rcases e with ⟨id', _ | _ | _⟩ | _ | _ | _ | _ | _ <;> simp only [heard] <;> try exact ih
    all_goals split
    all_goals first | exact ih.cons _ | exact ih
  | cons_cons e h ih =>
    rcases e with ⟨id', _ | _ | _⟩ | _ | _ | _ | _ | _ <;> simp only [heard] <;> try exact ih
    all_goals split
    all_goals first | exact ih.cons_cons _ | exact ih

theorem answers_sublist (cd : PeerCodec P) (id leader : String) {a b : List (JoinParty.Event P)} (h : a <+ b) :
    answers cd id leader a <+ answers cd id leader b := by
  induction h with
  | slnil => exact List.Sublist.refl _
  | cons e h ih =>
    rcases e with ⟨id', _ | _ | _⟩ | _ | _ | _ | _ | _ <;> simp only [answers] <;> try exact ih
    all_goals split
    all_goals first | exact ih.cons _ | exact ih
  | cons_cons e h ih =>
    rcases e with ⟨id', _ | _ | _⟩ | _ | _ | _ | _ | _ <;> simp only [answers] <;> try exact ih
    all_goals split
    all_goals first | exact ih.cons_cons _ | exact ih

/-- how the join call of a KeySign call may end -/
theorem joinRun_end (hl : LawfulPeers env.peers) (hv : Version.VersionLTCheck env.parseVer req.version env.gate = .ok old) {h : List (Event P)}
    {jh : List (JoinParty.Event P)} {c : JoinCall P} {r : JoinParty.Result P} (hj : JoinRun env req task old h jh c) (hr : c.st.result = some r) :
    JoinEnd env old (participants old task) task.threshold task.msgID req.blockHeight jh c.leader r := by
  obtain ⟨-, -, gs, c₀, -, h3, rfl⟩ := hj
  exact join_end hl hv h3 jh r hr

theorem own_committee (hk : LawfulKeys env.codec) (hown : OwnKeyAmongSigners env task) {committee : List P}
    (hc : GetPeerIDsFromPubKeys env.codec task.signers = .ok committee) : env.me ∈ committee := by
  obtain ⟨pk, h1, h2⟩ := hown
  obtain ⟨p, hp, h3⟩ := forall₂_mem_left ((getPeerIDs_forall₂ _ _ _).1 hc) h2
  rw [LawfulKeys.peer hk h1] at h3
  cases h3
  exact hp

/-- What C51 asks of the peers `online` of a signing party, as far as it holds. Without a leader: they are the peers of the signers of the request,
more than the threshold, and this node has heard from each of the others. With this node as the leader: they are holders of shares, more than
the threshold, and this node has heard from each of the others. With another leader: this leader has announced this list, with at least
`threshold` entries, and has announced Success. -/
def EnoughSigners (env : Env P S H L) (req : Request) (task : Job L) (old : Bool) (h : List (Event P)) (online : List P) : Prop :=
  env.me ∈ online ∧
  (old = true → OwnKeyAmongSigners env task ∧ task.threshold < task.signers.length ∧
    ∃ committee, GetPeerIDsFromPubKeys env.codec task.signers = .ok committee ∧ committee.length = task.signers.length ∧
      (committee.Nodup → online.Perm committee ∧ ∀ p ∈ online, p ≠ env.me → p ∈ heard task.msgID (joinEvents h))) ∧
  (old = false → ∃ committee leader, GetPeerIDsFromPubKeys env.codec task.state.participantKeys = .ok committee ∧
    Leader.LeaderNode env.shaLeader task.msgID req.blockHeight (committee.map env.peers.str) = .ok leader ∧
    (env.peers.str env.me = leader → online.Nodup ∧ task.threshold < online.length ∧
      ∀ p ∈ online, p = env.me ∨ p ∈ committee ∧ p ∈ heard task.msgID (joinEvents h)) ∧
    (env.peers.str env.me ≠ leader → task.threshold ≤ online.length ∧
      (∃ a ∈ answers env.peers task.msgID leader (joinEvents h), getPeerIDs env.peers a.peerIDs = .ok online) ∧
      ∃ b ∈ answers env.peers task.msgID leader (joinEvents h), b.typ = .success))

theorem member_enough (hl : LawfulPeers env.peers) (hk : LawfulKeys env.codec) (hacc : Accepted env base64 disk req old task) {h : List (Event P)}
    {online : List P} {signers : List Str} (hm : Member env req task old h online signers) : EnoughSigners env req task old h online := by
  obtain ⟨⟨jh, c, r, hj, hr, rfl, he⟩, hme, -⟩ := hm
  obtain ⟨committee, hc, hcase⟩ := joinRun_end hl hacc.version hj hr
  have hsub := hj.1
  have hown := hj.2.1
  refine ⟨hme, ?_, ?_⟩
  · intro ho
    subst ho
    have hlen := (((getPeerIDs_forall₂ _ _ _).1 hc).length_eq).symm
    refine ⟨hown rfl, ?_, committee, hc, hlen, fun hnd => ?_⟩
    · rw [hacc.signers, sortStrings_length]
      exact (hacc.enough rfl).2
    · rcases hcase with ⟨-, -, hv⟩ | ⟨h0, -⟩
      · obtain ⟨h1, hp, g1, g2, g3, g4⟩ := hv hnd (own_committee hk (hown rfl) hc)
        have hall := g4.1 he
        have hheard : ∀ p ∈ committee, p ≠ env.me → p ∈ heard task.msgID (joinEvents h) := fun p hp' hne =>
          (heard_sublist _ (hp.sublist.trans hsub)).subset (hall p hp' hne)
        refine ⟨(List.perm_ext_iff_of_nodup g1 hnd).2 fun p => ?_, fun p hp' hne => ?_⟩
        · rw [g2]
          constructor
          · rintro (rfl | h)
            · exact own_committee hk (hown rfl) hc
            · exact h.1
          · intro hp'
            by_cases hpm : p = env.me
            · exact .inl hpm
            · exact .inr ⟨hp', hall p hp' hpm⟩
        · rcases (g2 p).1 hp' with h | h
          · exact absurd h hne
          · exact hheard p h.1 hne
      · cases h0
  · intro ho
    subst ho
    rcases hcase with ⟨h0, -⟩ | ⟨-, hld, hx⟩
    · cases h0
    · refine ⟨committee, c.leader, hc, hld, fun hlead => ?_, fun hlead => ?_⟩
      · rcases hx with ⟨-, h1, sent, hp, hv⟩ | ⟨hne, -⟩
        · rcases hv with ⟨-, v1, v2, -⟩ | ⟨v1, -⟩ | ⟨v1, -⟩
          · refine ⟨?_, ?_, ?_⟩
            · rw [v2.nodup_iff, List.nodup_append]
              refine ⟨(Verif.Spec.nodup_arrivals _ _ _).sublist (List.take_sublist _ _), by simp, ?_⟩
              intro a ha b hb hab
              simp at hb
              exact ((Verif.Spec.mem_arrivals _ _ _ _).1 (List.mem_of_mem_take ha)).2.2 (hab.trans hb)
            · rw [v2.length_eq, List.length_append, List.length_take, List.length_singleton]; omega
            · intro p hp'
              rw [v2.mem_iff] at hp'
              rcases List.mem_append.1 hp' with hp' | hp'
              · obtain ⟨m1, m2, -⟩ := (Verif.Spec.mem_arrivals _ _ _ _).1 (List.mem_of_mem_take hp')
                exact .inr ⟨m2, (heard_sublist _ (hp.sublist.trans hsub)).subset m1⟩
              · exact .inl (by simpa using hp')
          · rw [he] at v1; cases v1
          · rw [he] at v1; cases v1
        · exact absurd hlead hne
      · rcases hx with ⟨hne, -⟩ | ⟨-, hm⟩
        · exact absurd hne hlead
        · have hs := answers_sublist env.peers task.msgID c.leader hsub
          rcases hm with h0 | ⟨h0, -⟩ | ⟨h0, -⟩ | ⟨l, h0, -⟩ | ⟨l, h0, -⟩ | ⟨l, h0, h1, ⟨a, ha, h2⟩, b, hb, h3⟩
          all_goals (rw [h0] at he; try cases he)
          subst h0
          exact ⟨h1, ⟨a, hs.subset ha, h2⟩, b, hs.subset hb, h3⟩

/-- C51 (partial): a signing session is started, and signatures are broadcast, only by a node which is a member of the party; this party is as
described by `EnoughSigners`. Missing: what the leader announces is not checked; see the two theorems below. -/
theorem c51_session_partial (hc : (SigNotifier.run nenv nh).crashed = false) (hacc : Accepted env base64 disk req old task)
    (hl : LawfulPeers env.peers) (hk : LawfulKeys env.codec) (h : List (Event P)) :
    (∀ online, Effect.signing online ∈ (call env base64 nenv disk req nh h).effects → EnoughSigners env req task old h online) ∧
    (∀ l ps, Effect.broadcastSigs l ps ∈ (call env base64 nenv disk req nh h).effects → ∃ online, EnoughSigners env req task old h online) := by
  obtain ⟨ex, hex, hi⟩ := call_inv hc hacc h
  constructor
  · intro online ho
    obtain ⟨signers, hm⟩ := hi.effSign online ho
    exact member_enough hl hk hacc hm
  · intro l ps hl'
    obtain ⟨r, -, -, ⟨-, online, signers, sch, hm, -⟩ | ⟨results, ⟨lh, st, ⟨-, online, signers, -, -, -, hm, -⟩, -⟩, -⟩⟩ := hi.effSigs l ps hl'
    · exact ⟨online, member_enough hl hk hacc hm⟩
    · exact ⟨online, member_enough hl hk hacc hm⟩

/-- C51: a node whose own key is not among the signers of a leaderless request does not even try to join. -/
theorem c51_not_a_signer (hc : (SigNotifier.run nenv nh).crashed = false) (hacc : Accepted env base64 disk req true task)
    (hn : ¬ OwnKeyAmongSigners env task) (h : List (Event P)) :
    let s := call env base64 nenv disk req nh h
    Effect.joining ∉ s.effects ∧ (∀ online, Effect.signing online ∉ s.effects) ∧ ∀ l ps, Effect.broadcastSigs l ps ∉ s.effects := by
  obtain ⟨ex, hex, hi⟩ := call_inv hc hacc h
  have key : ∀ online signers, ¬ Member env req task true h online signers := by
    rintro online signers ⟨⟨jh, c, r, hj, -⟩, -⟩
    exact hn (hj.2.1 rfl)
  refine ⟨fun hj => ?_, fun online ho => ?_, fun l ps hl' => ?_⟩
  · obtain ⟨jh, c, hj⟩ := hi.effJoin hj
    exact hn (hj.2.1 rfl)
  · obtain ⟨signers, hm⟩ := hi.effSign online ho
    exact key _ _ hm
  · obtain ⟨r, -, -, ⟨-, online, signers, sch, hm, -⟩ | ⟨results, ⟨lh, st, ⟨-, online, signers, -, -, -, hm, -⟩, -⟩, -⟩⟩ := hi.effSigs l ps hl'
    · exact key _ _ hm
    · exact key _ _ hm

/-! ## C53 who is blamed when KeySign fails -/

/-- Why KeySign answers Fail, and whom the answer then blames. -/
inductive FailReason (env : Env P S H L) (req : Request) (task : Job L) (old : Bool) (h : List (Event P)) : Blame Str → Prop
  /-- a holder of a share has no peer id -/
  | holders : (∀ l, GetPeerIDsFromPubKeys env.codec task.state.participantKeys ≠ .ok l) → FailReason env req task old h (NewBlame InternalError [])
  /-- the leaderless join could not begin -/
  | noJoin (gs : Groups P) (out : JoinOut P) : Event.genStart gs ∈ h →
      joinParty env gs task.msgID req.version req.blockHeight (participants old task) task.threshold = .error out → out.leader = "NONE" →
      FailReason env req task old h (NewBlame InternalError [])
  /-- the join with a leader could not begin -/
  | noJoinLeader (gs : Groups P) (out : JoinOut P) : Event.genStart gs ∈ h →
      joinParty env gs task.msgID req.version req.blockHeight (participants old task) task.threshold = .error out → out.leader ≠ "NONE" →
      FailReason env req task old h (blameLeader env out.leader)
  /-- the leaderless join failed: the signers not reported online are blamed -/
  | absent (jh : List (JoinParty.Event P)) (r : JoinParty.Result P) (e : JoinErr) : jh <+ joinEvents h → OwnKeyAmongSigners env task →
      JoinEnd env true task.signers task.threshold task.msgID req.blockHeight jh "NONE" r → r.err = some e → old = true →
      FailReason env req task old h (NodeSyncBlame env.codec task.signers r.online).1
  /-- the join with a leader failed: the leader is blamed -/
  | leader (jh : List (JoinParty.Event P)) (leader : String) (r : JoinParty.Result P) (e : JoinErr) : jh <+ joinEvents h →
      JoinEnd env false task.state.participantKeys task.threshold task.msgID req.blockHeight jh leader r → r.err = some e → e ≠ .signReceived →
      old = false → FailReason env req task old h (blameLeader env leader)
  /-- the party was formed, but the keys of its members cannot be extracted: nobody is blamed -/
  | badKeys (online : List P) : PartyFormed env req task old h online → env.me ∈ online → (∀ l, GetPubKeysFromPeerIDs env.codec online ≠ .ok l) →
      FailReason env req task old h (NewBlame "" [])
  /-- the party was formed, but the session cannot be set up: nobody is blamed -/
  | setup (online : List P) (signers : List Str) (sch : SetupSched P) : Member env req task old h online signers →
      signSetup env sch task signers = .error → FailReason env req task old h (NewBlame "" [])
  /-- the signing session failed: its blame -/
  | session (lh : List (LoopEvent P Sig)) (st : SignSt Str P) (e : LoopErr) : SessionRun env req task old h lh st → st.result = some (.error e) →
      FailReason env req task old h st.ses.mgr.blame

theorem joinFailed_eq (env : Env P S H L) (signers : List Str) (leader : String) (online : List P) (e : JoinErr) {b : Blame Str}
    (hf : (KeySign.joinFailed env signers ⟨some online, leader, some (.join e)⟩ (.join e)).1 = failed b) :
    e ≠ .signReceived ∧ (leader = "NONE" → b = (NodeSyncBlame env.codec signers online).1) ∧ (leader ≠ "NONE" → b = blameLeader env leader) := by
  unfold KeySign.joinFailed at hf
  split at hf
  · cases hf
  · rename_i h1
    refine ⟨fun h => h1 (by rw [h]), ?_⟩
    split at hf
    · rename_i h2
      cases hf
      exact ⟨fun _ => rfl, fun h => absurd h2 h⟩
    · rename_i h2
      cases hf
      exact ⟨fun h => absurd h h2, fun _ => rfl⟩

/-- C53 (KeySign): a Fail answer carries no signature, and its blame is the one of its reason. -/
theorem c53_keysign_fail (hc : (SigNotifier.run nenv nh).crashed = false) (hacc : Accepted env base64 disk req old task) (hl : LawfulPeers env.peers)
    (h : List (Event P)) (resp : Response) (err : Option Err) (hr : (call env base64 nenv disk req nh h).ret = some (resp, err))
    (hf : resp.status = .fail) : resp.signatures = [] ∧ FailReason env req task old h resp.blame := by
  obtain ⟨ex, hex, hi⟩ := call_inv hc hacc h
  obtain ⟨w, g, hw, hg, hd⟩ := hi.ret _ hr
  have hwi := hi.waiter
  have hgi := hi.gen
  rw [hw] at hwi hgi
  rw [hg] at hgi
  cases hwi with
  | got r hrec =>
    cases hd
    rw [(received_sigs rfl hex hrec).1] at hf
    cases hf
  | failed =>
    cases hgi with
    | done _ ho hrcv =>
      have hgen : g = (resp, err) := by
        unfold decision at hd
        dsimp only at hd
        split at hd
        · cases hd; cases hf
        · exact hd.symm
      subst hgen
      clear hd hrcv
      generalize hge : (resp, err) = g at ho
      have hfb : ∀ b, g = failed b → resp.signatures = [] ∧ resp.blame = b := by
        intro b hb
        rw [← hge] at hb
        cases hb
        exact ⟨rfl, rfl⟩
      cases ho with
      | peers h1 =>
        obtain ⟨a, b⟩ := hfb _ rfl
        exact ⟨a, by rw [b]; exact .holders h1⟩
      | notSigner => cases hge; cases hf
      | notOnline => cases hge; cases hf
      | noJoin gs out e h0 h1 h2 h3 =>
        obtain ⟨e1, e2⟩ := joinParty_error h2
        rw [e1] at h3; cases h3
        obtain ⟨online, leader, err'⟩ := out
        dsimp only at e1 e2
        subst e1 e2
        unfold KeySign.joinFailed at hge
        rw [if_neg (by intro h; cases h)] at hge
        dsimp only at hge
        split at hge
        · rename_i hn
          cases hge
          exact ⟨rfl, .noJoin gs _ h0 h2 hn⟩
        · rename_i hn
          cases hge
          exact ⟨rfl, .noJoinLeader gs _ h0 h2 hn⟩
      | joinFailed jh c out e hj ho he =>
        unfold JoinCall.out at ho
        obtain ⟨r, hres, rfl⟩ := Option.map_eq_some_iff.1 ho
        dsimp only at he
        obtain ⟨e', he', rfl⟩ := Option.map_eq_some_iff.1 he
        rw [he'] at hge
        simp only [Option.map_some] at hge
        have hje := joinRun_end hl hacc.version hj hres
        rcases joinFailed_answer env task.signers ⟨some r.online, c.leader, some (.join e')⟩ (.join e') with ⟨h1, -⟩ | ⟨b, hb⟩
        · rw [h1] at hge; cases hge; cases hf
        · rw [hb] at hge
          cases hge
          refine ⟨rfl, ?_⟩
          obtain ⟨hne, hnone, hsome⟩ := joinFailed_eq env task.signers c.leader r.online e' hb
          cases old with
          | true =>
            have hlead : c.leader = "NONE" := by
              obtain ⟨_, _, ⟨-, h, -⟩ | ⟨h, -⟩⟩ := hje
              · exact h
              · cases h
            rw [hlead] at hje
            dsimp only
            rw [hnone hlead]
            exact .absent jh r e' hj.1 (hj.2.1 rfl) hje he' rfl
          | false =>
            have hlead : c.leader ≠ "NONE" := by
              obtain ⟨committee, _, ⟨h, -⟩ | ⟨-, h, -⟩⟩ := hje
              · cases h
              · have hm := (C08.c08_leader_is_min _ _ _ _ _ h).1
                obtain ⟨p, -, hp⟩ := List.mem_map.1 hm
                rw [← hp]
                exact str_ne_none hl p
            dsimp only
            rw [hsome hlead]
            exact .leader jh c.leader r e' hj.1 hje he' hne rfl
      | badKeys o h1 h2 h3 =>
        obtain ⟨a, b⟩ := hfb _ rfl
        exact ⟨a, by rw [b]; exact .badKeys o h1 h2 h3⟩
      | setupFailed o sg sch h1 h2 =>
        obtain ⟨a, b⟩ := hfb _ rfl
        exact ⟨a, by rw [b]; exact .setup o sg sch h1 h2⟩
      | failed lh st e h1 h2 =>
        obtain ⟨a, b⟩ := hfb _ rfl
        exact ⟨a, by rw [b]; exact .session lh st e h1 h2⟩
      | signed results l r _ _ hb _ =>
        cases hge
        rw [(batch_eq hb).1] at hf
        cases hf
      | gaveUp => cases hge; cases hf

/-- C53 (KeySign without leader): a failed join blames exactly the signers this node has not heard from when it stopped waiting (`h1`); not
itself. -/
theorem c53_keysign_absent (hk : LawfulKeys env.codec) (hown : OwnKeyAmongSigners env task) (t : Int) (id : String) (bh : Int)
    (jh : List (JoinParty.Event P)) (r : JoinParty.Result P) (hj : JoinEnd env true task.signers t id bh jh "NONE" r)
    (hnd : ∀ committee, GetPeerIDsFromPubKeys env.codec task.signers = .ok committee → committee.Nodup) :
    ∃ h1, h1 <+: jh ∧ (NodeSyncBlame env.codec task.signers r.online).1.failReason = "signers fail to sync before keygen/keysign" ∧
      ∀ n, n ∈ (NodeSyncBlame env.codec task.signers r.online).1.nodes ↔
        ∃ k ∈ task.signers, n = ⟨k, [], []⟩ ∧ ∃ p, GetPeerIDFromPubKey env.codec k = .ok p ∧ p ≠ env.me ∧ p ∉ heard id h1 := by
  obtain ⟨committee, hc, ⟨-, -, hv⟩ | ⟨h0, -⟩⟩ := hj
  · obtain ⟨h1, hp, g1, g2, g3, g4⟩ := hv (hnd committee hc) (own_committee hk hown hc)
    have hf := (getPeerIDs_forall₂ _ _ _).1 hc
    have hall : ∀ k ∈ task.signers, ∃ p, GetPeerIDFromPubKey env.codec k = .ok p := fun k hk => by
      obtain ⟨p, -, h⟩ := forall₂_mem_left hf hk
      exact ⟨p, h⟩
    refine ⟨h1, hp, ?_⟩
    rw [Timeouts.c38_absent_blamed _ _ _ hall]
    refine ⟨rfl, fun n => ?_⟩
    simp only [List.mem_map, List.mem_filter, decide_eq_true_eq]
    constructor
    · rintro ⟨k, ⟨hk1, hk2⟩, rfl⟩
      obtain ⟨p, hpc, hp1⟩ := forall₂_mem_left hf hk1
      refine ⟨k, hk1, rfl, p, hp1, ?_, ?_⟩
      · intro hpm
        exact hk2 p ((g2 p).2 (.inl hpm)) hp1
      · intro hh
        exact hk2 p ((g2 p).2 (.inr ⟨hpc, hh⟩)) hp1
    · rintro ⟨k, hk1, rfl, p, hp1, hpm, hh⟩
      refine ⟨k, ⟨hk1, fun q hq hq1 => ?_⟩, rfl⟩
      rw [hp1] at hq1
      cases hq1
      rcases (g2 p).1 hq with h | h
      · exact hpm h
      · exact hh h.2
  · cases h0

/-! ## C76 crashes -/

/-- C76 (partial): a KeySign call crashes the program only in the signature notifier (see C75), for a request without messages, once the party
is formed, or in the signing session. -/
theorem c76_crash_causes_partial (hc : (SigNotifier.run nenv nh).crashed = false) (hacc : Accepted env base64 disk req old task) (h : List (Event P))
    (hcr : (call env base64 nenv disk req nh h).crashed = true) :
    (call env base64 nenv disk req nh h).nt.crashed = true ∨
    (req.messages = [] ∧ ∃ online signers, Member env req task old h online signers) ∨
    ∃ (lh : List (LoopEvent P Sig)) (st : SignSt Str P), SessionRun env req task old h lh st ∧ st.crashed = true := by
  obtain ⟨ex, hex, hi⟩ := call_inv hc hacc h
  rcases hi.why hcr with h1 | ⟨online, signers, sch, hm, hs⟩ | h1
  · exact .inl h1
  · refine .inr (.inl ⟨?_, online, signers, hm⟩)
    have hmsgs : task.msgs = [] := by
      unfold signSetup at hs
      split at hs
      · cases hs
      · rename_i hp
        rcases GetParties_eq env.codec.dec signers task.state.localPartyKey with ⟨-, e⟩ | ⟨-, -, e⟩ | ⟨-, -, lp, i, -, -, -, -, e⟩ <;>
          (rw [e] at hp; cases hp)
      · split at hs
        · cases hs
        · split at hs
          · cases hs
          · rename_i ht
            unfold Threshold.GetThreshold at ht
            split at ht <;> cases ht
          · dsimp only at hs
            split at hs
            · split at hs
              · cases hs
              · rename_i hn
                rcases hms : task.msgs with _ | ⟨m, ms⟩
                · rfl
                · exfalso
                  rw [hms, List.length_cons, List.replicate_succ] at hn
                  exact hn _ rfl
            · cases hs
    obtain ⟨d, hd, hd'⟩ := hacc.decoded
    rw [hmsgs] at hd'
    have hlen : d.length = 0 := by
      have := congrArg List.length hd'
      rw [Signing.sortMessages_eq, (GoSort.sliceStable_perm _ _).length_eq] at this
      simpa using this.symm
    have := hd.length_eq
    rw [sortStrings_length, hlen] at this
    exact List.length_eq_zero_iff.1 this
  · exact .inr (.inr h1)

/-! ## C77 one signature for each message -/

/-- C77 (partial): with proper keys, a Success answer contains one signature for each message of the request, unless the signatures were received
from others. Missing: received signatures, see below. -/
theorem c77_complete_partial (hc : (SigNotifier.run nenv nh).crashed = false) (hacc : Accepted env base64 disk req old task) (hk : LawfulKeys env.codec)
    (h : List (Event P)) (resp : Response) (err : Option Err) (hr : (call env base64 nenv disk req nh h).ret = some (resp, err))
    (hs : resp.status = .success) (hn : "signature received" ∉ (call env base64 nenv disk req nh h).sends) :
    resp.signatures.length = req.messages.length ∧ resp.signatures.map (·.msg) = task.msgs := by
  obtain ⟨results, hg, he, hlen⟩ := c49_generated hc hacc hk h resp err hr hs hn
  obtain ⟨d, hd, hd'⟩ := hacc.decoded
  have hl : task.msgs.length = req.messages.length := by
    rw [hd', Signing.sortMessages_eq, (GoSort.sliceStable_perm _ _).length_eq, ← hd.length_eq, sortStrings_length]
  refine ⟨hlen.trans hl, ?_⟩
  have h1 : (sortResults results).length = task.msgs.length := by rw [sortResults_length, generated_length hg]
  rw [he.2]
  apply List.ext_getElem
  · simp [h1]
  · intro i h2 h3
    simp

/-! ## Examples and limits -/

theorem accepted_of_check {f : Job L → Bool} (h : (match prepare env base64 disk req with | .ok (.ok t) => f t | _ => false) = true) :
    ∃ old task, Accepted env base64 disk req old task ∧ f task = true := by
  split at h
  · rename_i t ht
    obtain ⟨old, hacc⟩ := (prepare_ok _ _ _ _ _).1 ht
    exact ⟨old, t, hacc, h⟩
  · cases h

end main

section demo
open Verif.Spec.DemoServer

/-- the leader (peer 10) answers node 1 with the list `l` -/
def answer (l : List Nat) (t : RespType) : List (KeySign.Event Nat) :=
  [.genStart [], .join (.incoming "ma" (.response 10 ⟨t, l.map peers.str⟩)), .join (.wake Verif.Spec.DemoServer.keep), .join (.step Verif.Spec.DemoServer.keep), .join (.step Verif.Spec.DemoServer.keep), .join (.step Verif.Spec.DemoServer.keep),
   .genJoined sched]

/-- the signature of the message "ma" -/
def sig : Session.Sig := ⟨some [1], [], [97], [97], [97]⟩

/-- the session delivers the signature -/
def signed : List (KeySign.Event Nat) := [.sign (.done sig), .genSigned, .genSend, .genFinish]

/-- no signature is received from others -/
def noWait : List (KeySign.Event Nat) := [.waitStart, .notifier (.timeout 0), .notifier (.remove 0), .waitReturn]

/-- the signature is received from others -/
def wait : List (KeySign.Event Nat) :=
  [.waitStart, .notifier (.notify [97]), .notifier (.receive 0), .notifier (.remove 0), .waitReturn, .waitSend]

/-- node 1 handles the request to sign "ma" with a leader -/
def demo (h : List (KeySign.Event Nat)) : KeySign.St Nat := call (env 1) base64 notifier (disk 1) (request ['n'] []) [] h

/-- status, number of signatures and whether there is an error -/
def summary (s : KeySign.St Nat) : Option (Status × Nat × Bool) := s.ret.map fun a => (a.1.status, a.1.signatures.length, a.2.isSome)

/-- the hypotheses of C49, C50, C51, C53, C76 and C77 hold of the example -/
example : (SigNotifier.run notifier []).crashed = false ∧ LawfulPeers (env 1).peers ∧ LawfulKeys (env 1).codec ∧
    ∃ old task, Accepted (env 1) base64 (disk 1) (request ['n'] []) old task ∧ decide (task.msgs = [[97]] ∧ task.threshold = 2) = true :=
  ⟨rfl, lawfulPeers, lawfulKeys, accepted_of_check (by decide +kernel)⟩

/-- C49, C50, C51: the party is formed, the session delivers, nothing is received: Success -/
example : summary (demo (answer [10, 11, 12] .success ++ signed ++ noWait ++ [.main])) = some (.success, 1, false) ∧
    (demo (answer [10, 11, 12] .success ++ signed ++ noWait ++ [.main])).sends = ["signature generated"] ∧
    (demo (answer [10, 11, 12] .success ++ signed ++ noWait ++ [.main])).effects =
      [.joining, .joinMetric true, .signing [10, 11, 12], .broadcastSigs [sig] [10, 11, 12, 13], .metric true] := by decide +kernel

/-- C49: the signature is received while the leader fails: Success -/
example : summary (demo (wait ++ answer [10, 11] .timeout ++ [.main])) = some (.success, 1, false) := by decide +kernel

/-- C49: both ways succeed -/
example : summary (demo (wait ++ answer [10, 11, 12] .success ++ signed ++ [.main])) = some (.success, 1, false) ∧
    (demo (wait ++ answer [10, 11, 12] .success ++ signed ++ [.main])).sends = ["signature received", "signature generated"] := by decide +kernel

/-- C49, C53: the leader reports a timeout: Fail -/
example : summary (demo (answer [10, 11] .timeout ++ noWait ++ [.main])) = some (.fail, 0, false) := by decide +kernel

/-- C49 (the decision table has a gap): a node that is not in the party, and does not receive the signature in time, answers neither Success nor
Fail, without an error. -/
theorem c49_neither : summary (demo (answer [10, 12, 13] .success ++ noWait ++ [.main])) = some (.na, 0, false) := by decide +kernel

/-- C51: a leaderless request with three signers is accepted, with two it is refused -/
example : (∃ old task, Accepted (env 1) base64 (disk 1) (request ['o'] [0, 1, 2]) old task ∧ decide (task.threshold = 2) = true) ∧
    summary (call (env 1) base64 notifier (disk 1) (request ['o'] [0, 1]) [] [.genStart [], .main]) = some (.na, 0, true) ∧
    summary (call (env 1) base64 notifier [] (request ['n'] [0, 1]) [] [.genStart [], .main]) = some (.na, 0, true) :=
  ⟨accepted_of_check (by decide +kernel), by decide +kernel⟩

/-- C51 is false for a node that does not lead: it starts a session with as many nodes as the threshold, one too few. -/
theorem c51_too_few : Effect.signing [10, 11] ∈ (demo (answer [10, 11] .success)).effects ∧
    ∀ t, Threshold.GetThreshold (state 1).participantKeys.length = .ok t → ¬ (t < ([10, 11] : List Nat).length) := by
  refine ⟨by decide +kernel, ?_⟩
  have : Threshold.GetThreshold (state 1).participantKeys.length = .ok 2 := by decide +kernel
  intro t ht
  rw [this] at ht
  cases ht
  decide

/-- C51 is false for a node that does not lead: it starts a session with a node which holds no share of the key. -/
theorem c51_stranger : Effect.signing [10, 11, 99] ∈ (demo (answer [10, 11, 99] .success)).effects ∧
    ∀ k ∈ (state 1).participantKeys, GetPeerIDFromPubKey codec k ≠ .ok 99 := by decide +kernel

/-- C53 is false for the join with a leader: members 2 and 3 do not show up, the leader says so, and the leader is blamed alone. -/
theorem c53_keysign_leader_blamed :
    (demo (answer [10, 11] .timeout ++ noWait ++ [.main])).ret.map (fun a => (a.1.status, a.1.blame.nodes.map (·.pubkey))) = some (.fail, [key 0]) := by
  decide +kernel

/-- C53 is false for the join with a leader: a leader to which nobody comes blames itself. -/
theorem c53_keysign_leader_blames_itself :
    (call (env 0) base64 notifier (disk 0) (request ['n'] []) [] ([.genStart [], .join .timeout, .join (.step Verif.Spec.DemoServer.keep), .genJoined sched] ++ noWait ++ [.main])).ret.map
      (fun a => (a.1.status, a.1.blame.nodes.map (·.pubkey))) = some (.fail, [key 0]) := by decide +kernel

/-- C53: without leader, the absent signer 2 is blamed -/
example : (call (env 1) base64 notifier (disk 1) (request ['o'] [0, 1, 2]) [] ([.genStart [], .join (.incoming "makakbkc" (.leaderless 10)), .join .timeout,
    .join (.step Verif.Spec.DemoServer.keep), .genJoined sched] ++ noWait ++ [.main])).ret.map (fun a => (a.1.status, a.1.blame.nodes.map (·.pubkey))) = some (.fail, [key 2]) := by
  decide +kernel

/-- C76 is false: a request without messages is accepted and crashes the node when the party is formed. -/
theorem c76_no_messages : ∃ h : List (KeySign.Event Nat), (call (env 1) base64 notifier (disk 1) ⟨['y'], [], [key 0], 5, ['n']⟩ [] h).crashed = true :=
  ⟨[.genStart [], .join (.incoming "ka" (.response 10 ⟨.success, [10, 11, 12].map peers.str⟩)), .join (.wake Verif.Spec.DemoServer.keep), .join (.step Verif.Spec.DemoServer.keep), .join (.step Verif.Spec.DemoServer.keep),
    .join (.step Verif.Spec.DemoServer.keep), .genJoined sched], by decide +kernel⟩

/-- a notifier for which every payload announces a good signature of the message "mb" alone, under the id of the request of "ma" and "mb" -/
def shortNotifier : SigNotifier.Env := { notifier with decMsg := fun _ => some ⟨"ma,mb", [[98]], true⟩ }

/-- C77 is false: a node that receives a signature of one message only answers Success for a request of two messages. -/
theorem c77_incomplete : summary (call (env 1) base64 shortNotifier (disk 1) { request ['n'] [] with messages := [['m', 'a'], ['m', 'b']] } []
    (wait ++ [.genStart [], .join .timeout, .join (.step Verif.Spec.DemoServer.keep), .genJoined sched, .main])) = some (.success, 1, false) := by decide +kernel

end demo

end Verif.Props.KeySigning
