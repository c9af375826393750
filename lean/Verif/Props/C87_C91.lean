import Verif.Model.Comm
import Verif.Props.C11_C12
import Verif.Props.C13_C14
import Verif.Props.C15_C16
import Mathlib.Data.List.Induction
import Mathlib.Data.List.Count
import Mathlib.Data.List.Perm.Basic

/-! # C87 - C91: the communication layer: what is written to whom, what reaches which session, and several nodes together -/
set_option linter.unusedSectionVars false
namespace Verif.Props.Network
open Verif.Go Verif.Comm Verif.Stream
open scoped List

variable {P C S : Type} [DecidableEq P] [DecidableEq C] [DecidableEq S]

theorem run_snoc (env : Env P C) (h : List (Event P C S)) (e : Event P C S) : run env (h ++ [e]) = step env (run env h) e := by
  simp [run]

theorem run_append (env : Env P C) (h k : List (Event P C S)) : run env (h ++ k) = k.foldl (step env) (run env h) := by
  simp [run]

theorem perm_eraseIdx_append {α : Type} (l : List α) (i : Nat) (a : α) (h : l[i]? = some a) : a :: l.eraseIdx i ~ l := by
  induction l generalizing i with
  | nil => simp at h
  | cons x l ih =>
    cases i with
    | zero => simp at h; subst h; simp
    | succ i =>
      simp only [List.getElem?_cons_succ] at h
      simp only [List.eraseIdx_cons_succ]
      exact (List.Perm.swap _ _ _).trans ((ih i h).cons x)

/-! ## Specification -/

/-- Specification: the writes that a list of broadcast messages asks for: one to each entry of the list of receivers, with the encoded message -/
def wanted (env : Env P C) (l : List (Wrapped × List P)) : List (Writer P) :=
  l.flatMap fun m => match env.enc m.1 with
    | none => []
    | some data => m.2.map fun p => ⟨p, data, m.1.msgID⟩

/-- Specification: the messages that the sessions hand over -/
def broadcasts : List (Event P C S) → List (Wrapped × List P)
  | [] => []
  | .broadcast w peers :: h => (w, peers) :: broadcasts h
  | _ :: h => broadcasts h

/-- Specification: the calls of `SetSubscribe` and `CancelSubscribe` in a history -/
def subscriptions : List (Event P C S) → List (Subscribers.Op C)
  | [] => []
  | .subscribe t id c :: h => .sub t id c :: subscriptions h
  | .cancel t id :: h => .cancel t id :: subscriptions h
  | _ :: h => subscriptions h

/-- Specification: is the node stopped? -/
def isStop : Event P C S → Bool
  | .stop => true
  | _ => false

/-- Specification: the streams of peers, with the peers, that were opened before the node was told to stop -/
def streamsBefore (past : List (Event P C S)) : List (S × P) :=
  (past.takeWhile fun e => !isStop e).filterMap fun e => match e with | .accept st p => some (st, p) | _ => none

/-- Specification: what an event has to bring to a session, `past` being the events before -/
def arrival (env : Env P C) (past : List (Event P C S)) : Event P C S → List (Delivery P C)
  | .incoming st p chunks =>
    if (st, p) ∉ streamsBefore past then []
    else match (ReadStreamWithBuffer chunks).1 with
      | .ok data =>
        match env.dec data with
        | some (t, id) => ((Subscriptions.latest t id (subscriptions past).reverse).map fun c => ⟨c, p, data⟩).toList
        | none => []
      | _ => []
  | _ => []

/-- Specification: all that has to reach sessions in a history -/
def arrivals (env : Env P C) (past : List (Event P C S)) : List (Event P C S) → List (Delivery P C)
  | [] => []
  | e :: h => arrival env past e ++ arrivals env (past ++ [e]) h

theorem broadcasts_append (h k : List (Event P C S)) : broadcasts (h ++ k) = broadcasts h ++ broadcasts k := by
  induction h with
  | nil => rfl
  | cons e h ih => cases e <;> simp [broadcasts, ih]

theorem subscriptions_append (h k : List (Event P C S)) : subscriptions (h ++ k) = subscriptions h ++ subscriptions k := by
  induction h with
  | nil => rfl
  | cons e h ih => cases e <;> simp [subscriptions, ih]

theorem arrivals_append (env : Env P C) (past h k : List (Event P C S)) :
    arrivals env past (h ++ k) = arrivals env past h ++ arrivals env (past ++ h) k := by
  induction h generalizing past with
  | nil => simp [arrivals]
  | cons e h ih => simp [arrivals, ih]

theorem arrivals_mem (env : Env P C) (past h : List (Event P C S)) (d : Delivery P C) (hd : d ∈ arrivals env past h) :
    ∃ a e b, h = a ++ e :: b ∧ d ∈ arrival env (past ++ a) e := by
  induction h generalizing past with
  | nil => simp [arrivals] at hd
  | cons e h ih =>
    simp only [arrivals, List.mem_append] at hd
    rcases hd with hd | hd
    · exact ⟨[], e, h, rfl, by simpa using hd⟩
    · obtain ⟨a, e', b, rfl, hb⟩ := ih _ hd
      exact ⟨e :: a, e', b, rfl, by simpa using hb⟩

theorem broadcasts_mem (h : List (Event P C S)) (w : Wrapped) (peers : List P) (hm : (w, peers) ∈ broadcasts h) : .broadcast w peers ∈ h := by
  induction h with
  | nil => simp [broadcasts] at hm
  | cons e h ih =>
    cases e <;> simp only [broadcasts, List.mem_cons, reduceCtorEq, false_or, Prod.mk.injEq, Event.broadcast.injEq] at hm ⊢ <;> tauto

/-! ## C87: broadcast -/

theorem wanted_append (env : Env P C) (l m : List (Wrapped × List P)) : wanted env (l ++ m) = wanted env l ++ wanted env m := by
  simp [wanted]

theorem wanted_sublist (env : Env P C) {l m : List (Wrapped × List P)} (h : l <+ m) : wanted env l <+ wanted env m := by
  induction h with
  | slnil => exact List.Sublist.refl _
  | cons a _ ih => simp only [wanted, List.flatMap_cons] at ih ⊢; exact ih.trans (List.sublist_append_right _ _)
  | cons_cons a _ ih => simp only [wanted, List.flatMap_cons] at ih ⊢; exact ih.append_left _

theorem wanted_cons (env : Env P C) (m : Wrapped × List P) (l : List (Wrapped × List P)) :
    wanted env (m :: l) = wanted env [m] ++ wanted env l := by
  simp [wanted]

/-- the messages accepted so far are exactly those whose writes have ended, are running, or wait in the queue -/
def Balanced (env : Env P C) (s : St P C S) : Prop :=
  s.finished.map Prod.fst ++ (s.writers ++ wanted env s.queue) ~ wanted env s.accepted

theorem step_balanced (env : Env P C) (s : St P C S) (e : Event P C S) (hb : Balanced env s) : Balanced env (step env s e) := by
  unfold Balanced at hb ⊢
  cases e with
  | broadcast w peers =>
    simp only [step]
    split
    · simp only [wanted_append]
      rw [← List.append_assoc, ← List.append_assoc]
      rw [← List.append_assoc] at hb
      exact hb.append_right _
    · exact hb
  | process =>
    simp only [step]
    split
    · split
      · exact hb
      · next w peers rest hq =>
        rw [hq, wanted_cons] at hb
        split
        · next he =>
          have : wanted env [(w, peers)] = [] := by simp [wanted, he]
          rw [this, List.nil_append] at hb
          exact hb
        · next data he =>
          have : wanted env [(w, peers)] = writersOf data w.msgID peers := by simp [wanted, he, writersOf]
          rw [this] at hb
          simpa [List.append_assoc] using hb
    · exact hb
  | loopStop => simp only [step]; split <;> exact hb
  | write i o =>
    simp only [step]
    split
    · exact hb
    · next w hw =>
      simp only [List.map_append, List.map_cons, List.map_nil, List.append_assoc, List.singleton_append]
      refine List.Perm.trans ?_ hb
      refine List.Perm.append_left _ ?_
      rw [← List.cons_append]
      exact (perm_eraseIdx_append _ _ _ hw).append_right _
  | accept st p => simp only [step]; split <;> exact hb
  | incoming st p chunks => simp only [step]; split <;> exact hb
  | handler i => simp only [step]; split <;> [exact hb; split <;> exact hb]
  | handover i => simp only [step]; split <;> [exact hb; split <;> exact hb]
  | receive i => simp only [step]; split <;> [exact hb; split <;> exact hb]
  | subscribe t id c => exact hb
  | cancel t id => exact hb
  | release id => exact hb
  | stop => exact hb

theorem balanced (env : Env P C) (h : List (Event P C S)) : Balanced env (run env h) := by
  induction h using List.reverseRecOn with
  | nil => simp [Balanced, run, wanted]
  | append_singleton h e ih => rw [run_snoc]; exact step_balanced env _ e ih

theorem accepted_sublist (env : Env P C) (h : List (Event P C S)) : (run env h).accepted <+ broadcasts h := by
  induction h using List.reverseRecOn with
  | nil => exact List.Sublist.slnil
  | append_singleton h e ih =>
    rw [run_snoc, broadcasts_append]
    cases e with
    | broadcast w peers =>
      simp only [step, broadcasts]
      split
      · exact ih.append (List.Sublist.refl _)
      · exact ih.trans (List.sublist_append_left _ _)
    | process =>
      simp only [step, broadcasts, List.append_nil]
      split
      · split
        · exact ih
        · split <;> exact ih
      · exact ih
    | loopStop => simp only [step, broadcasts, List.append_nil]; split <;> exact ih
    | write i o => simp only [step, broadcasts, List.append_nil]; split <;> exact ih
    | accept st p => simp only [step, broadcasts, List.append_nil]; split <;> exact ih
    | incoming st p chunks => simp only [step, broadcasts, List.append_nil]; split <;> exact ih
    | handler i => simp only [step, broadcasts, List.append_nil]; split <;> [exact ih; split <;> exact ih]
    | handover i => simp only [step, broadcasts, List.append_nil]; split <;> [exact ih; split <;> exact ih]
    | receive i => simp only [step, broadcasts, List.append_nil]; split <;> [exact ih; split <;> exact ih]
    | subscribe t id c => simpa [step, broadcasts] using ih
    | cancel t id => simpa [step, broadcasts] using ih
    | release id => simpa [step, broadcasts] using ih
    | stop => simpa [step, broadcasts] using ih

/-- the broadcasts of a history that find room in the queue; the others wait -/
theorem accepted_room (env : Env P C) (h : List (Event P C S)) (w : Wrapped) (peers : List P) (hq : (run env h).queue.length < 1024) :
    (run env (h ++ [.broadcast w peers])).accepted = (run env h).accepted ++ [(w, peers)] := by
  rw [run_snoc]; simp [step, hq]

theorem finished_shape (env : Env P C) (h : List (Event P C S)) (w : Writer P) (st : S) (b : Bytes)
    (hf : (w, some (st, b)) ∈ (run env h).finished) :
    w.peer ≠ env.me ∧ ∃ fault, b = (WriteStreamWithBuffer w.data fault).1 := by
  induction h using List.reverseRecOn with
  | nil => simp [run] at hf
  | append_singleton h e ih =>
    rw [run_snoc] at hf
    cases e with
    | write i o =>
      simp only [step] at hf
      split at hf
      · exact ih hf
      · next w' hw =>
        simp only [List.mem_append, List.mem_singleton, Prod.mk.injEq] at hf
        rcases hf with hf | ⟨rfl, hf⟩
        · exact ih hf
        · cases o with
          | noStream => simp [writeToStream] at hf
          | stream st' fault =>
            simp only [writeToStream] at hf
            split at hf
            · simp at hf
            · next hne =>
              simp only [Option.some.injEq, Prod.mk.injEq] at hf
              exact ⟨hne, fault, hf.2⟩
    | broadcast w peers => simp only [step] at hf; split at hf <;> exact ih hf
    | process =>
      simp only [step] at hf
      split at hf
      · split at hf
        · exact ih hf
        · split at hf <;> exact ih hf
      · exact ih hf
    | loopStop => simp only [step] at hf; split at hf <;> exact ih hf
    | accept st p => simp only [step] at hf; split at hf <;> exact ih hf
    | incoming st p chunks => simp only [step] at hf; split at hf <;> exact ih hf
    | handler i => simp only [step] at hf; split at hf <;> [exact ih hf; split at hf <;> exact ih hf]
    | handover i => simp only [step] at hf; split at hf <;> [exact ih hf; split at hf <;> exact ih hf]
    | receive i => simp only [step] at hf; split at hf <;> [exact ih hf; split at hf <;> exact ih hf]
    | subscribe t id c => exact ih hf
    | cancel t id => exact ih hf
    | release id => exact ih hf
    | stop => exact ih hf

theorem wanted_mem (env : Env P C) (l : List (Wrapped × List P)) (w : Writer P) :
    w ∈ wanted env l ↔ ∃ m peers, (m, peers) ∈ l ∧ w.peer ∈ peers ∧ env.enc m = some w.data ∧ w.msgID = m.msgID := by
  simp only [wanted, List.mem_flatMap, Prod.exists]
  constructor
  · rintro ⟨m, peers, hm, hw⟩
    cases he : env.enc m with
    | none => rw [he] at hw; simp at hw
    | some data =>
      rw [he] at hw
      simp only [List.mem_map] at hw
      obtain ⟨p, hp, rfl⟩ := hw
      exact ⟨m, peers, hm, hp, he, rfl⟩
  · rintro ⟨m, peers, hm, hp, he, hid⟩
    refine ⟨m, peers, hm, ?_⟩
    rw [he]
    simp only [List.mem_map]
    exact ⟨w.peer, hp, by rw [← hid]⟩

/-- C87: a stream is opened only to a peer that a message handed over by a session is addressed to, never to the node itself, and it carries only
that message: its frame or, if the transport fails, a beginning of it. -/
theorem c87_only_addressed (env : Env P C) (h : List (Event P C S)) (w : Writer P) (st : S) (b : Bytes)
    (hf : (w, some (st, b)) ∈ (run env h).finished) :
    w.peer ≠ env.me ∧ b <+: frame w.data ∧
      ∃ m peers, Event.broadcast m peers ∈ h ∧ w.peer ∈ peers ∧ env.enc m = some w.data ∧ w.msgID = m.msgID := by
  obtain ⟨h1, fault, h2⟩ := finished_shape env h w st b hf
  refine ⟨h1, ?_, ?_⟩
  · subst h2
    cases fault with
    | none => exact List.prefix_rfl
    | some k =>
      simp only [WriteStreamWithBuffer]
      split
      · exact List.take_prefix _ _
      · exact List.prefix_rfl
  · have hm : w ∈ wanted env (run env h).accepted := by
      rw [← (balanced env h).mem_iff]
      exact List.mem_append_left _ (List.mem_map.2 ⟨_, hf, rfl⟩)
    obtain ⟨m, peers, hp, hq⟩ := (wanted_mem env _ w).1 hm
    exact ⟨m, peers, broadcasts_mem h m peers ((accepted_sublist env h).subset hp), hq⟩

/-- C87: at any time no message has been written more often to a peer than the accepted broadcasts ask for. -/
theorem c87_at_most_once (env : Env P C) (h : List (Event P C S)) (w : Writer P) :
    ((run env h).finished.map Prod.fst).count w ≤ (wanted env (broadcasts h)).count w := by
  have h1 := (balanced env h).count_eq w
  rw [List.count_append] at h1
  have h2 : (wanted env (run env h).accepted).count w ≤ (wanted env (broadcasts h)).count w :=
    List.Sublist.count_le w (wanted_sublist env (accepted_sublist env h))
  omega

/-- C87: when nothing waits and no write is running, every accepted message has been written (or its write has been tried) exactly once for
each entry of its list of receivers. -/
theorem c87_exactly_once (env : Env P C) (h : List (Event P C S)) (hq : (run env h).queue = []) (hw : (run env h).writers = []) :
    (run env h).finished.map Prod.fst ~ wanted env (run env h).accepted := by
  have := balanced env h
  unfold Balanced at this
  rw [hq, hw] at this
  simpa [wanted] using this

/-- C87: a message handed over while fewer than 1024 messages wait is accepted. -/
theorem c87_accepted (env : Env P C) (h : List (Event P C S)) (w : Wrapped) (peers : List P) (hq : (run env h).queue.length < 1024) :
    (run env (h ++ [.broadcast w peers])).accepted = (run env h).accepted ++ [(w, peers)] := accepted_room env h w peers hq

/-- C87: a running write to another peer puts the whole frame on its stream, if the transport works. -/
theorem c87_whole (env : Env P C) (h : List (Event P C S)) (i : Nat) (w : Writer P) (st : S) (hw : (run env h).writers[i]? = some w)
    (hp : w.peer ≠ env.me) :
    (run env (h ++ [.write i (.stream st none)])).finished = (run env h).finished ++ [(w, some (st, frame w.data))] := by
  rw [run_snoc]
  simp [step, hw, writeToStream, hp, WriteStreamWithBuffer]

/-- writers can all end -/
theorem drain_writers (env : Env P C) (n : Nat) (s : St P C S) (hn : s.writers.length = n) (hq : s.queue = []) :
    let s' := (List.replicate n (Event.write 0 .noStream)).foldl (step env) s
    s'.queue = [] ∧ s'.writers = [] ∧ s'.accepted = s.accepted := by
  induction n generalizing s with
  | zero => exact ⟨hq, List.length_eq_zero_iff.1 hn, rfl⟩
  | succ n ih =>
    match hs : s.writers with
    | [] => rw [hs] at hn; simp at hn
    | w :: ws =>
      rw [hs] at hn
      have e : step env s (.write 0 .noStream) = { s with
          writers := ws, finished := s.finished ++ [(w, none)], streams := s.streams } := by
        simp [step, hs, writeToStream, StreamMgr.addStream]
      have := ih (step env s (.write 0 .noStream)) (by rw [e]; simpa using hn) (by rw [e]; exact hq)
      rw [e] at this
      simpa [List.replicate_succ, e] using this

theorem drain_queue (env : Env P C) (n : Nat) (s : St P C S) (hn : s.queue.length = n) (hl : s.looping = true) :
    let s' := (List.replicate n Event.process).foldl (step env) s
    s'.queue = [] ∧ s'.accepted = s.accepted := by
  induction n generalizing s with
  | zero => exact ⟨List.length_eq_zero_iff.1 hn, rfl⟩
  | succ n ih =>
    match hs : s.queue with
    | [] => rw [hs] at hn; simp at hn
    | (w, peers) :: ws =>
      rw [hs] at hn
      have e : (step env s .process).queue = ws ∧ (step env s .process).looping = true ∧ (step env s .process).accepted = s.accepted := by
        simp only [step, hl, if_true, hs]
        split <;> simp [hl]
      obtain ⟨h1, h2⟩ := ih (step env s .process) (by rw [e.1]; simpa using hn) e.2.1
      exact ⟨by simpa [List.replicate_succ] using h1, by simpa [List.replicate_succ] using h2.trans e.2.2⟩

/-- C87: as long as the node is not stopped nothing is stuck: from every history the loop and the writers alone can bring all accepted messages out. -/
theorem c87_progress (env : Env P C) (h : List (Event P C S)) (hl : (run env h).looping = true) :
    ∃ k : List (Event P C S), (∀ e ∈ k, e = .process ∨ ∃ i o, e = .write i o) ∧
      (run env (h ++ k)).queue = [] ∧ (run env (h ++ k)).writers = [] ∧
      (run env (h ++ k)).finished.map Prod.fst ~ wanted env (run env h).accepted := by
  obtain ⟨h1, h2⟩ := drain_queue env _ (run env h) rfl hl
  rw [← run_append] at h1 h2
  obtain ⟨h3, h4, h5⟩ := drain_writers env _ _ rfl h1
  rw [← run_append] at h3 h4 h5
  rw [List.append_assoc] at h3 h4 h5
  refine ⟨_, ?_, h3, h4, ?_⟩
  · intro e he
    simp only [List.mem_append, List.mem_replicate] at he
    rcases he with ⟨_, rfl⟩ | ⟨_, rfl⟩
    · exact Or.inl rfl
    · exact Or.inr ⟨_, _, rfl⟩
  · have := c87_exactly_once env _ h3 h4
    rwa [h5, h2] at this

theorem ended_step (env : Env P C) (s : St P C S) (e : Event P C S) (hl : s.looping = false) :
    (step env s e).looping = false ∧ s.queue <+: (step env s e).queue := by
  cases e with
  | broadcast w peers => simp only [step]; split <;> simp [hl]
  | process => simp [step, hl]
  | loopStop =>
    simp only [step]
    split
    · simp
    · simp [hl]
  | write i o => simp only [step]; split <;> simp [hl]
  | accept st p => simp only [step]; split <;> simp [hl]
  | incoming st p chunks => simp only [step]; split <;> simp [hl]
  | handler i => simp only [step]; split <;> [simp [hl]; (split <;> simp [hl])]
  | handover i => simp only [step]; split <;> [simp [hl]; (split <;> simp [hl])]
  | receive i => simp only [step]; split <;> [simp [hl]; (split <;> simp [hl])]
  | subscribe t id c => simp [step, hl]
  | cancel t id => simp [step, hl]
  | release id => simp [step, hl]
  | stop => simp [step, hl]

/-- C87: what still waits in the queue when the loop ends on a stop is never written: it stays in the queue whatever happens later. -/
theorem c87_stop_loses (env : Env P C) (h k : List (Event P C S)) (hl : (run env h).looping = false) :
    (run env h).queue <+: (run env (h ++ k)).queue := by
  rw [run_append]
  generalize run env h = s at *
  induction k generalizing s with
  | nil => exact List.prefix_rfl
  | cons e k ih =>
    obtain ⟨h1, h2⟩ := ended_step env s e hl
    exact h2.trans (ih _ h1)

theorem looping_stop (env : Env P C) (s : St P C S) (e : Event P C S) (hl : (step env s e).looping = false) :
    s.looping = false ∨ s.stopped = true := by
  cases e with
  | loopStop => simp only [step] at hl; split at hl <;> simp_all
  | broadcast w peers => simp only [step] at hl; split at hl <;> simp_all
  | process => simp only [step] at hl; split at hl <;> [(split at hl <;> [simp_all; (split at hl <;> simp_all)]); simp_all]
  | write i o => simp only [step] at hl; split at hl <;> simp_all
  | accept st p => simp only [step] at hl; split at hl <;> simp_all
  | incoming st p chunks => simp only [step] at hl; split at hl <;> simp_all
  | handler i => simp only [step] at hl; split at hl <;> [simp_all; (split at hl <;> simp_all)]
  | handover i => simp only [step] at hl; split at hl <;> [simp_all; (split at hl <;> simp_all)]
  | receive i => simp only [step] at hl; split at hl <;> [simp_all; (split at hl <;> simp_all)]
  | subscribe t id c => exact Or.inl hl
  | cancel t id => exact Or.inl hl
  | release id => exact Or.inl hl
  | stop => exact Or.inl hl

theorem stopped_stop (env : Env P C) (s : St P C S) (e : Event P C S) (hl : (step env s e).stopped = true) : s.stopped = true ∨ e = .stop := by
  cases e with
  | loopStop => simp only [step] at hl; split at hl <;> simp_all
  | broadcast w peers => simp only [step] at hl; split at hl <;> simp_all
  | process => simp only [step] at hl; split at hl <;> [(split at hl <;> [simp_all; (split at hl <;> simp_all)]); simp_all]
  | write i o => simp only [step] at hl; split at hl <;> simp_all
  | accept st p => simp only [step] at hl; split at hl <;> simp_all
  | incoming st p chunks => simp only [step] at hl; split at hl <;> simp_all
  | handler i => simp only [step] at hl; split at hl <;> [simp_all; (split at hl <;> simp_all)]
  | handover i => simp only [step] at hl; split at hl <;> [simp_all; (split at hl <;> simp_all)]
  | receive i => simp only [step] at hl; split at hl <;> [simp_all; (split at hl <;> simp_all)]
  | subscribe t id c => exact Or.inl hl
  | cancel t id => exact Or.inl hl
  | release id => exact Or.inl hl
  | stop => exact Or.inr rfl

/-- C87: the loop that writes the messages ends only after the node has been told to stop. -/
theorem c87_loop_ends (env : Env P C) (h : List (Event P C S)) (hl : (run env h).looping = false) : Event.stop ∈ h := by
  have hst : ∀ h : List (Event P C S), (run env h).stopped = true → Event.stop ∈ h := by
    intro h
    induction h using List.reverseRecOn with
    | nil => intro h0; simp [run] at h0
    | append_singleton h e ih =>
      intro h0
      rw [run_snoc] at h0
      rcases stopped_stop env _ e h0 with h1 | h1
      · exact List.mem_append_left _ (ih h1)
      · simp [h1]
  induction h using List.reverseRecOn with
  | nil => simp [run] at hl
  | append_singleton h e ih =>
    rw [run_snoc] at hl
    rcases looping_stop env _ e hl with h1 | h1
    · exact List.mem_append_left _ (ih h1)
    · exact List.mem_append_left _ (hst h h1)

/-! ## C88: dispatch -/

/-- everything on its way to a session or taken by one -/
def all (s : St P C S) : List (Delivery P C) := s.handlers ++ (s.chans ++ s.received)

/-- what an event adds to it -/
def adds (env : Env P C) (s : St P C S) : Event P C S → List (Delivery P C)
  | .incoming st p chunks => if (st, p) ∉ s.opened then [] else (readFromStream env s.subs p chunks).2.toList
  | _ => []

theorem step_all (env : Env P C) (s : St P C S) (e : Event P C S) : all (step env s e) ~ all s ++ adds env s e := by
  cases e with
  | accept st p => simp only [step, adds, List.append_nil]; split <;> exact List.Perm.refl _
  | incoming st p chunks =>
    simp only [step, adds]
    split
    · simp
    · simp only [all]
      rw [List.append_assoc, List.append_assoc]
      exact List.Perm.append_left _ List.perm_append_comm
  | handler i =>
    simp only [step, adds, List.append_nil]
    split
    · exact List.Perm.refl _
    · next d hd =>
      split
      · simp only [all]
        refine List.Perm.trans ?_ ((perm_eraseIdx_append _ _ _ hd).append_right _)
        rw [List.cons_append]
        refine List.Perm.trans ?_ (List.perm_middle (l₁ := s.handlers.eraseIdx i))
        refine List.Perm.append_left _ ?_
        rw [List.append_assoc, List.singleton_append]
        exact List.perm_middle
      · exact List.Perm.refl _
  | handover i =>
    simp only [step, adds, List.append_nil]
    split
    · exact List.Perm.refl _
    · next d hd =>
      split
      · simp only [all]
        refine List.Perm.trans ?_ ((perm_eraseIdx_append _ _ _ hd).append_right _)
        rw [List.cons_append]
        refine List.Perm.trans ?_ (List.perm_middle (l₁ := s.handlers.eraseIdx i))
        refine List.Perm.append_left _ ?_
        rw [← List.append_assoc]
        exact List.perm_append_singleton _ _
      · exact List.Perm.refl _
  | receive i =>
    simp only [step, adds, List.append_nil]
    split
    · exact List.Perm.refl _
    · next d hd =>
      split
      · simp only [all]
        refine List.Perm.append_left _ ?_
        refine List.Perm.trans ?_ ((perm_eraseIdx_append _ _ _ hd).append_right _)
        rw [List.cons_append, ← List.append_assoc]
        exact List.perm_append_singleton _ _
      · exact List.Perm.refl _
  | broadcast w peers => simp only [step, adds, List.append_nil]; split <;> exact List.Perm.refl _
  | process =>
    simp only [step, adds, List.append_nil]
    split
    · split
      · exact List.Perm.refl _
      · split <;> exact List.Perm.refl _
    · exact List.Perm.refl _
  | loopStop => simp only [step, adds, List.append_nil]; split <;> exact List.Perm.refl _
  | write i o => simp only [step, adds, List.append_nil]; split <;> exact List.Perm.refl _
  | subscribe t id c => simp only [step, adds, List.append_nil]; exact List.Perm.refl _
  | cancel t id => simp only [step, adds, List.append_nil]; exact List.Perm.refl _
  | release id => simp only [step, adds, List.append_nil]; exact List.Perm.refl _
  | stop => simp only [step, adds, List.append_nil]; exact List.Perm.refl _

theorem run_subs (env : Env P C) (h : List (Event P C S)) :
    (run env h).subs = Subscribers.run (subscriptions h) ∧ (run env h).stopped = h.any isStop := by
  induction h using List.reverseRecOn with
  | nil => exact ⟨rfl, rfl⟩
  | append_singleton h e ih =>
    obtain ⟨h1, h2⟩ := ih
    have hs : ∀ l : List (Subscribers.Op C), Subscribers.run (subscriptions h ++ l) = l.foldl Subscribers.step (run env h).subs := by
      intro l; rw [h1]; simp [Subscribers.run]
    rw [run_snoc, subscriptions_append, hs, List.any_append, ← h2]
    cases e with
    | broadcast w peers => simp only [step]; split <;> simp [subscriptions, isStop]
    | process =>
      simp only [step]
      split
      · split
        · simp [subscriptions, isStop]
        · split <;> simp [subscriptions, isStop]
      · simp [subscriptions, isStop]
    | loopStop => simp only [step]; split <;> simp [subscriptions, isStop]
    | write i o => simp only [step]; split <;> simp [subscriptions, isStop]
    | accept st p => simp only [step]; split <;> simp [subscriptions, isStop]
    | incoming st p chunks => simp only [step]; split <;> simp [subscriptions, isStop]
    | handler i => simp only [step]; split <;> [simp [subscriptions, isStop]; (split <;> simp [subscriptions, isStop])]
    | handover i => simp only [step]; split <;> [simp [subscriptions, isStop]; (split <;> simp [subscriptions, isStop])]
    | receive i => simp only [step]; split <;> [simp [subscriptions, isStop]; (split <;> simp [subscriptions, isStop])]
    | subscribe t id c => simp [step, subscriptions, isStop, Subscribers.step]
    | cancel t id => simp [step, subscriptions, isStop, Subscribers.step]
    | release id => simp [step, subscriptions, isStop]
    | stop => simp [step, subscriptions, isStop]

theorem streamsBefore_snoc (h : List (Event P C S)) (e : Event P C S) :
    streamsBefore (h ++ [e]) = streamsBefore h ++ if h.any isStop then [] else match e with | .accept st p => [(st, p)] | _ => [] := by
  induction h with
  | nil => cases e <;> simp [streamsBefore, isStop]
  | cons x h ih =>
    by_cases hx : isStop x = true
    · simp [streamsBefore, hx]
    · have hx' : isStop x = false := by simpa using hx
      have cons : ∀ l : List (Event P C S), streamsBefore (x :: l) = (match x with | .accept st p => [(st, p)] | _ => []) ++ streamsBefore l := by
        intro l
        simp only [streamsBefore, List.takeWhile_cons, hx', Bool.not_false, if_true]
        cases x <;> simp
      rw [List.cons_append, cons, ih, cons, List.any_cons, hx', Bool.false_or, List.append_assoc]

theorem run_opened (env : Env P C) (h : List (Event P C S)) : (run env h).opened = streamsBefore h := by
  induction h using List.reverseRecOn with
  | nil => rfl
  | append_singleton h e ih =>
    rw [run_snoc, streamsBefore_snoc, ← ih, ← (run_subs env h).2]
    cases e with
    | accept st p =>
      simp only [step]
      split
      · simp_all
      · simp_all
    | process =>
      simp only [step]
      (repeat' split) <;> simp
    | _ =>
      simp only [step]
      (repeat' split) <;> simp

theorem mem_streamsBefore (h : List (Event P C S)) (st : S) (p : P) :
    (st, p) ∈ streamsBefore h ↔ ∃ a b, h = a ++ .accept st p :: b ∧ Event.stop ∉ a := by
  constructor
  · intro hm
    induction h with
    | nil => simp [streamsBefore] at hm
    | cons x h ih =>
      by_cases hx : isStop x = true
      · simp [streamsBefore, hx] at hm
      · have hx' : isStop x = false := by simpa using hx
        have cons : streamsBefore (x :: h) = (match x with | .accept st p => [(st, p)] | _ => []) ++ streamsBefore h := by
          simp only [streamsBefore, List.takeWhile_cons, hx', Bool.not_false, if_true]
          cases x <;> simp
        rw [cons, List.mem_append] at hm
        rcases hm with hm | hm
        · cases x <;> simp at hm
          obtain ⟨rfl, rfl⟩ := hm
          exact ⟨[], h, rfl, by simp⟩
        · obtain ⟨a, b, rfl, hs⟩ := ih hm
          refine ⟨x :: a, b, rfl, ?_⟩
          simp only [List.mem_cons, not_or]
          refine ⟨?_, hs⟩
          rintro rfl
          simp [isStop] at hx'
  · rintro ⟨a, b, rfl, hs⟩
    unfold streamsBefore
    rw [List.takeWhile_append_of_pos]
    · simp [isStop]
    · intro e he
      cases e <;> simp [isStop]
      exact hs he

theorem adds_eq_arrival (env : Env P C) (h : List (Event P C S)) (e : Event P C S) : adds env (run env h) e = arrival env h e := by
  cases e with
  | incoming st p chunks =>
    obtain ⟨h1, h2⟩ := run_subs env h
    simp only [adds, arrival, run_opened]
    split
    · rfl
    · simp only [readFromStream, h1]
      cases (ReadStreamWithBuffer chunks).1 with
      | ok data =>
        simp only
        cases env.dec data with
        | none => rfl
        | some r =>
          obtain ⟨t, id⟩ := r
          simp only [Subscriptions.c15_subscribers_refine_map]
          cases Subscriptions.latest t id (subscriptions h).reverse <;> rfl
      | err e => rfl
      | panic => rfl
  | _ => rfl

/-- C88: every message that has to reach a session is, at any time, exactly once either with its handler, in the channel of the session, or taken by
the session; and nothing else is. -/
theorem c88_conserved (env : Env P C) (h : List (Event P C S)) :
    (run env h).handlers ++ ((run env h).chans ++ (run env h).received) ~ arrivals env [] h := by
  induction h using List.reverseRecOn with
  | nil => simp [run, arrivals]
  | append_singleton h e ih =>
    rw [run_snoc, arrivals_append]
    refine (step_all env _ e).trans ?_
    rw [adds_eq_arrival]
    simp only [arrivals, List.nil_append, List.append_nil]
    exact List.Perm.append_right _ ih

/-- C88: what a session receives came, whole, on one stream from the very peer it names; its type and id are those the session had subscribed to
when it had been read; and the node had not been told to stop when the stream was opened. -/
theorem c88_received (env : Env P C) (h : List (Event P C S)) (d : Delivery P C) (hd : d ∈ (run env h).received) :
    ∃ a st chunks b t id, h = a ++ .incoming st d.peer chunks :: b ∧ (ReadStreamWithBuffer chunks).1 = .ok d.payload ∧
      env.dec d.payload = some (t, id) ∧ Subscriptions.latest t id (subscriptions a).reverse = some d.chan ∧
      ∃ a₁ a₂, a = a₁ ++ .accept st d.peer :: a₂ ∧ Event.stop ∉ a₁ := by
  have hm : d ∈ arrivals env [] h := by
    rw [← (c88_conserved env h).mem_iff]; simp [hd]
  obtain ⟨a, e, b, rfl, he⟩ := arrivals_mem env [] h d hm
  rw [List.nil_append] at he
  cases e with
  | incoming st p chunks =>
    simp only [arrival] at he
    split at he
    · simp at he
    · next hst =>
      split at he
      · next data hr =>
        split at he
        · next t id hdec =>
          simp only [Option.mem_toList, Option.map_eq_some_iff] at he
          obtain ⟨c, hc, rfl⟩ := he
          exact ⟨a, st, chunks, b, t, id, rfl, hr, hdec, hc, (mem_streamsBefore a st p).1 (not_not.1 hst)⟩
        · simp at he
      · simp at he
  | _ => simp [arrival] at he

theorem count_filter_chan (l : List (Delivery P C)) (c : C) (d : Delivery P C) (i : Nat) (h : l[i]? = some d) :
    inChan (l.eraseIdx i) c + (if d.chan = c then 1 else 0) = inChan l c := by
  have := ((perm_eraseIdx_append l i d h).filter fun d => decide (d.chan = c)).length_eq
  unfold inChan
  rw [← this, List.filter_cons]
  split <;> simp_all

/-- C88: the channel of a session never holds more than its capacity. -/
theorem c88_capacity (env : Env P C) (h : List (Event P C S)) (c : C) : inChan (run env h).chans c ≤ env.cap c := by
  induction h using List.reverseRecOn with
  | nil => simp [run, inChan]
  | append_singleton h e ih =>
    rw [run_snoc]
    cases e with
    | handler i =>
      simp only [step]
      split
      · exact ih
      · next d hd =>
        split
        · next hlt =>
          simp only [inChan, List.filter_append, List.length_append] at ih ⊢
          by_cases hc : d.chan = c
          · subst hc
            simp only [inChan] at hlt
            simp only [decide_true, List.filter_cons_of_pos, List.filter_nil, List.length_singleton]
            omega
          · simpa [hc] using ih
        · exact ih
    | receive i =>
      simp only [step]
      split
      · exact ih
      · next d hd =>
        split
        · have := count_filter_chan _ c d i hd
          simp only; omega
        · exact ih
    | handover i => simp only [step]; split <;> [exact ih; (split <;> exact ih)]
    | broadcast w peers => simp only [step]; split <;> exact ih
    | process =>
      simp only [step]
      split
      · split
        · exact ih
        · split <;> exact ih
      · exact ih
    | loopStop => simp only [step]; split <;> exact ih
    | write i o => simp only [step]; split <;> exact ih
    | accept st p => simp only [step]; split <;> exact ih
    | incoming st p chunks => simp only [step]; split <;> exact ih
    | subscribe t id c => exact ih
    | cancel t id => exact ih
    | release id => exact ih
    | stop => exact ih

/-- Specification: what the session of channel `c` has taken, followed by what waits for it in the channel -/
def line (s : St P C S) (c : C) : List (Delivery P C) := (s.received ++ s.chans).filter fun d => decide (d.chan = c)

theorem filter_first (c : C) (l : List (Delivery P C)) (i : Nat) (d : Delivery P C) (hd : l[i]? = some d) (hf : isFirst l i d = true) :
    (d :: l.eraseIdx i).filter (fun d => decide (d.chan = c)) = l.filter fun d => decide (d.chan = c) := by
  obtain ⟨hlt, rfl⟩ := List.getElem?_eq_some_iff.1 hd
  have e : l.filter (fun d => decide (d.chan = c)) = (l.take i ++ l[i] :: l.drop (i + 1)).filter fun d => decide (d.chan = c) := by simp
  rw [List.eraseIdx_eq_take_drop_succ, e]
  clear e
  generalize l[i] = d at *
  by_cases hc : d.chan = c
  · have h0 : (l.take i).filter (fun d => decide (d.chan = c)) = [] := by
      rw [List.filter_eq_nil_iff]
      intro x hx
      have := List.all_eq_true.1 hf x hx
      simp only [decide_eq_true_eq] at this ⊢
      exact fun h => this (h.trans hc.symm)
    simp [List.filter_append, h0, hc]
  · simp [List.filter_append, hc]

theorem line_step (env : Env P C) (s : St P C S) (e : Event P C S) (c : C) : line s c <+: line (step env s e) c := by
  cases e with
  | handler i =>
    simp only [step]
    split
    · exact List.prefix_rfl
    · split
      · simp only [line, ← List.append_assoc]
        rw [List.filter_append (s.received ++ s.chans)]
        exact List.prefix_append _ _
      · exact List.prefix_rfl
  | handover i =>
    simp only [step]
    split
    · exact List.prefix_rfl
    · next d hd =>
      split
      · next h0 =>
        simp only [line, List.filter_append]
        by_cases hc : d.chan = c
        · have : s.chans.filter (fun d => decide (d.chan = c)) = [] := by
            rw [← List.length_eq_zero_iff, ← hc]; exact h0
          rw [this]; simp
        · simp [hc]
      · exact List.prefix_rfl
  | receive i =>
    simp only [step]
    split
    · exact List.prefix_rfl
    · next d hd =>
      split
      · next hf =>
        have h1 := filter_first c s.chans i d hd hf
        simp only [line, List.append_assoc, List.singleton_append]
        rw [List.filter_append, List.filter_append, h1]
        exact List.prefix_rfl
      · exact List.prefix_rfl
  | broadcast w peers => simp only [step]; split <;> exact List.prefix_rfl
  | process =>
    simp only [step]
    split
    · split
      · exact List.prefix_rfl
      · split <;> exact List.prefix_rfl
    · exact List.prefix_rfl
  | loopStop => simp only [step]; split <;> exact List.prefix_rfl
  | write i o => simp only [step]; split <;> exact List.prefix_rfl
  | accept st p => simp only [step]; split <;> exact List.prefix_rfl
  | incoming st p chunks => simp only [step]; split <;> exact List.prefix_rfl
  | subscribe t id c => exact List.prefix_rfl
  | cancel t id => exact List.prefix_rfl
  | release id => exact List.prefix_rfl
  | stop => exact List.prefix_rfl

/-- C88: a session takes its messages in the order in which they were put into its channel: what it has taken and what waits for it only grow
at the end, whatever happens. -/
theorem c88_in_order (env : Env P C) (h k : List (Event P C S)) (c : C) : line (run env h) c <+: line (run env (h ++ k)) c := by
  rw [run_append]
  generalize run env h = s at *
  induction k generalizing s with
  | nil => exact List.prefix_rfl
  | cons e k ih => exact (line_step env s e c).trans (ih _)

/-! ## C91: handlers of sessions that have ended -/

/-- how many of them belong to a channel -/
def ofChan (l : List (Delivery P C)) (c : C) : Nat := (l.filter fun d => d.chan = c).length

/-- C91 (the property is false): whatever happens, the handlers that are blocked on a channel are at least as many as the messages that arrived for it,
less those the session has taken and those the channel can hold.  Once a session has ended and takes nothing more, all further handlers stay
for ever. -/
theorem c91_blocked (env : Env P C) (h k : List (Event P C S)) (c : C)
    (hr : ofChan (run env (h ++ k)).received c = ofChan (run env h).received c) :
    ofChan (arrivals env [] (h ++ k)) c ≤ ofChan (run env (h ++ k)).handlers c + env.cap c + ofChan (run env h).received c := by
  have h1 := ((c88_conserved env (h ++ k)).filter fun d => decide (d.chan = c)).length_eq
  have h2 := c88_capacity env (h ++ k) c
  simp only [List.filter_append, List.length_append] at h1
  simp only [ofChan, inChan] at *
  omega

/-- C91, the part that holds: as long as the channel has room or its session takes messages, a handler comes to its end. -/
theorem c91_unblocked_partial (env : Env P C) (h : List (Event P C S)) (i : Nat) (d : Delivery P C) (hd : (run env h).handlers[i]? = some d)
    (hc : inChan (run env h).chans d.chan < env.cap d.chan) :
    (run env (h ++ [.handler i])).handlers = (run env h).handlers.eraseIdx i ∧
      (run env (h ++ [.handler i])).chans = (run env h).chans ++ [d] := by
  rw [run_snoc]; simp [step, hd, hc]

/-! ## C90: what becomes of the streams -/

/-- Specification: the session id under which an incoming stream is kept -/
def keyOf (env : Env P C) (chunks : List Bytes) : String :=
  match (ReadStreamWithBuffer chunks).1 with
  | .ok data => match env.dec data with
    | some (_, id) => id
    | none => "UNKNOWN"
  | _ => "UNKNOWN"

theorem readFromStream_key (env : Env P C) (subs : Subscribers.State C) (p : P) (chunks : List Bytes) :
    (readFromStream env subs p chunks).1 = keyOf env chunks := by
  unfold readFromStream keyOf
  cases (ReadStreamWithBuffer chunks).1 with
  | ok data =>
    simp only
    cases env.dec data with
    | none => rfl
    | some r =>
      obtain ⟨t, id⟩ := r
      simp only
      cases Subscribers.getSubscriber subs t id <;> rfl
  | err e => rfl
  | panic => rfl

/-- kept under the id, or reset -/
def Kept (s : St P C S) (id : String) (st : S) : Prop := st ∈ StreamRelease.retained s.streams id ∨ st ∈ s.streams.resets

theorem kept_add (m : StreamMgr.State S) (id id' : String) (st : S) (o : Option S)
    (hk : st ∈ StreamRelease.retained m id ∨ st ∈ m.resets) :
    st ∈ StreamRelease.retained (StreamMgr.addStream m id' o) id ∨ st ∈ (StreamMgr.addStream m id' o).resets := by
  rw [StreamRelease.resets_add]
  cases o with
  | none => exact hk
  | some s' =>
    rw [StreamRelease.retained_add]
    rcases hk with hk | hk
    · left
      split
      · next he => subst he; simp [hk]
      · exact hk
    · exact Or.inr hk

theorem step_streams (env : Env P C) (s : St P C S) (e : Event P C S) :
    (step env s e).streams = s.streams ∨ (∃ id, e = .release id ∧ (step env s e).streams = StreamMgr.releaseStream s.streams id) ∨
      (∃ st p chunks, e = .incoming st p chunks ∧ (step env s e).streams = StreamMgr.addStream s.streams (keyOf env chunks) (some st)) ∨
      (∃ w o, (w, o) ∈ (step env s e).finished ∧ (step env s e).streams = StreamMgr.addStream s.streams w.msgID (o.map Prod.fst)) := by
  cases e with
  | release id => exact Or.inr (Or.inl ⟨id, rfl, rfl⟩)
  | incoming st p chunks =>
    simp only [step]
    split
    · exact Or.inl rfl
    · exact Or.inr (Or.inr (Or.inl ⟨st, p, chunks, rfl, by rw [readFromStream_key]⟩))
  | write i o =>
    simp only [step]
    split
    · exact Or.inl rfl
    · next w hw => exact Or.inr (Or.inr (Or.inr ⟨w, writeToStream env.me w o, by simp, rfl⟩))
  | broadcast w peers => left; simp only [step]; split <;> rfl
  | process =>
    left
    simp only [step]
    split
    · split
      · rfl
      · split <;> rfl
    · rfl
  | loopStop => left; simp only [step]; split <;> rfl
  | accept st p => left; simp only [step]; split <;> rfl
  | handler i => left; simp only [step]; split <;> [rfl; (split <;> rfl)]
  | handover i => left; simp only [step]; split <;> [rfl; (split <;> rfl)]
  | receive i => left; simp only [step]; split <;> [rfl; (split <;> rfl)]
  | subscribe t id c => left; rfl
  | cancel t id => left; rfl
  | stop => left; rfl

theorem kept_step (env : Env P C) (s : St P C S) (e : Event P C S) (id : String) (st : S) (hk : Kept s id st) : Kept (step env s e) id st := by
  unfold Kept at hk ⊢
  rcases step_streams env s e with h | ⟨id', _, h⟩ | ⟨st', p, chunks, _, h⟩ | ⟨w, o, _, h⟩
  · rw [h]; exact hk
  · rw [h]
    rcases hk with hk | hk
    · by_cases he : id = id'
      · subst he; right; rw [StreamRelease.resets_release]; simp [hk]
      · left; rw [StreamRelease.retained_release, if_neg he]; exact hk
    · right; rw [StreamRelease.resets_release]; simp [hk]
  · rw [h]; exact kept_add _ _ _ _ _ hk
  · rw [h]; exact kept_add _ _ _ _ _ hk

theorem kept_run (env : Env P C) (s : St P C S) (k : List (Event P C S)) (id : String) (st : S) (hk : Kept s id st) :
    Kept (k.foldl (step env) s) id st := by
  induction k generalizing s with
  | nil => exact hk
  | cons e k ih => exact ih _ (kept_step env s e id st hk)

theorem step_finished (env : Env P C) (s : St P C S) (e : Event P C S) :
    (step env s e).finished = s.finished ++ (match e with
      | .write i o => match s.writers[i]? with
        | none => []
        | some w => [(w, writeToStream env.me w o)]
      | _ => []) := by
  cases e with
  | write i o => simp only [step]; cases s.writers[i]? <;> simp
  | accept st p => simp only [step]; split <;> simp
  | incoming st p chunks => simp only [step]; split <;> simp
  | broadcast w peers => simp only [step]; split <;> simp
  | process =>
    simp only [step]
    split
    · split
      · simp
      · split <;> simp
    · simp
  | loopStop => simp only [step]; split <;> simp
  | handler i => simp only [step]; split <;> [simp; (split <;> simp)]
  | handover i => simp only [step]; split <;> [simp; (split <;> simp)]
  | receive i => simp only [step]; split <;> [simp; (split <;> simp)]
  | subscribe t id c => simp [step]
  | cancel t id => simp [step]
  | release id => simp [step]
  | stop => simp [step]

theorem finished_kept (env : Env P C) (h : List (Event P C S)) (w : Writer P) (st : S) (b : Bytes)
    (hf : (w, some (st, b)) ∈ (run env h).finished) : Kept (run env h) w.msgID st := by
  induction h using List.reverseRecOn with
  | nil => simp [run] at hf
  | append_singleton h e ih =>
    rw [run_snoc] at hf ⊢
    rw [step_finished] at hf
    rcases List.mem_append.1 hf with hf | hf
    · exact kept_step env _ e _ _ (ih hf)
    · cases e with
      | write i o =>
        simp only at hf
        cases hw : (run env h).writers[i]? with
        | none => rw [hw] at hf; simp at hf
        | some w' =>
          rw [hw] at hf
          simp only [List.mem_singleton, Prod.mk.injEq] at hf
          obtain ⟨rfl, hf⟩ := hf
          unfold Kept
          left
          simp only [step, hw, ← hf, Option.map_some]
          rw [StreamRelease.retained_add, if_pos rfl]
          simp
      | _ => simp at hf

theorem release_resets (env : Env P C) (h : List (Event P C S)) (id id' : String) (st : S) (hk : Kept (run env h) id st)
    (hid : id = id' ∨ id = "UNKNOWN") : st ∈ (run env (h ++ [.release id'])).streams.resets := by
  rw [run_snoc]
  simp only [step, StreamRelease.resets_release]
  rcases hk with hk | hk
  · rcases hid with rfl | rfl <;> simp [hk]
  · simp [hk]

/-- C90: once the streams of a session are released, every stream that the node opened for a message of this session has been reset. -/
theorem c90_outgoing_reset (env : Env P C) (h : List (Event P C S)) (w : Writer P) (st : S) (b : Bytes)
    (hf : (w, some (st, b)) ∈ (run env h).finished) : st ∈ (run env (h ++ [.release w.msgID])).streams.resets :=
  release_resets env h _ _ st (finished_kept env h w st b hf) (Or.inl rfl)

/-- C90: once the streams of a session are released, every stream that arrived with a message of this session, or with nothing readable, has been
reset. -/
theorem c90_incoming_reset (env : Env P C) (a b : List (Event P C S)) (st : S) (p : P) (chunks : List Bytes) (id : String)
    (hs : ∃ a₁ a₂, a = a₁ ++ .accept st p :: a₂ ∧ Event.stop ∉ a₁) (hid : keyOf env chunks = id ∨ keyOf env chunks = "UNKNOWN") :
    st ∈ (run env (a ++ .incoming st p chunks :: b ++ [.release id])).streams.resets := by
  have hst : (st, p) ∈ (run env a).opened := by
    rw [run_opened, mem_streamsBefore]
    exact hs
  refine release_resets env _ (keyOf env chunks) id st ?_ hid
  have e : a ++ Event.incoming st p chunks :: b = (a ++ [.incoming st p chunks]) ++ b := by simp
  rw [e, run_append]
  apply kept_run
  rw [run_snoc]
  unfold Kept
  left
  simp only [step, hst, not_true_eq_false, if_false, readFromStream_key]
  rw [StreamRelease.retained_add, if_pos rfl]
  simp

/-- where a stream came from and the id it is kept under -/
def Origin (env : Env P C) (h : List (Event P C S)) (id : String) (st : S) : Prop :=
  (∃ w b, (w, some (st, b)) ∈ (run env h).finished ∧ w.msgID = id) ∨ (∃ p chunks, .incoming st p chunks ∈ h ∧ keyOf env chunks = id)

theorem origin_snoc (env : Env P C) (h : List (Event P C S)) (e : Event P C S) (id : String) (st : S) (ho : Origin env h id st) :
    Origin env (h ++ [e]) id st := by
  rcases ho with ⟨w, b, h1, h2⟩ | ⟨p, chunks, h1, h2⟩
  · exact Or.inl ⟨w, b, by rw [run_snoc, step_finished]; exact List.mem_append_left _ h1, h2⟩
  · exact Or.inr ⟨p, chunks, List.mem_append_left _ h1, h2⟩

theorem retained_origin (env : Env P C) (h : List (Event P C S)) (id : String) (st : S)
    (hr : st ∈ StreamRelease.retained (run env h).streams id) : Origin env h id st := by
  induction h using List.reverseRecOn generalizing id with
  | nil => simp [run, StreamRelease.retained, StreamMgr.init] at hr
  | append_singleton h e ih =>
    rw [run_snoc] at hr
    rcases step_streams env (run env h) e with hh | ⟨id', _, hh⟩ | ⟨st', p, chunks, he, hh⟩ | ⟨w, o, hw, hh⟩
    · rw [hh] at hr; exact origin_snoc env h e id st (ih id hr)
    · rw [hh, StreamRelease.retained_release] at hr
      split at hr
      · simp at hr
      · exact origin_snoc env h e id st (ih id hr)
    · rw [hh, StreamRelease.retained_add] at hr
      split at hr
      · next hid =>
        rcases List.mem_append.1 hr with hr | hr
        · rw [← hid] at hr; exact origin_snoc env h e id st (ih id hr)
        · simp only [List.mem_singleton] at hr
          subst hr
          exact Or.inr ⟨p, chunks, by simp [he], hid.symm⟩
      · exact origin_snoc env h e id st (ih id hr)
    · rw [hh] at hr
      cases o with
      | none => exact origin_snoc env h e id st (ih id hr)
      | some r =>
        simp only [Option.map_some] at hr
        rw [StreamRelease.retained_add] at hr
        split at hr
        · next hid =>
          rcases List.mem_append.1 hr with hr | hr
          · rw [← hid] at hr; exact origin_snoc env h e id st (ih id hr)
          · simp only [List.mem_singleton] at hr
            subst hr
            exact Or.inl ⟨w, r.2, by rw [run_snoc]; exact hw, hid.symm⟩
        · exact origin_snoc env h e id st (ih id hr)

/-- C90: a stream is reset only by the release of the session whose message it carried, or by any release if it carried nothing readable: the streams of
other sessions are left alone. -/
theorem c90_only_released (env : Env P C) (h : List (Event P C S)) (st : S) (hr : st ∈ (run env h).streams.resets) :
    ∃ id, (id = "UNKNOWN" ∧ (∃ id', Event.release id' ∈ h) ∨ Event.release id ∈ h) ∧
      ((∃ w b, (w, some (st, b)) ∈ (run env h).finished ∧ w.msgID = id) ∨ (∃ p chunks, .incoming st p chunks ∈ h ∧ keyOf env chunks = id)) := by
  induction h using List.reverseRecOn with
  | nil => simp [run, StreamMgr.init] at hr
  | append_singleton h e ih =>
    have ext : st ∈ (run env h).streams.resets →
        ∃ id, (id = "UNKNOWN" ∧ (∃ id', Event.release id' ∈ h ++ [e]) ∨ Event.release id ∈ h ++ [e]) ∧ Origin env (h ++ [e]) id st := fun hr' => by
      obtain ⟨id, h1, h2⟩ := ih hr'
      refine ⟨id, ?_, origin_snoc env h e id st h2⟩
      rcases h1 with ⟨h1, id', h1'⟩ | h1
      · exact Or.inl ⟨h1, id', List.mem_append_left _ h1'⟩
      · exact Or.inr (List.mem_append_left _ h1)
    rw [run_snoc] at hr
    rcases step_streams env (run env h) e with hh | ⟨id', he, hh⟩ | ⟨st', p, chunks, he, hh⟩ | ⟨w, o, hw, hh⟩
    · rw [hh] at hr; exact ext hr
    · rw [hh, StreamRelease.resets_release] at hr
      simp only [List.mem_append] at hr
      rcases hr with hr | hr | hr
      · exact ext hr
      · exact ⟨id', Or.inr (by simp [he]), origin_snoc env h e id' st (retained_origin env h id' st hr)⟩
      · exact ⟨"UNKNOWN", Or.inl ⟨rfl, id', by simp [he]⟩, origin_snoc env h e _ st (retained_origin env h _ st hr)⟩
    · rw [hh, StreamRelease.resets_add] at hr; exact ext hr
    · rw [hh, StreamRelease.resets_add] at hr; exact ext hr

/-- C90 (a weakness): a peer can fill the memory of a node with streams: a stream that brings a message with an id that no session uses is never reset
as long as that id is not released. -/
theorem c90_foreign_id_never_reset (env : Env P C) (h : List (Event P C S)) (st : S) (id : String) (hid : id ≠ "UNKNOWN")
    (hkey : ∀ p chunks, Event.incoming st p chunks ∈ h → keyOf env chunks = id)
    (hnew : ∀ i fault, Event.write i (.stream st fault) ∉ h) (hrel : Event.release id ∉ h) : st ∉ (run env h).streams.resets := by
  intro hr
  have hfin : ∀ w b, (w, some (st, b)) ∉ (run env h).finished := by
    clear hkey hrel hr
    induction h using List.reverseRecOn with
    | nil => intro w b hw; simp [run] at hw
    | append_singleton h e ih =>
      intro w b hw
      have hnew' : ∀ i fault, Event.write i (.stream st fault) ∉ h := fun i f hm => hnew i f (List.mem_append_left _ hm)
      rw [run_snoc, step_finished] at hw
      rcases List.mem_append.1 hw with hw | hw
      · exact ih hnew' w b hw
      · cases e with
        | write i o =>
          simp only at hw
          cases hw' : (run env h).writers[i]? with
          | none => rw [hw'] at hw; simp at hw
          | some w' =>
            rw [hw'] at hw
            simp only [List.mem_singleton, Prod.mk.injEq] at hw
            cases o with
            | noStream => simp [writeToStream] at hw
            | stream s' fault =>
              simp only [writeToStream] at hw
              split at hw
              · simp at hw
              · simp only [Option.some.injEq, Prod.mk.injEq] at hw
                obtain ⟨_, rfl, _⟩ := hw
                exact hnew i fault (by simp)
        | _ => simp at hw
  obtain ⟨id', h1, h2⟩ := c90_only_released env h st hr
  rcases h2 with ⟨w, b, h2, _⟩ | ⟨p, chunks, h2, h3⟩
  · exact hfin w b h2
  · have := hkey p chunks h2
    rw [h3] at this
    subst this
    rcases h1 with ⟨h1, _⟩ | h1
    · exact hid h1
    · exact hrel h1

/-! ## C89: several nodes -/

theorem frame_prefix_inj (d d' : Bytes) (hd : d.length < 2 ^ 32) (hd' : d'.length < 2 ^ 32) (h : frame d <+: frame d') : d = d' := by
  obtain ⟨t, ht⟩ := h
  have h1 : (frame d').take 4 = (frame d).take 4 := by
    rw [← ht, List.take_append_of_le_length (by rw [frame_length]; omega)]
  have e1 := Framing.frame_take d []
  have e2 := Framing.frame_take d' []
  rw [List.append_nil] at e1 e2
  rw [e1, e2, Nat.mod_eq_of_lt hd, Nat.mod_eq_of_lt hd'] at h1
  have h2 : d'.length = d.length := by
    have := congrArg unle32 h1
    rwa [unle32_le32 _ hd, unle32_le32 _ hd'] at this
  have h3 : t = [] := by
    have := congrArg List.length ht
    rw [List.length_append, frame_length, frame_length] at this
    exact List.length_eq_zero_iff.1 (by omega)
  rw [h3, List.append_nil] at ht
  unfold frame at ht
  exact (List.append_inj' ht h2.symm).2

theorem write_prefix (d : Bytes) (fault : Option Nat) : (WriteStreamWithBuffer d fault).1 <+: frame d := by
  cases fault with
  | none => exact List.prefix_rfl
  | some k =>
    simp only [WriteStreamWithBuffer]
    split
    · exact List.take_prefix _ _
    · exact List.prefix_rfl

/-- who can read a part of what was written for `d` as a message reads `d`, and all of it was written -/
theorem read_written (d d' b : Bytes) (chunks : List Bytes) (hd : d.length < 2 ^ 32) (hb : b <+: frame d) (hc : chunks.flatten <+: b)
    (hr : (ReadStreamWithBuffer chunks).1 = .ok d') : d' = d ∧ b = frame d := by
  have hp := hc.trans hb
  by_cases hk : chunks.flatten.length < (frame d).length
  · have he : chunks.flatten = (frame d).take chunks.flatten.length := (List.prefix_iff_eq_take.1 hp)
    obtain ⟨e, he'⟩ := Framing.c12_truncated_refused d chunks _ hd hk he
    rw [he'] at hr; cases hr
  · have hl := hp.length_le
    have hfe : chunks.flatten = frame d := hp.eq_of_length (by omega)
    have hl2 := hb.length_le
    have hl3 := hc.length_le
    refine ⟨?_, hb.eq_of_length (by omega)⟩
    by_cases hm : d.length ≤ MaxPayload
    · have := (Framing.c11_roundtrip d [] chunks hm (by rw [List.append_nil]; exact hfe.symm)).2
      rw [this] at hr
      cases hr; rfl
    · obtain ⟨_, e, he⟩ := Framing.c12_too_large_payload d [] chunks (by omega) hd (by rw [List.append_nil]; exact hfe)
      rw [he] at hr; cases hr

/-- Specification: what node `p` hands to its communication layer in a history of the network -/
def broadcastsAt (p : P) : List (NetEvent P C S) → List (Wrapped × List P)
  | [] => []
  | .at_ q (.broadcast w peers) :: h => if q = p then (w, peers) :: broadcastsAt p h else broadcastsAt p h
  | _ :: h => broadcastsAt p h

theorem broadcastsAt_append (p : P) (h k : List (NetEvent P C S)) : broadcastsAt p (h ++ k) = broadcastsAt p h ++ broadcastsAt p k := by
  induction h with
  | nil => rfl
  | cons e h ih =>
    cases e with
    | at_ q e => cases e <;> simp only [List.cons_append, broadcastsAt, ih]; split <;> simp
    | deliver i s chunks => simp only [List.cons_append, broadcastsAt, ih]
    | foreign s p q chunks => simp only [List.cons_append, broadcastsAt, ih]

theorem broadcastsAt_mem (p : P) (h : List (NetEvent P C S)) (w : Wrapped) (peers : List P) (hm : (w, peers) ∈ broadcastsAt p h) :
    .at_ p (.broadcast w peers) ∈ h := by
  induction h with
  | nil => simp [broadcastsAt] at hm
  | cons e h ih =>
    cases e with
    | at_ q e =>
      cases e with
      | broadcast w' peers' =>
        simp only [broadcastsAt] at hm
        split at hm
        · next hq =>
          rcases List.mem_cons.1 hm with hm | hm
          · simp only [Prod.mk.injEq] at hm; obtain ⟨rfl, rfl⟩ := hm; subst hq; simp
          · exact List.mem_cons_of_mem _ (ih hm)
        · exact List.mem_cons_of_mem _ (ih hm)
      | _ => exact List.mem_cons_of_mem _ (ih hm)
    | deliver i s chunks => exact List.mem_cons_of_mem _ (ih hm)
    | foreign s p q chunks => exact List.mem_cons_of_mem _ (ih hm)

theorem netRun_snoc (env : P → Env P C) (honest : P → Bool) (h : List (NetEvent P C S)) (e : NetEvent P C S) :
    netRun env honest (h ++ [e]) = netStep env honest (netRun env honest h) e := by
  simp [netRun]

/-- what one event of the network is for one node -/
theorem netStep_node (env : P → Env P C) (honest : P → Bool) (n : Net P C S) (e : NetEvent P C S) (p : P) :
    (netStep env honest n e).nodes p = n.nodes p ∨
      ∃ e', (netStep env honest n e).nodes p = step (env p) (n.nodes p) e' ∧ honest p = true ∧
        ((isIncoming e' = false ∧ e = .at_ p e') ∨ isIncoming e' = true) := by
  cases e with
  | at_ q e =>
    simp only [netStep]
    split
    · next hq =>
      simp only [Net.update]
      by_cases hpq : p = q
      · subst hpq
        exact Or.inr ⟨e, by rw [if_pos rfl], hq.1, Or.inl ⟨hq.2, rfl⟩⟩
      · exact Or.inl (if_neg hpq)
    · exact Or.inl rfl
  | deliver i s chunks =>
    simp only [netStep]
    split
    · exact Or.inl rfl
    · next p' q b hp =>
      split
      · next hq =>
        simp only [Net.update]
        by_cases hpq : p = q
        · subst hpq
          exact Or.inr ⟨.incoming s p' chunks, by rw [if_pos rfl], hq.1, Or.inr rfl⟩
        · exact Or.inl (if_neg hpq)
      · exact Or.inl rfl
  | foreign s p' q chunks =>
    simp only [netStep]
    split
    · next hq =>
      simp only [Net.update]
      by_cases hpq : p = q
      · subst hpq
        exact Or.inr ⟨.incoming s p' chunks, by rw [if_pos rfl], hq.2, Or.inr rfl⟩
      · exact Or.inl (if_neg hpq)
    · exact Or.inl rfl

/-- every node of a network behaves like a node alone, for a history made of its own events and of arrivals -/
theorem node_run (env : P → Env P C) (honest : P → Bool) (h : List (NetEvent P C S)) (p : P) :
    ∃ hp, (netRun env honest h).nodes p = run (env p) hp ∧ broadcasts hp <+ broadcastsAt p h ∧
      (∀ e ∈ hp, isIncoming e = false → .at_ p e ∈ h) := by
  induction h using List.reverseRecOn with
  | nil => exact ⟨[], rfl, List.Sublist.refl _, by simp⟩
  | append_singleton h e ih =>
    obtain ⟨hp, h1, h2, h3⟩ := ih
    rw [netRun_snoc]
    rcases netStep_node env honest (netRun env honest h) e p with hn | ⟨e', hn, _, he'⟩
    · refine ⟨hp, hn.trans h1, ?_, fun e' he' hi => List.mem_append_left _ (h3 e' he' hi)⟩
      rw [broadcastsAt_append]
      exact h2.trans (List.sublist_append_left _ _)
    · refine ⟨hp ++ [e'], ?_, ?_, ?_⟩
      · rw [hn, h1, run_snoc]
      · rw [broadcasts_append, broadcastsAt_append]
        refine h2.append ?_
        rcases he' with ⟨_, rfl⟩ | hi
        · cases e' <;> simp [broadcasts, broadcastsAt]
        · cases e' <;> simp [isIncoming] at hi
          exact List.nil_sublist _
      · intro e'' hm hi
        rcases List.mem_append.1 hm with hm | hm
        · exact List.mem_append_left _ (h3 e'' hm hi)
        · simp only [List.mem_singleton] at hm
          subst hm
          rcases he' with ⟨_, rfl⟩ | hi'
          · simp
          · rw [hi] at hi'; cases hi'

/-- messages of all lengths the header can announce; JSON of a message of four gigabytes is out of reach -/
def Sized (env : P → Env P C) : Prop := ∀ p m data, (env p).enc m = some data → data.length < 2 ^ 32

theorem finished_sized (env : P → Env P C) (honest : P → Bool) (h : List (NetEvent P C S)) (hs : Sized env) (p : P) (w : Writer P) (st : S) (b : Bytes)
    (hf : (w, some (st, b)) ∈ ((netRun env honest h).nodes p).finished) : w.data.length < 2 ^ 32 ∧ b <+: frame w.data := by
  obtain ⟨hp, h1, _, _⟩ := node_run env honest h p
  rw [h1] at hf
  obtain ⟨_, h2, m, peers, _, _, h3, _⟩ := c87_only_addressed (env p) hp w st b hf
  exact ⟨hs p m _ h3, h2⟩

theorem finished_mono (env : P → Env P C) (honest : P → Bool) (n : Net P C S) (e : NetEvent P C S) (p : P) (f : Writer P × Option (S × Bytes))
    (hf : f ∈ (n.nodes p).finished) : f ∈ ((netStep env honest n e).nodes p).finished := by
  rcases netStep_node env honest n e p with hn | ⟨e', hn, _⟩
  · rw [hn]; exact hf
  · rw [hn, step_finished]; exact List.mem_append_left _ hf

/-- whatever is on its way was written by its sender for its receiver -/
theorem pool_written (env : P → Env P C) (honest : P → Bool) (h : List (NetEvent P C S)) (p q : P) (b : Bytes)
    (hp : (p, q, b) ∈ (netRun env honest h).pool) :
    ∃ w st, (w, some (st, b)) ∈ ((netRun env honest h).nodes p).finished ∧ w.peer = q := by
  induction h using List.reverseRecOn with
  | nil => simp [netRun] at hp
  | append_singleton h e ih =>
    have ext : (p, q, b) ∈ (netRun env honest h).pool →
        ∃ w st, (w, some (st, b)) ∈ ((netRun env honest (h ++ [e])).nodes p).finished ∧ w.peer = q := by
      intro hin
      obtain ⟨w, st, h1, h2⟩ := ih hin
      exact ⟨w, st, by rw [netRun_snoc]; exact finished_mono env honest _ e p _ h1, h2⟩
    rw [netRun_snoc] at hp
    cases e with
    | at_ q' e =>
      simp only [netStep] at hp
      split at hp
      · next hq =>
        rcases List.mem_append.1 hp with hp | hp
        · exact ext hp
        · simp only [Option.mem_toList, Option.map_eq_some_iff, Prod.mk.injEq, Prod.exists] at hp
          obtain ⟨q2, b2, hw, rfl, rfl, rfl⟩ := hp
          cases e with
          | write i o =>
            simp only [written] at hw
            split at hw
            · simp at hw
            · next w hi =>
              simp only [Option.map_eq_some_iff, Prod.mk.injEq, Prod.exists] at hw
              obtain ⟨st, b', hw1, rfl, rfl⟩ := hw
              refine ⟨w, st, ?_, rfl⟩
              rw [netRun_snoc]
              simp only [netStep, if_pos hq, Net.update, if_true, step_finished, hi, hw1]
              simp
          | _ => simp [written] at hw
      · exact ext hp
    | deliver i s chunks =>
      simp only [netStep] at hp
      split at hp
      · exact ext hp
      · split at hp
        · exact ext ((List.eraseIdx_sublist _ _).subset hp)
        · exact ext hp
    | foreign s p' q' chunks =>
      simp only [netStep] at hp
      split at hp <;> exact ext hp

/-- completed writes to `q` of the message `data` -/
def isWrite (q : P) (data : Bytes) (f : Writer P × Option (S × Bytes)) : Bool :=
  decide (f.1.peer = q ∧ f.1.data = data ∧ f.2.map Prod.snd = some (frame data))

/-- a delivery of `data` from `p` -/
def isFrom (p : P) (data : Bytes) (d : Delivery P C) : Bool := decide (d.peer = p ∧ d.payload = data)

theorem adds_incoming (env : Env P C) (s : St P C S) (st : S) (p : P) (chunks : List Bytes) :
    adds env s (.incoming st p chunks) = [] ∨ ∃ c data, (ReadStreamWithBuffer chunks).1 = .ok data ∧ adds env s (.incoming st p chunks) = [⟨c, p, data⟩] := by
  simp only [adds, readFromStream]
  split
  · exact Or.inl rfl
  · split
    · next data hr =>
      split
      · exact Or.inl rfl
      · next t id hd =>
        split
        · exact Or.inl rfl
        · next c hc => exact Or.inr ⟨c, data, hr, rfl⟩
    · exact Or.inl rfl

theorem adds_other (env : Env P C) (s : St P C S) (e : Event P C S) (he : isIncoming e = false) : adds env s e = [] := by
  cases e <;> simp [adds, isIncoming] at he ⊢

theorem countP_perm_eraseIdx {α : Type} (l : List α) (i : Nat) (a : α) (h : l[i]? = some a) (f : α → Bool) :
    (l.eraseIdx i).countP f + (if f a then 1 else 0) = l.countP f := by
  have := (perm_eraseIdx_append l i a h).countP_eq f
  rw [← this, List.countP_cons]

/-- deliveries and streams on their way together are covered by completed writes -/
theorem covered (env : P → Env P C) (honest : P → Bool) (h : List (NetEvent P C S)) (hs : Sized env) (p q : P) (hp : honest p = true)
    (data : Bytes) (hd : data.length < 2 ^ 32) :
    (netRun env honest h).pool.countP (fun r => decide (r = (p, q, frame data))) + (all ((netRun env honest h).nodes q)).countP (isFrom p data)
      ≤ ((netRun env honest h).nodes p).finished.countP (isWrite q data) := by
  induction h using List.reverseRecOn with
  | nil => simp [netRun, all]
  | append_singleton h e ih =>
    have hpool := pool_written env honest h
    have hsz := finished_sized env honest h hs
    have hsz' := finished_sized env honest (h ++ [e]) hs
    rw [netRun_snoc] at hsz' ⊢
    generalize netRun env honest h = n at ih hpool hsz hsz'
    cases e with
    | at_ q' e =>
      simp only [netStep]
      split
      · next hq =>
        have hall : (all (n.update q' (step (env q') (n.nodes q') e) q)).countP (isFrom p data) = (all (n.nodes q)).countP (isFrom p data) := by
          unfold Net.update
          split
          · next h' =>
            subst h'
            rw [(step_all (env q) (n.nodes q) e).countP_eq, adds_other _ _ _ hq.2, List.append_nil]
          · rfl
        rw [hall]
        simp only [Net.update, List.countP_append]
        by_cases hpq : p = q'
        · subst hpq
          rw [if_pos rfl, step_finished, List.countP_append]
          have : List.countP (fun r => decide (r = (p, q, frame data))) (Option.map (fun r => (p, r.1, r.2)) (written (env p) (n.nodes p) e)).toList ≤
              List.countP (isWrite q data) (match e with
                | .write i o => match (n.nodes p).writers[i]? with
                  | none => []
                  | some w => [(w, writeToStream (env p).me w o)]
                | _ => []) := by
            cases e with
            | write i o =>
              simp only [written]
              cases hw : (n.nodes p).writers[i]? with
              | none => simp
              | some w =>
                simp only
                cases hwr : writeToStream (env p).me w o with
                | none => simp
                | some r =>
                  obtain ⟨st, b⟩ := r
                  simp only [Option.map_some, Option.toList_some, List.countP_singleton, decide_eq_true_eq, Prod.mk.injEq, true_and]
                  split
                  · next hb =>
                    obtain ⟨hb1, hb2⟩ := hb
                    have hwd : w.data.length < 2 ^ 32 ∧ b <+: frame w.data := by
                      refine hsz' p w st b ?_
                      simp only [netStep, if_pos hq, Net.update, if_true, step_finished, hw, hwr]
                      simp
                    have : data = w.data := frame_prefix_inj data w.data hd hwd.1 (hb2 ▸ hwd.2)
                    simp [isWrite, hb1, ← this, hb2]
                  · omega
            | _ => simp [written]
          omega
        · rw [if_neg hpq]
          have : List.countP (fun r => decide (r = (p, q, frame data))) (Option.map (fun r => (q', r.1, r.2)) (written (env q') (n.nodes q') e)).toList = 0 := by
            cases written (env q') (n.nodes q') e with
            | none => rfl
            | some r => simp [Ne.symm hpq]
          omega
      · exact ih
    | deliver i s chunks =>
      simp only [netStep]
      split
      · exact ih
      · next p' q' b hi =>
        split
        · next hq =>
          have hfin : (n.update q' (step (env q') (n.nodes q') (.incoming s p' chunks)) p).finished = (n.nodes p).finished := by
            unfold Net.update
            split
            · next h' => subst h'; simp [step_finished]
            · rfl
          rw [hfin]
          have hc := countP_perm_eraseIdx n.pool i _ hi (fun r => decide (r = (p, q, frame data)))
          simp only [Net.update]
          by_cases hqq : q = q'
          · subst hqq
            rw [if_pos rfl, (step_all _ _ _).countP_eq, List.countP_append]
            rcases adds_incoming (env q) (n.nodes q) s p' chunks with ha | ⟨c, d', hr, ha⟩
            · rw [ha]
              simp only [List.countP_nil]
              omega
            · rw [ha]
              obtain ⟨w, st, hw, hwq⟩ := hpool p' q b (List.mem_of_getElem? hi)
              obtain ⟨hw1, hw2⟩ := hsz p' w st b hw
              obtain ⟨e1, e2⟩ := read_written w.data d' b chunks hw1 hw2 hq.2 hr
              by_cases hpd : p' = p ∧ d' = data
              · obtain ⟨rfl, rfl⟩ := hpd
                rw [e2, ← e1] at hc
                simp only [decide_true, if_true] at hc
                simp only [List.countP_singleton, isFrom, and_self, decide_true, if_true]
                omega
              · have : List.countP (isFrom p data) [(⟨c, p', d'⟩ : Delivery P C)] = 0 := by simp [isFrom, hpd]
                omega
          · rw [if_neg hqq]
            omega
        · exact ih
    | foreign s p' q' chunks =>
      simp only [netStep]
      split
      · next hq =>
        have hne : p' ≠ p := by
          rintro rfl
          rw [hp] at hq
          exact absurd hq.1 (by simp)
        have hfin : (n.update q' (step (env q') (n.nodes q') (.incoming s p' chunks)) p).finished = (n.nodes p).finished := by
          unfold Net.update
          split
          · next h' => subst h'; simp [step_finished]
          · rfl
        rw [hfin]
        simp only [Net.update]
        by_cases hqq : q = q'
        · subst hqq
          rw [if_pos rfl, (step_all _ _ _).countP_eq, List.countP_append]
          have : List.countP (isFrom p data) (adds (env q) (n.nodes q) (.incoming s p' chunks)) = 0 := by
            rcases adds_incoming (env q) (n.nodes q) s p' chunks with ha | ⟨c, d', hr, ha⟩
            · rw [ha]; rfl
            · rw [ha]; simp [isFrom, hne]
          omega
        · rw [if_neg hqq]
          exact ih
      · exact ih

theorem finished_wanted (env : P → Env P C) (honest : P → Bool) (h : List (NetEvent P C S)) (p q : P) (data : Bytes) :
    ((netRun env honest h).nodes p).finished.countP (isWrite q data) ≤
      (wanted (env p) (broadcastsAt p h)).countP fun w => decide (w.peer = q ∧ w.data = data) := by
  obtain ⟨hp, h1, h2, _⟩ := node_run env honest h p
  rw [h1]
  have e1 : (run (env p) hp).finished.countP (isWrite q data) ≤
      ((run (env p) hp).finished.map Prod.fst).countP fun w => decide (w.peer = q ∧ w.data = data) := by
    rw [List.countP_map]
    apply List.countP_mono_left
    intro f _ hf
    simp only [isWrite, decide_eq_true_eq] at hf
    simp [hf.1, hf.2.1]
  have e2 := (balanced (env p) hp).countP_eq fun w => decide (w.peer = q ∧ w.data = data)
  rw [List.countP_append] at e2
  have e3 : (wanted (env p) (run (env p) hp).accepted).countP (fun w => decide (w.peer = q ∧ w.data = data)) ≤
      (wanted (env p) (broadcastsAt p h)).countP (fun w => decide (w.peer = q ∧ w.data = data)) :=
    List.Sublist.countP_le (wanted_sublist (env p) ((accepted_sublist (env p) hp).trans h2))
  omega

/-- C89: the sessions of a node receive a message of an honest peer at most as often as that peer's sessions handed it over for this node. -/
theorem c89_at_most_once (env : P → Env P C) (honest : P → Bool) (h : List (NetEvent P C S)) (hs : Sized env) (p q : P) (hp : honest p = true)
    (data : Bytes) (hd : data.length < 2 ^ 32) :
    ((netRun env honest h).nodes q).received.countP (fun d => decide (d.peer = p ∧ d.payload = data)) ≤
      (wanted (env p) (broadcastsAt p h)).countP fun w => decide (w.peer = q ∧ w.data = data) := by
  have h1 := covered env honest h hs p q hp data hd
  have h2 := finished_wanted env honest h p q data
  simp only [all, List.countP_append] at h1
  have h3 : ((netRun env honest h).nodes q).received.countP (fun d => decide (d.peer = p ∧ d.payload = data)) =
      ((netRun env honest h).nodes q).received.countP (isFrom p data) := rfl
  omega

/-- C89: whatever a session receives in the name of an honest peer was handed over, with these very bytes, by a session of that peer and addressed to
this node. -/
theorem c89_authentic (env : P → Env P C) (honest : P → Bool) (h : List (NetEvent P C S)) (hs : Sized env) (q : P) (d : Delivery P C)
    (hd : d ∈ ((netRun env honest h).nodes q).received) (hp : honest d.peer = true) :
    ∃ m peers, NetEvent.at_ d.peer (.broadcast m peers) ∈ h ∧ q ∈ peers ∧ (env d.peer).enc m = some d.payload := by
  obtain ⟨hq, h1, _, _⟩ := node_run env honest h q
  have hlen : d.payload.length < 2 ^ 32 := by
    rw [h1] at hd
    obtain ⟨a, st, chunks, b, t, id, _, hr, _⟩ := c88_received (env q) hq d hd
    have := (Framing.c12_accepted_bounded chunks _ hr).1
    have hM : MaxPayload = 20000000 := rfl
    omega
  have hle := c89_at_most_once env honest h hs d.peer q hp d.payload hlen
  have hpos : 0 < ((netRun env honest h).nodes q).received.countP (fun d' => decide (d'.peer = d.peer ∧ d'.payload = d.payload)) :=
    List.countP_pos_iff.2 ⟨d, hd, by simp⟩
  obtain ⟨w, hw, hwd⟩ := List.countP_pos_iff.1 (lt_of_lt_of_le hpos hle)
  simp only [decide_eq_true_eq] at hwd
  obtain ⟨m, peers, hm, hpe, henc, _⟩ := (wanted_mem _ _ _).1 hw
  exact ⟨m, peers, broadcastsAt_mem _ h m peers hm, hwd.1 ▸ hpe, by rw [henc, hwd.2]⟩

theorem latest_some (t : Subscribers.Topic) (id : String) (c : C) (l : List (Subscribers.Op C)) (h : Subscriptions.latest t id l = some c) :
    Subscribers.Op.sub t id c ∈ l := by
  induction l with
  | nil => simp [Subscriptions.latest] at h
  | cons o l ih =>
    cases o with
    | sub t' m' c' =>
      simp only [Subscriptions.latest] at h
      split at h
      · next he => obtain ⟨rfl, rfl⟩ := he; simp only [Option.some.injEq] at h; subst h; simp
      · exact List.mem_cons_of_mem _ (ih h)
    | cancel t' m' =>
      simp only [Subscriptions.latest] at h
      split at h
      · simp at h
      · exact List.mem_cons_of_mem _ (ih h)

theorem subscriptions_mem (h : List (Event P C S)) (t : Subscribers.Topic) (id : String) (c : C) (hm : .sub t id c ∈ subscriptions h) :
    .subscribe t id c ∈ h := by
  induction h with
  | nil => simp [subscriptions] at hm
  | cons e h ih =>
    cases e <;> simp only [subscriptions, List.mem_cons, reduceCtorEq, false_or, Subscribers.Op.sub.injEq, Event.subscribe.injEq] at hm ⊢ <;> tauto

/-- C89: if the nodes agree on the encoding, the message reaches only a channel that a session of the receiver has subscribed for the type and the
id under which the sender's session sent it: sessions with different ids do not mix, across the whole network. -/
theorem c89_same_session (env : P → Env P C) (honest : P → Bool) (h : List (NetEvent P C S)) (hs : Sized env)
    (hcodec : ∀ p q m data, (env p).enc m = some data → (env q).dec data = some (m.topic, m.msgID)) (q : P) (d : Delivery P C)
    (hd : d ∈ ((netRun env honest h).nodes q).received) (hp : honest d.peer = true) :
    ∃ m peers, NetEvent.at_ d.peer (.broadcast m peers) ∈ h ∧ q ∈ peers ∧ (env d.peer).enc m = some d.payload ∧
      NetEvent.at_ q (.subscribe m.topic m.msgID d.chan) ∈ h := by
  obtain ⟨m, peers, h1, h2, h3⟩ := c89_authentic env honest h hs q d hd hp
  refine ⟨m, peers, h1, h2, h3, ?_⟩
  obtain ⟨hq, e1, _, e2⟩ := node_run env honest h q
  rw [e1] at hd
  obtain ⟨a, st, chunks, b, t, id, rfl, _, hdec, hlat, _⟩ := c88_received (env q) hq d hd
  rw [hcodec _ q m _ h3] at hdec
  simp only [Option.some.injEq, Prod.mk.injEq] at hdec
  obtain ⟨rfl, rfl⟩ := hdec
  have hsub := subscriptions_mem a _ _ _ (List.mem_reverse.1 (latest_some _ _ _ _ hlat))
  exact e2 _ (List.mem_append_left _ hsub) rfl

/-- C89: a stream that carries the whole frame of a message reaches the session that is subscribed for it, however the bytes are cut into reads. -/
theorem c89_delivered (env : P → Env P C) (honest : P → Bool) (h : List (NetEvent P C S)) (i : Nat) (st : S) (chunks : List Bytes) (p q : P)
    (data : Bytes) (t : Subscribers.Topic) (id : String) (c : C)
    (hi : (netRun env honest h).pool[i]? = some (p, q, frame data)) (hc : chunks.flatten = frame data) (hl : data.length ≤ MaxPayload)
    (hq : honest q = true) (hst : (st, p) ∈ ((netRun env honest h).nodes q).opened) (hdec : (env q).dec data = some (t, id))
    (hsub : Subscribers.getSubscriber ((netRun env honest h).nodes q).subs t id = some c) :
    ((netRun env honest (h ++ [.deliver i st chunks])).nodes q).handlers =
      ((netRun env honest h).nodes q).handlers ++ [⟨c, p, data⟩] := by
  have hr := (Framing.c11_roundtrip data [] chunks hl (by rw [List.append_nil]; exact hc.symm)).2
  rw [netRun_snoc]
  simp only [netStep, hi, hq, hc, List.prefix_rfl, and_self, if_true, Net.update, step, hst, not_true_eq_false, if_false, readFromStream, hr,
    hdec, hsub, Option.toList_some]

/-! ## concrete cases -/

namespace Demo

/-- three nodes; the encoding of a message is its payload after a tag, all messages belong to the session "s" and are short -/
def env (p : Nat) : Env Nat Nat :=
  ⟨p, fun w => if w.topic = .keySignMsg ∧ w.msgID = "s" ∧ w.payload.length < 100 then some (1 :: w.payload) else none,
   fun d => match d with
     | 1 :: _ => some (.keySignMsg, "s")
     | _ => none,
   fun _ => 1⟩

def msg : Wrapped := ⟨.keySignMsg, "s", [7]⟩

def frm : Bytes := frame [1, 7]

/-- node 0 sends to 0, 1 and 2; the transport to 2 fails -/
def hist : List (Event Nat Nat Nat) := [.broadcast msg [0, 1, 2], .process, .write 0 (.stream 9 none), .write 0 (.stream 10 none), .write 0 (.stream 11 (some 3))]

example : (run (env 0) hist).finished.map Prod.snd = [none, some (10, frm), some (11, frm.take 3)] := by decide +kernel
example : (run (env 0) hist).queue = [] ∧ (run (env 0) hist).writers = [] ∧ (run (env 0) hist).accepted = [(msg, [0, 1, 2])] := by decide +kernel
example : ((run (env 0) hist).finished.map Prod.fst).length = 3 ∧ wanted (env 0) (broadcasts hist) = [⟨0, [1, 7], "s"⟩, ⟨1, [1, 7], "s"⟩, ⟨2, [1, 7], "s"⟩] := by
  decide +kernel
/-- a stop before the loop takes the message: it is lost -/
example : (run (env 0) ([.broadcast msg [1], .stop, .loopStop, .process, .write 0 .noStream] : List (Event Nat Nat Nat))).queue = [(msg, [1])] := by decide +kernel
/-- the streams of the session are reset, both the whole one and the broken one -/
example : (run (env 0) (hist ++ [.release "s"])).streams.resets = [10, 11] := by decide +kernel
/-- a message for another session of which nobody knows: its stream stays -/
example : (run (env 0) ([.accept 5 1, .incoming 5 1 [frm], .release "t"] : List (Event Nat Nat Nat))).streams.resets = [] := by decide +kernel
/-- a stream opened before the stop is still read, one opened after it is not -/
example : ((run (env 0) ([.subscribe .keySignMsg "s" 4, .accept 5 1, .stop, .accept 6 1, .incoming 5 1 [frm], .incoming 6 1 [frm]] :
    List (Event Nat Nat Nat))).handlers).length = 1 := by decide +kernel
/-- three messages for a session that takes none: the channel holds one, two handlers stay -/
example : let s := run (env 0) ([.subscribe .keySignMsg "s" 4, .accept 5 1, .accept 6 1, .accept 7 2, .incoming 5 1 [frm], .incoming 6 1 [frm], .incoming 7 2 [frm], .handler 0, .handler 0,
      .handler 0, .cancel .keySignMsg "s"] : List (Event Nat Nat Nat))
    s.handlers.length = 2 ∧ s.chans.length = 1 := by decide +kernel

/-- two sessions -/
def env2 : Env Nat Nat :=
  { env 0 with cap := fun _ => 2
               dec := fun d => if d.head? = some 1 then some (.keySignMsg, "s") else some (.keySignMsg, "t") }

/-- each takes its messages in order, and one can overtake the other -/
def two : St Nat Nat Nat := run env2 ([.subscribe .keySignMsg "s" 4, .subscribe .keySignMsg "t" 5, .accept 5 1, .accept 6 2, .accept 7 2, .incoming 5 1 [frm], .incoming 6 2 [frm], .incoming 7 2 [frame [2]],
        .handler 1, .handler 0, .handler 0, .receive 1, .receive 2, .receive 0] : List (Event Nat Nat Nat))

example : line two 4 = [⟨4, 2, [1, 7]⟩, ⟨4, 1, [1, 7]⟩] ∧ two.received = [⟨5, 2, [2]⟩, ⟨4, 2, [1, 7]⟩] ∧ two.chans = [⟨4, 1, [1, 7]⟩] := by decide +kernel

/-- a network with an honest sender 0, an honest receiver 1 and a node 2 that is not honest; the frame arrives in two pieces -/
def net : List (NetEvent Nat Nat Nat) :=
  [.at_ 1 (.subscribe .keySignMsg "s" 4), .at_ 1 (.accept 12 2), .at_ 1 (.accept 11 0), .at_ 0 (.broadcast msg [0, 1]), .at_ 0 .process, .at_ 0 (.write 1 (.stream 10 none)),
   .foreign 12 2 1 [frame [1, 8]], .deliver 0 11 [frm.take 2, frm.drop 2], .at_ 1 (.handover 1), .at_ 1 (.handover 0)]

def honest : Nat → Bool := fun p => p < 2

example : ((netRun env honest net).nodes 1).received = [⟨4, 0, [1, 7]⟩, ⟨4, 2, [1, 8]⟩] := by decide +kernel

example : (⟨4, 0, [1, 7]⟩ : Delivery Nat Nat) ∈ ((netRun env honest net).nodes 1).received ∧ honest 0 = true := by decide +kernel

/-- the hypotheses of C89 on the encoding are met -/
example : Sized env := by
  intro p m data h
  simp only [env] at h
  split at h
  · next hl =>
    simp only [Option.some.injEq] at h
    subst h
    simp only [List.length_cons]
    omega
  · simp at h

example : ∀ p q m data, (env p).enc m = some data → (env q).dec data = some (m.topic, m.msgID) := by
  intro p q m data h
  simp only [env] at h
  split at h
  · next hl =>
    simp only [Option.some.injEq] at h
    subst h
    simp [env, hl.1, hl.2.1]
  · simp at h

end Demo

end Verif.Props.Network
