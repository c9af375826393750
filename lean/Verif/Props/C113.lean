import Verif.Props.C87_C91

/-! # C113: stopping the communication layer

`Stop` (p2p/communication.go:367-377) closes `stopChan` and waits for the goroutines it counts: the loop `ProcessBroadcast` and one goroutine for
each message that is being sent. -/
set_option linter.unusedSectionVars false
namespace Verif.Props.Network
open Verif.Go Verif.Comm Verif.Stream
open scoped List

variable {P C S : Type} [DecidableEq P] [DecidableEq C] [DecidableEq S]

/-- Specification: `Stop` has been called and nothing that it waits for is left -/
def StopReturns (s : St P C S) : Prop := s.stopped = true ∧ s.looping = false ∧ s.writers = []

/-- what the history does to the writes that have ended -/
theorem stopped_step (env : Env P C) (s : St P C S) (e : Event P C S) (hl : s.looping = false) :
    (step env s e).looping = false ∧ (s.stopped = true → (step env s e).stopped = true) ∧
      ((step env s e).writers = s.writers ∧ (step env s e).finished = s.finished ∨
        ∃ i o w, e = .write i o ∧ s.writers[i]? = some w ∧ (step env s e).writers = s.writers.eraseIdx i ∧
          (step env s e).finished = s.finished ++ [(w, writeToStream env.me w o)]) := by
  refine ⟨(ended_step env s e hl).1, ?_, ?_⟩
  · intro hs
    cases e with
    | process => simp [step, hl, hs]
    | write i o => simp only [step]; split <;> exact hs
    | _ => simp only [step] <;> (repeat' split) <;> exact hs
  · cases e with
    | process => left; simp [step, hl]
    | write i o =>
      rcases hw : s.writers[i]? with _ | w
      · left; simp [step, hw]
      · right; exact ⟨i, o, w, rfl, hw, by simp [step, hw], by simp [step, hw]⟩
    | _ => left; simp only [step] <;> (repeat' split) <;> simp

/-- C113: once `Stop` has returned, no stream is written any more, whatever happens and whatever sessions still hand over. -/
theorem c113_silent (env : Env P C) (h k : List (Event P C S)) (hs : StopReturns (run env h)) :
    (run env (h ++ k)).finished = (run env h).finished ∧ StopReturns (run env (h ++ k)) := by
  rw [run_append]
  generalize run env h = s at hs ⊢
  induction k generalizing s with
  | nil => exact ⟨rfl, hs⟩
  | cons e k ih =>
    obtain ⟨h1, h2, h3⟩ := hs
    obtain ⟨e1, e2, e3⟩ := stopped_step env s e h2
    rcases e3 with ⟨e3, e4⟩ | ⟨i, o, w, _, hw, _⟩
    · obtain ⟨r1, r2⟩ := ih (step env s e) ⟨e2 h1, e1, by rw [e3, h3]⟩
      exact ⟨r1.trans e4, r2⟩
    · rw [h3] at hw; simp at hw

/-- C113: after a stop, once the loop has seen it, only the writes that are already running remain: whatever happens, none is added, and each that
ends brings `Stop` nearer to its return. -/
theorem c113_remaining (env : Env P C) (h k : List (Event P C S)) (hl : (run env h).looping = false) :
    (run env (h ++ k)).writers.length ≤ (run env h).writers.length ∧
      (run env (h ++ k)).writers.length + (run env (h ++ k)).finished.length = (run env h).writers.length + (run env h).finished.length ∧
      (run env (h ++ k)).looping = false := by
  rw [run_append]
  generalize run env h = s at hl ⊢
  induction k generalizing s with
  | nil => exact ⟨le_refl _, rfl, hl⟩
  | cons e k ih =>
    obtain ⟨e1, -, e3⟩ := stopped_step env s e hl
    obtain ⟨r1, r2, r3⟩ := ih (step env s e) e1
    rw [List.foldl_cons]
    rcases e3 with ⟨e3, e4⟩ | ⟨i, o, w, _, hw, e3, e4⟩
    · rw [e3] at r1
      rw [e3, e4] at r2
      exact ⟨r1, r2, r3⟩
    · have hi : i < s.writers.length := (List.getElem?_eq_some_iff.1 hw).1
      rw [e3, List.length_eraseIdx_of_lt hi] at r1
      rw [e3, e4, List.length_eraseIdx_of_lt hi, List.length_append, List.length_singleton] at r2
      exact ⟨by omega, by omega, r3⟩

/-- C113: `Stop` can always come to its end: the loop and the writers alone get there, whether or not the writes succeed. -/
theorem c113_returns (env : Env P C) (h : List (Event P C S)) (hs : Event.stop ∈ h) (os : Nat → Outcome S) :
    ∃ k : List (Event P C S), k.head? = some .loopStop ∧ (∀ e ∈ k.tail, ∃ j, e = .write 0 (os j)) ∧
      k.tail.length = (run env h).writers.length ∧ StopReturns (run env (h ++ k)) := by
  have hst : (run env h).stopped = true := by
    rw [(run_subs env h).2]
    exact List.any_eq_true.2 ⟨_, hs, rfl⟩
  have key : ∀ n (s : St P C S), s.writers.length = n → s.stopped = true → s.looping = false →
      ∃ k : List (Event P C S), (∀ e ∈ k, ∃ j, e = .write 0 (os j)) ∧ k.length = n ∧ StopReturns (k.foldl (step env) s) := by
    intro n
    induction n with
    | zero => exact fun s hn h1 h2 => ⟨[], by simp, rfl, h1, h2, List.length_eq_zero_iff.1 hn⟩
    | succ n ih =>
      intro s hn h1 h2
      match hw : s.writers with
      | [] => rw [hw] at hn; simp at hn
      | w :: ws =>
        obtain ⟨e1, e2, -⟩ := stopped_step env s (.write 0 (os n)) h2
        obtain ⟨k, k1, k2, k3⟩ := ih (step env s (.write 0 (os n))) (by simp [step, hw]; rw [hw] at hn; simpa using hn) (e2 h1) e1
        exact ⟨.write 0 (os n) :: k, by simpa using k1, by simp [k2], k3⟩
  obtain ⟨k, k1, k2, k3⟩ := key _ (step env (run env h) .loopStop) rfl (by simp [step, hst]) (by simp [step, hst])
  refine ⟨.loopStop :: k, rfl, k1, ?_, ?_⟩
  · rw [List.tail_cons, k2]
    simp [step, hst]
  · rw [run_append]
    exact k3

/-- C113, limit: a session that hands over a message after the loop has ended may wait for ever: once the queue is full, nothing is accepted any
more. -/
theorem c113_senders_wait (env : Env P C) (h k : List (Event P C S)) (hl : (run env h).looping = false) (hq : 1024 ≤ (run env h).queue.length) :
    (run env (h ++ k)).accepted = (run env h).accepted := by
  rw [run_append]
  generalize run env h = s at hl hq ⊢
  induction k generalizing s with
  | nil => rfl
  | cons e k ih =>
    obtain ⟨h1, h2⟩ := ended_step env s e hl
    rw [List.foldl_cons, ih _ h1 (le_trans hq h2.length_le)]
    cases e with
    | broadcast w peers => simp only [step]; rw [if_neg (by omega)]
    | process => simp [step, hl]
    | _ => simp only [step] <;> (repeat' split) <;> rfl

namespace Demo

/-- a message is on its way to two peers when the node is stopped; another one waits in the queue -/
def stopping : List (Event Nat Nat Nat) := [.broadcast msg [1, 2], .process, .broadcast msg [1], .stop]

/-- the loop may still take the second message before it sees the stop -/
example : (run (env 0) (stopping ++ [.process])).writers.length = 3 ∧ (run (env 0) (stopping ++ [.loopStop])).writers.length = 2 := by decide +kernel

example : StopReturns (run (env 0) (stopping ++ [.loopStop, .write 0 (.stream 5 none), .write 0 .noStream])) := by
  refine ⟨?_, ?_, ?_⟩ <;> decide +kernel

/-- without the end of the second write `Stop` does not return -/
example : ¬ StopReturns (run (env 0) (stopping ++ [.loopStop, .write 0 (.stream 5 none)])) := by
  intro h
  exact absurd h.2.2 (by decide +kernel)

example : Event.stop ∈ stopping ∧ (run (env 0) (stopping ++ [.loopStop])).looping = false := ⟨by simp [stopping], by decide +kernel⟩

/-- the queue of a stopped node can be full -/
theorem c113_queue_fills : (run (env 0) (([.stop, .loopStop] ++ List.replicate 1024 (.broadcast msg [1])) : List (Event Nat Nat Nat))).queue.length = 1024 := by
  have key : ∀ n, n ≤ 1024 → ((List.replicate n (Event.broadcast msg [1]) : List (Event Nat Nat Nat)).foldl (step (env 0))
      (run (env 0) [.stop, .loopStop])).queue.length = n := by
    intro n
    induction n with
    | zero => intro _; rfl
    | succ n ih =>
      intro hn
      rw [List.replicate_succ', List.foldl_append, List.foldl_cons, List.foldl_nil]
      simp only [step]
      rw [if_pos (by rw [ih (by omega)]; omega)]
      simp [ih (by omega)]
  rw [run_append]
  exact key 1024 (le_refl _)

end Demo

end Verif.Props.Network
