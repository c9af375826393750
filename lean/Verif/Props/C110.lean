import Verif.Model.Calls
import Verif.Model.Comm
import Verif.Props.C15_C16

/-!
# C110: a node that announces itself for a ceremony receives the messages of the ceremony

`run h` are the calls and the subscriptions of a node after the events `h`.
-/
set_option linter.unusedSectionVars false
namespace Verif.Props.Listening
open Verif.Go Verif.Calls
open Verif.Subscribers hiding step run

variable {C : Type}

/-! ## specification -/

/-- Specification: the call may have announced itself to its peers, or is about to, and has not begun to clean up -/
def Announced (c : Call C) : Prop := c.todo = .announce :: cleanUp c.kind ∨ c.todo = cleanUp c.kind

/-- Specification: the four message types of a ceremony -/
def messageTypes : Session → List Topic
  | .keygen => [.keyGenMsg, .keyGenVerMsg, .controlMsg, .taskDone]
  | .keysign => [.keySignMsg, .keySignVerMsg, .controlMsg, .taskDone]

/-- Specification: no KeySign call has the message id of another call that is running at the same time -/
def NoClash (h : List (Event C)) : Prop :=
  ∀ a k id ch b, h = a ++ .start k id ch :: b → ∀ c ∈ (run a).calls, c.todo ≠ [] → c.id = id → c.kind = .keygen ∧ k = .keygen

/-! ## proof -/

/-- the subscriptions of a call -/
def Subscribed (n : Node C) (c : Call C) : Prop :=
  ∀ t, Act.sub t ∉ c.todo → Act.cancel t ∈ c.todo → getSubscriber n.subs t c.id = some c.chan

structure Inv (n : Node C) : Prop where
  suffix : ∀ c ∈ n.calls, c.todo <:+ program c.kind
  subs : ∀ c ∈ n.calls, Subscribed n c
  ids : ∀ (i j : Nat) (ci cj : Call C), n.calls[i]? = some ci → n.calls[j]? = some cj → ci.todo ≠ [] → cj.todo ≠ [] → ci.id = cj.id → i = j

theorem nodup_program (k : Session) : (program k).Nodup := by cases k <;> decide

theorem all_subs_first (k : Session) (t : Topic) (h : Act.cancel t ∈ program k) : Act.sub t ∈ program k := by
  revert h
  cases k <;> cases t <;> decide

theorem get_doAct (subs : State C) (c : Call C) (a : Act) (t : Topic) (m : String) :
    getSubscriber (doAct subs c a) t m =
      if a = .sub t ∧ m = c.id then some c.chan else if a = .cancel t ∧ m = c.id then none else getSubscriber subs t m := by
  cases a with
  | sub t' =>
    simp only [doAct, Subscriptions.get_setSubscribe, Act.sub.injEq, reduceCtorEq, false_and, if_false, eq_comm (a := c.id)]
  | announce => simp [doAct]
  | cancel t' =>
    simp only [doAct, Subscriptions.get_cancel, Act.cancel.injEq, reduceCtorEq, false_and, if_false, eq_comm (a := c.id)]

theorem inv_start {n : Node C} (hn : Inv n) (k : Session) (id : String) (ch : C)
    (hc : ∀ c ∈ n.calls, c.todo ≠ [] → c.id = id → c.kind = .keygen ∧ k = .keygen) : Inv (step n (.start k id ch)) := by
  simp only [step]
  split
  · exact hn
  · rename_i hl
    have hnew : ∀ c ∈ n.calls, c.todo ≠ [] → c.id ≠ id := by
      intro c hm ht he
      obtain ⟨h1, h2⟩ := hc c hm ht he
      apply hl
      refine ⟨h2, ?_⟩
      simp only [locked, List.any_eq_true]
      exact ⟨c, hm, by simp [h1, ht]⟩
    constructor
    · intro c hm
      rcases List.mem_append.1 hm with hm | hm
      · exact hn.suffix c hm
      · simp only [List.mem_singleton] at hm
        subst hm; exact List.suffix_refl _
    · intro c hm
      rcases List.mem_append.1 hm with hm | hm
      · exact hn.subs c hm
      · simp only [List.mem_singleton] at hm
        subst hm
        intro t h1 h2
        exact absurd (all_subs_first k t h2) h1
    · intro i j ci cj h1 h2 t1 t2 he
      rw [List.getElem?_append] at h1 h2
      split at h1 <;> split at h2
      · exact hn.ids i j ci cj h1 h2 t1 t2 he
      · have : cj.id = id := by
          rw [List.getElem?_singleton] at h2
          split at h2 <;> simp at h2
          rw [← h2]
        exact absurd (he.trans this) (hnew ci (List.mem_of_getElem? h1) t1)
      · have : ci.id = id := by
          rw [List.getElem?_singleton] at h1
          split at h1 <;> simp at h1
          rw [← h1]
        exact absurd (he.symm.trans this) (hnew cj (List.mem_of_getElem? h2) t2)
      · rw [List.getElem?_singleton] at h1 h2
        split at h1 <;> split at h2 <;> first | omega | simp_all

/-- one action of call `i` -/
theorem inv_act {n : Node C} (hn : Inv n) (i : Nat) (c : Call C) (a : Act) (rest : List Act) (hi : n.calls[i]? = some c) (ht : c.todo = a :: rest) :
    Inv { subs := doAct n.subs c a, calls := n.calls.set i { c with todo := rest } } := by
  have hlt : i < n.calls.length := (List.getElem?_eq_some_iff.1 hi).1
  have hcm : c ∈ n.calls := List.mem_of_getElem? hi
  have hsuf := hn.suffix c hcm
  have hnd : (a :: rest).Nodup := by
    have := (nodup_program c.kind).sublist hsuf.sublist
    rwa [ht] at this
  have hget : ∀ j cj, (n.calls.set i { c with todo := rest })[j]? = some cj →
      (j = i ∧ cj = { c with todo := rest }) ∨ (j ≠ i ∧ n.calls[j]? = some cj) := by
    intro j cj h
    by_cases hj : i = j
    · subst hj
      rw [List.getElem?_set_self hlt] at h
      exact Or.inl ⟨rfl, (Option.some.inj h).symm⟩
    · rw [List.getElem?_set_ne hj] at h
      exact Or.inr ⟨Ne.symm hj, h⟩
  constructor
  · intro cj hm
    obtain ⟨j, hj⟩ := List.mem_iff_getElem?.1 hm
    rcases hget j cj hj with ⟨-, rfl⟩ | ⟨-, hj⟩
    · refine List.IsSuffix.trans ?_ hsuf
      rw [ht]; exact List.suffix_cons _ _
    · exact hn.suffix cj (List.mem_of_getElem? hj)
  · intro cj hm t h1 h2
    obtain ⟨j, hj⟩ := List.mem_iff_getElem?.1 hm
    rw [get_doAct]
    rcases hget j cj hj with ⟨-, rfl⟩ | ⟨hne, hj⟩
    · dsimp only at h1 h2 ⊢
      by_cases ha : a = .sub t
      · rw [if_pos ⟨ha, rfl⟩]
      · rw [if_neg (fun h => ha h.1)]
        have hac : a ≠ .cancel t := by
          rintro rfl
          exact (List.nodup_cons.1 hnd).1 h2
        rw [if_neg (fun h => hac h.1)]
        refine hn.subs c hcm t ?_ ?_
        · rw [ht, List.mem_cons]
          rintro (h | h)
          · exact ha h.symm
          · exact h1 h
        · rw [ht]; exact List.mem_cons_of_mem _ h2
    · have hid : cj.id ≠ c.id := by
        intro he
        refine hne (hn.ids j i cj c hj hi ?_ ?_ he)
        · intro h0; rw [h0] at h2; cases h2
        · rw [ht]; simp
      rw [if_neg (fun h => hid h.2), if_neg (fun h => hid h.2)]
      exact hn.subs cj (List.mem_of_getElem? hj) t h1 h2
  · intro j k cj ck hj hk t1 t2 he
    have key : ∀ (j : Nat) (cj : Call C), (n.calls.set i { c with todo := rest })[j]? = some cj → cj.todo ≠ [] →
        ∃ cj' : Call C, n.calls[j]? = some cj' ∧ cj'.todo ≠ [] ∧ cj'.id = cj.id := by
      intro j cj h h0
      rcases hget j cj h with ⟨rfl, rfl⟩ | ⟨-, h⟩
      · exact ⟨c, hi, by rw [ht]; simp, rfl⟩
      · exact ⟨cj, h, h0, rfl⟩
    obtain ⟨cj', h1, h2, h3⟩ := key j cj hj t1
    obtain ⟨ck', h4, h5, h6⟩ := key k ck hk t2
    exact hn.ids j k cj' ck' h1 h4 h2 h5 (by rw [h3, h6, he])

theorem inv_run (h : List (Event C)) (hc : NoClash h) : Inv (run h) := by
  induction h using List.reverseRecOn with
  | nil => exact ⟨by simp [run], by simp [run], by simp [run]⟩
  | append_singleton h e ih =>
    have ih := ih (by
      intro a k id ch b he
      exact hc a k id ch (b ++ [e]) (by rw [he]; simp))
    have e1 : run (h ++ [e]) = step (run h) e := by simp [run]
    rw [e1]
    cases e with
    | start k id ch => exact inv_start ih k id ch (hc h k id ch [] rfl)
    | act i =>
      simp only [step]
      rcases hi : (run h).calls[i]? with _ | c
      · exact ih
      · dsimp only
        rcases ht : c.todo with _ | ⟨a, rest⟩
        · exact ih
        · exact inv_act ih i c a rest hi ht
    | leave i =>
      simp only [step]
      rcases hi : (run h).calls[i]? with _ | c
      · exact ih
      · dsimp only
        split
        · rename_i rest ht
          exact inv_act ih i c .announce rest hi ht
        · exact ih

/-- C110 (part; full statement: `AlwaysListening`, without `NoClash`): from before a call announces itself until it begins to clean up, the four message
types of its ceremony are routed to its own channel, whatever other calls do. -/
theorem c110_listening_partial (h : List (Event C)) (hc : NoClash h) (c : Call C) (hm : c ∈ (run h).calls) (ha : Announced c) (t : Topic)
    (ht : t ∈ messageTypes c.kind) : getSubscriber (run h).subs t c.id = some c.chan := by
  apply (inv_run h hc).subs c hm t
  · rcases ha with h1 | h1 <;> rw [h1] <;> cases c.kind <;> simp [cleanUp]
  · have : Act.cancel t ∈ cleanUp c.kind := by
      revert ht
      cases c.kind <;> cases t <;> decide
    rcases ha with h1 | h1 <;> rw [h1]
    · exact List.mem_cons_of_mem _ this
    · exact this

/-- C110 (part): a message of the ceremony that arrives in this time is given to the call, with the peer who sent it. -/
theorem c110_delivered_partial {P : Type} (env : Comm.Env P C) (h : List (Event C)) (hc : NoClash h) (c : Call C) (hm : c ∈ (run h).calls)
    (ha : Announced c) (t : Topic) (ht : t ∈ messageTypes c.kind) (p : P) (chunks : List Bytes) (data : Bytes)
    (hr : (Stream.ReadStreamWithBuffer chunks).1 = .ok data) (hd : env.dec data = some (t, c.id)) :
    Comm.readFromStream env (run h).subs p chunks = (c.id, some ⟨c.chan, p, data⟩) := by
  simp only [Comm.readFromStream, hr, hd, c110_listening_partial h hc c hm ha t ht]

/-- Full statement of C110. -/
def AlwaysListening : Prop :=
  ∀ (h : List (Event Nat)) (c : Call Nat), c ∈ (run h).calls → Announced c → ∀ t ∈ messageTypes c.kind,
    getSubscriber (run h).subs t c.id = some c.chan

/-- two calls for the same request: the first one subscribes and announces itself, then the second one subscribes -/
def same : List (Event Nat) :=
  [.start .keysign "m" 1, .act 0, .act 0, .act 0, .act 0, .act 0, .start .keysign "m" 2, .act 1]

/-- C110 is false: a second call for the same signing request takes the messages away from the first one. -/
theorem c110_same_request : ¬ AlwaysListening := by
  intro h
  have := h same ⟨.keysign, "m", 1, cleanUp .keysign⟩ (by
    have : (run same).calls = [⟨.keysign, "m", 1, cleanUp .keysign⟩, ⟨.keysign, "m", 2, (program .keysign).tail⟩] := rfl
    rw [this]; simp) (Or.inr rfl) .keySignMsg (by decide)
  revert this
  decide

/-- C110: for a Keygen call alone on its node it holds without condition: two Keygen calls with the same id do not clash, for the second one waits. -/
theorem c110_keygen_calls (h : List (Event C)) (hk : ∀ k id ch, Event.start k id ch ∈ h → k = .keygen) (c : Call C) (hm : c ∈ (run h).calls)
    (ha : Announced c) (t : Topic) (ht : t ∈ messageTypes c.kind) : getSubscriber (run h).subs t c.id = some c.chan := by
  refine c110_listening_partial h ?_ c hm ha t ht
  have hkinds : ∀ h : List (Event C), (∀ k id ch, Event.start k id ch ∈ h → k = .keygen) → ∀ c ∈ (run h).calls, c.kind = .keygen := by
    intro h hk
    induction h using List.reverseRecOn with
    | nil => simp [run]
    | append_singleton h e ih =>
      have ih := ih (fun k id ch hm => hk k id ch (by simp [hm]))
      have e1 : run (h ++ [e]) = step (run h) e := by simp [run]
      rw [e1]
      have hset : ∀ i c rest, (run h).calls[i]? = some c → ∀ c' ∈ (run h).calls.set i { c with todo := rest }, c'.kind = .keygen := by
        intro i c rest hi c' hm
        rcases List.mem_or_eq_of_mem_set hm with hm | rfl
        · exact ih c' hm
        · exact ih c (List.mem_of_getElem? hi)
      cases e with
      | start k id ch =>
        simp only [step]
        split
        · exact ih
        · intro c hm
          rcases List.mem_append.1 hm with hm | hm
          · exact ih c hm
          · simp only [List.mem_singleton] at hm
            subst hm
            exact hk k id ch (by simp)
      | act i =>
        simp only [step]
        rcases hi : (run h).calls[i]? with _ | c
        · exact ih
        · dsimp only
          rcases ht : c.todo with _ | ⟨a, rest⟩
          · exact ih
          · exact hset i c rest hi
      | leave i =>
        simp only [step]
        rcases hi : (run h).calls[i]? with _ | c
        · exact ih
        · dsimp only
          split
          · rename_i rest ht
            exact hset i c rest hi
          · exact ih
  intro a k id ch b he c' hm' _ _
  refine ⟨hkinds a (fun k id ch hm => hk k id ch (by rw [he]; simp [hm])) c' hm', hk k id ch (by rw [he]; simp)⟩

/-- the hypotheses of the theorems hold: two calls with different ids, interleaved; the second one has announced itself; and a Keygen call that has to
wait for another one does nothing -/
example : (run [.start .keygen "a" 1, .act 0, .start .keysign "b" 2, .act 1, .act 1, .act 0, .act 1, .act 1, .act 1]).calls.map (·.todo.length) = [7, 4] ∧
    (run [.start .keygen "a" 1, .act 0, .start .keysign "b" 2, .act 1, .act 1, .act 0, .act 1, .act 1, .act 1, .start .keygen "a" 3]).calls.length = 2 ∧
    getSubscriber (run [.start .keygen "a" 1, .act 0, .start .keysign "b" 2, .act 1, .act 1, .act 0, .act 1, .act 1, .act 1]).subs .taskDone "b" = some 2 ∧
    getSubscriber (run [.start .keygen "a" 1, .act 0, .start .keysign "b" 2, .act 1, .act 1, .act 0, .act 1, .act 1, .act 1]).subs .taskDone "a" = none := by
  decide +kernel

end Verif.Props.Listening
