import Verif.Model.Subscribers
import Mathlib.Data.List.Induction

/-! # C15, C16: subscriptions -/
namespace Verif.Props.Subscriptions
open Verif.Go Verif.Subscribers

variable {C : Type}

/-- Specification: the channel registered for `(t, m)` after a history given newest call first: the first call about exactly
`(t, m)` decides. -/
def latest (t : Topic) (m : String) : List (Op C) → Option C
  | [] => none
  | .sub t' m' c :: older => if t' = t ∧ m' = m then some c else latest t m older
  | .cancel t' m' :: older => if t' = t ∧ m' = m then none else latest t m older

theorem get_setSubscribe (st : State C) (t t' : Topic) (m m' : String) (c : C) :
    getSubscriber (setSubscribe st t m c) t' m' = if t = t' ∧ m = m' then some c else getSubscriber st t' m' := by
  unfold getSubscriber setSubscribe
  simp only [Map.get_set]
  by_cases h : t' = t
  · subst h
    simp only [if_true, Map.get_set, true_and]
    rcases Map.get st t' with _ | ms
    · by_cases h2 : m' = m
      · simp [h2]
      · simp [h2, Ne.symm h2]
    · by_cases h2 : m' = m
      · simp [h2]
      · simp [h2, Ne.symm h2]
  · simp [h, Ne.symm h]

theorem get_cancel (st : State C) (t t' : Topic) (m m' : String) :
    getSubscriber (cancelSubscribe st t m) t' m' = if t = t' ∧ m = m' then none else getSubscriber st t' m' := by
  unfold cancelSubscribe
  rcases h : Map.get st t with _ | ms
  · simp only
    split
    · next he => obtain ⟨rfl, rfl⟩ := he; simp [getSubscriber, h]
    · rfl
  · simp only
    split
    · next hl =>
      have hnil : Map.del ms m = [] := List.length_eq_zero_iff.1 hl
      unfold getSubscriber
      by_cases ht : t' = t
      · subst ht
        rw [Map.get_del_self, h]
        by_cases hm : m' = m
        · simp [hm]
        · simp only [true_and, Ne.symm hm, if_false]
          rw [← Map.get_del_ne ms hm, hnil]; rfl
      · rw [Map.get_del_ne _ ht]; simp [Ne.symm ht]
    · unfold getSubscriber
      by_cases ht : t' = t
      · subst ht
        rw [Map.get_set_self, h]
        by_cases hm : m' = m
        · simp [hm]
        · simp only [true_and, Ne.symm hm, if_false]
          rw [Map.get_del_ne ms hm]
      · rw [Map.get_set_ne _ _ ht]; simp [Ne.symm ht]

/-- C15: after every history a message of topic `t` and id `m` is routed to the channel of the latest SetSubscribe for
exactly `(t, m)`, unless that was cancelled since, and to nobody otherwise. -/
theorem c15_subscribers_refine_map (h : List (Op C)) (t : Topic) (m : String) :
    getSubscriber (run h) t m = latest t m h.reverse := by
  induction h using List.reverseRecOn with
  | nil => rfl
  | append_singleton l o ih =>
    have e : run (l ++ [o]) = step (run l) o := by simp [run]
    rw [e, List.reverse_append, List.reverse_singleton, List.singleton_append]
    cases o with
    | sub t' m' c => simp only [step, get_setSubscribe, latest, ih]
    | cancel t' m' => simp only [step, get_cancel, latest, ih]

/-- Witness for C15: two ids under one topic, one of them cancelled. -/
example : getSubscriber (run [Op.sub .keyGenMsg "a" 1, Op.sub .keyGenMsg "b" 2, Op.cancel .keyGenMsg "a"]) .keyGenMsg "b"
    = some 2 := by decide

/-! ## C16 -/

/-- an operation which does not concern message id `m` -/
def foreign (m : String) : Op C → Prop
  | .sub _ m' _ => m' ≠ m
  | .cancel _ m' => m' ≠ m

theorem get_exit (k : Session) (id : String) (st : State C) (t : Topic) (m : String) :
    getSubscriber ((exitOps k id : List (Op C)).foldl step st) t m =
      if m = id ∧ t ∈ deferredCancels k then none else getSubscriber st t m := by
  cases k
  all_goals
    simp only [exitOps, deferredCancels, List.map_cons, List.map_nil, List.foldl_cons, List.foldl_nil, step, get_cancel]
    by_cases hm : m = id
    · subst hm; cases t <;> simp
    · simp [hm, Ne.symm hm]

theorem get_start (k : Session) (id : String) (c : C) (st : State C) (t : Topic) (m : String) :
    getSubscriber ((startOps k id c).foldl step st) t m =
      if m = id ∧ t ∈ sessionTopics k then some c else getSubscriber st t m := by
  cases k
  all_goals
    simp only [startOps, sessionTopics, List.map_cons, List.map_nil, List.foldl_cons, List.foldl_nil, step,
      get_setSubscribe]
    by_cases hm : m = id
    · subst hm; cases t <;> simp
    · simp [hm, Ne.symm hm]

theorem get_foreign (id : String) (others : List (Op C)) (hf : ∀ o ∈ others, foreign id o) (st : State C) (t : Topic) :
    getSubscriber (others.foldl step st) t id = getSubscriber st t id := by
  induction others generalizing st with
  | nil => rfl
  | cons o os ih =>
    rw [List.foldl_cons, ih (fun o ho => hf o (by simp [ho]))]
    have h := hf o (by simp)
    cases o with
    | sub t' m' c => simp only [foreign] at h; simp [step, get_setSubscribe, h]
    | cancel t' m' => simp only [foreign] at h; simp [step, get_cancel, h]

/-- C16: after a Keygen or KeySign call nothing is subscribed under its message id in any of its four topics, whatever
happened in between. -/
theorem c16_session_leaves_nothing (k : Session) (id : String) (c : C) (others : List (Op C)) (st : State C) (t : Topic)
    (ht : t ∈ sessionTopics k) :
    getSubscriber ((sessionOps k (some id) c others).foldl step st) t id = none := by
  simp only [sessionOps, List.foldl_append, get_exit]
  have : t ∈ deferredCancels k := by cases k <;> exact ht
  simp [this]

/-- C16: if additionally no other session used this id (before or meanwhile), no topic at all has a subscription left. -/
theorem c16_session_leaves_no_topic (k : Session) (id : String) (c : C) (others : List (Op C)) (st : State C) (t : Topic)
    (hst : ∀ t, getSubscriber st t id = none) (hf : ∀ o ∈ others, foreign id o) :
    getSubscriber ((sessionOps k (some id) c others).foldl step st) t id = none := by
  simp only [sessionOps, List.foldl_append, get_exit, get_foreign id others hf, get_start]
  have : sessionTopics k = deferredCancels k := by cases k <;> rfl
  rw [this]
  by_cases ht : t ∈ deferredCancels k
  · simp [ht]
  · simp [ht, hst]

/-- C16: for every other message id the session has no effect: the subscriptions are what the other sessions' own
operations make of the initial state. -/
theorem c16_others_undisturbed (k : Session) (id : Option String) (c : C) (others : List (Op C)) (st : State C) (t : Topic)
    (m : String) (hm : id ≠ some m) :
    getSubscriber ((sessionOps k id c others).foldl step st) t m = getSubscriber (others.foldl step st) t m := by
  cases id with
  | none => rfl
  | some id =>
    have hne : m ≠ id := fun h => hm (by rw [h])
    simp only [sessionOps, List.foldl_append, get_exit, hne, false_and, if_false]
    have key : ∀ (others : List (Op C)) (s1 s2 : State C), (∀ t, getSubscriber s1 t m = getSubscriber s2 t m) →
        ∀ t, getSubscriber (others.foldl step s1) t m = getSubscriber (others.foldl step s2) t m := by
      intro others
      induction others with
      | nil => intro s1 s2 h; exact h
      | cons o os ih =>
        intro s1 s2 h
        rw [List.foldl_cons, List.foldl_cons]
        apply ih
        intro t
        cases o with
        | sub t' m' c => simp only [step, get_setSubscribe, h]
        | cancel t' m' => simp only [step, get_cancel, h]
    apply key
    intro t
    rw [get_start]; simp [hne]

/-- Witness for C16, and its limit: a keysign call overlapping another one with the same message id takes that one's
subscriptions away when it ends. -/
theorem c16_same_id_overlap_disturbs :
    getSubscriber ((sessionOps .keysign (some "m") 2 []).foldl step (run (startOps .keysign "m" 1))) .keySignMsg "m"
      = none := by decide
example : getSubscriber ((sessionOps .keygen (some "m") 2 [Op.sub .keyGenMsg "x" 3]).foldl step []) .keyGenMsg "x"
      = some 3 := by decide

end Verif.Props.Subscriptions
