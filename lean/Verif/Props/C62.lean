import Verif.Model.Metric
import Verif.Props.C49_C51
import Verif.Props.C52_C53

/-!
# C62: metrics count every finished request once
-/
set_option linter.unusedSectionVars false
namespace Verif.Props.Counting
open Verif.Go Verif.Metric

/-- the number of updates of this kind with this outcome in a history -/
def times (k : Kind) (success : Bool) (h : List Update) : Nat := (h.filter fun u => u.kind = k ∧ u.success = success).length

theorem times_append (k : Kind) (b : Bool) (h h' : List Update) : times k b (h ++ h') = times k b h + times k b h' := by
  simp [times, List.filter_append]

theorem times_perm {k : Kind} {b : Bool} {h h' : List Update} (hp : h.Perm h') : times k b h = times k b h' := (hp.filter _).length_eq

theorem value_inc {L : Type} [DecidableEq L] (m : Map L Nat) (l l' : L) : value (inc m l) l' = value m l' + if l' = l then 1 else 0 := by
  unfold inc value
  rw [Map.get_set]
  split
  · rename_i h; subst h; rfl
  · rfl

/-- the label of an outcome -/
def label (success : Bool) : String := if success then "success" else "failure"

/-- C62: after any sequence of updates every counter is the number of updates of its kind with its outcome; other labels have no value. -/
theorem c62_counters (h : List Update) :
    (∀ b, value (run h).keygenCounter (label b) = times .keygen b h) ∧
    (∀ b, value (run h).keysignCounter (label b) = times .keysign b h) ∧
    (∀ b, value (run h).joinPartyCounter ("keygen", label b) = times .joinKeygen b h) ∧
    (∀ b, value (run h).joinPartyCounter ("keysign", label b) = times .joinKeysign b h) := by
  induction h using List.reverseRecOn with
  | nil => exact ⟨fun _ => rfl, fun _ => rfl, fun _ => rfl, fun _ => rfl⟩
  | append_singleton h u ih =>
    obtain ⟨h1, h2, h3, h4⟩ := ih
    simp only [times_append, ← h1, ← h2, ← h3, ← h4]
    have : run (h ++ [u]) = step (run h) u := by simp [run]
    rw [this]
    generalize run h = m
    obtain ⟨k, d, s⟩ := u
    cases k <;> cases s <;>
      simp only [step, UpdateKeyGen, UpdateKeySign, KeygenJoinParty, KeysignJoinParty, value_inc, if_true, Bool.false_eq_true, if_false] <;>
      refine ⟨fun b => ?_, fun b => ?_, fun b => ?_, fun b => ?_⟩ <;> cases b <;> simp [times, label]

/-- C62: no other counter exists. -/
theorem c62_labels (h : List Update) :
    (∀ l, l ∈ Map.keys (run h).keygenCounter → l = "success" ∨ l = "failure") ∧
    (∀ l, l ∈ Map.keys (run h).keysignCounter → l = "success" ∨ l = "failure") ∧
    (∀ l, l ∈ Map.keys (run h).joinPartyCounter → (l.1 = "keygen" ∨ l.1 = "keysign") ∧ (l.2 = "success" ∨ l.2 = "failure")) := by
  induction h using List.reverseRecOn with
  | nil => simp [run, Map.keys]
  | append_singleton h u ih =>
    have : run (h ++ [u]) = step (run h) u := by simp [run]
    rw [this]
    generalize run h = m at ih
    obtain ⟨k, d, s⟩ := u
    cases k <;> cases s <;>
      simp only [step, UpdateKeyGen, UpdateKeySign, KeygenJoinParty, KeysignJoinParty, inc, if_true, Bool.false_eq_true, if_false, Map.mem_keys_set] <;>
      refine ⟨fun l hl => ?_, fun l hl => ?_, fun l hl => ?_⟩ <;>
      first
        | exact ih.1 l hl
        | exact ih.2.1 l hl
        | exact ih.2.2 l hl
        | (rcases hl with rfl | hl <;> first | exact ⟨by simp, by simp⟩ | exact .inl rfl | exact .inr rfl | exact ih.1 l hl | exact ih.2.1 l hl | exact ih.2.2 l hl)

/-- the duration of the last successful update of this kind, 0 if there is none -/
def lastSuccess (k : Kind) (h : List Update) : Nat := (((h.filter fun u => u.kind = k ∧ u.success = true).map (·.duration)).getLast?).getD 0

theorem lastSuccess_append (k : Kind) (h : List Update) (u : Update) :
    lastSuccess k (h ++ [u]) = if u.kind = k ∧ u.success = true then u.duration else lastSuccess k h := by
  unfold lastSuccess
  rw [List.filter_append]
  by_cases hu : u.kind = k ∧ u.success = true
  · rw [if_pos hu]; simp [hu]
  · rw [if_neg hu, List.filter_cons_of_neg (by simpa using hu)]; simp

/-- C62: the duration gauges show the last success of their kind; failures do not touch them. -/
theorem c62_gauges (h : List Update) :
    (run h).keyGenTime = lastSuccess .keygen h ∧ (run h).keySignTime = lastSuccess .keysign h ∧
    value (run h).joinPartyTime "keygen" = lastSuccess .joinKeygen h ∧ value (run h).joinPartyTime "keysign" = lastSuccess .joinKeysign h := by
  induction h using List.reverseRecOn with
  | nil => exact ⟨rfl, rfl, rfl, rfl⟩
  | append_singleton h u ih =>
    obtain ⟨h1, h2, h3, h4⟩ := ih
    simp only [lastSuccess_append, ← h1, ← h2, ← h3, ← h4]
    have : run (h ++ [u]) = step (run h) u := by simp [run]
    rw [this]
    generalize run h = m
    obtain ⟨k, d, s⟩ := u
    cases k <;> cases s <;>
      simp [step, UpdateKeyGen, UpdateKeySign, KeygenJoinParty, KeysignJoinParty, value, Map.get_set]

/-! ## the counters of a node that handles requests -/

/-- the update a Keygen call makes with an effect; durations are given -/
def keygenUpdate (d : Nat) : Keygen.Effect → Option Update
  | .metric b => some ⟨.keygen, d, b⟩
  | .joinMetric b => some ⟨.joinKeygen, d, b⟩
  | _ => none

/-- the update a KeySign call makes with an effect (its join counter is not modelled) -/
def keysignUpdate {P : Type} (d : Nat) : KeySign.Effect P → Option Update
  | .metric b => some ⟨.keysign, d, b⟩
  | _ => none

section calls
variable {P S H L Pt A Q : Type} [DecidableEq P] [LinearOrder S] [LinearOrder H]

/-- a Keygen call of a node: its request, the disk at its start and what happens during the call -/
structure GenCall (P L A Q : Type) where
  req : Keygen.Request
  disk : Storage.Disk
  h : List (Keygen.Event P L A Q)
  duration : Nat

def GenCall.final (env : Keygen.KEnv P S H L Pt A Q) (c : GenCall P L A Q) : Keygen.St P Pt := Keygen.run env c.disk c.req c.h

/-- a KeySign call of a node: its request, the disk, what the notifier has seen before and what happens during the call -/
structure SignCall (P : Type) where
  req : KeySign.Request
  disk : Storage.Disk
  nh : List SigNotifier.Event
  h : List (KeySign.Event P)
  duration : Nat

def SignCall.final (env : Server.Env P S H L) (base64 : Server.Str → Option Bytes) (nenv : SigNotifier.Env) (c : SignCall P) : KeySign.St P :=
  KeySigning.call env base64 nenv c.disk c.req c.nh c.h

theorem filterMap_gen (d : Nat) (l : List Keygen.Effect) (b : Bool) :
    times .keygen b (l.filterMap (keygenUpdate d)) = ((KeyGeneration.metrics l).filter (· = b)).length := by
  induction l with
  | nil => rfl
  | cons e l ih =>
    unfold times KeyGeneration.metrics at *
    cases e <;> simp only [List.filterMap_cons, keygenUpdate] <;> try exact ih
    · rename_i x
      rw [List.filter_cons, List.filter_cons]
      by_cases hx : x = b
      · simp [hx]; simpa using ih
      · simp [hx]; simpa using ih

theorem times_flatMap {α : Type} (k : Kind) (b : Bool) (f : α → List Update) : ∀ l : List α, times k b (l.flatMap f) = (l.map fun a => times k b (f a)).sum
  | [] => rfl
  | a :: l => by rw [List.flatMap_cons, times_append, times_flatMap k b f l]; rfl

/-- the answers of the calls that have returned -/
def genStatuses (env : Keygen.KEnv P S H L Pt A Q) (calls : List (GenCall P L A Q)) : List Server.Status :=
  calls.filterMap fun c => (c.final env).ret.map (·.1.status)

/-- C62: when a node has handled any number of key generation requests (concurrently or not: `hist` is any order of all the updates the calls have
made), with proper keys and working storage, the success counter is the number of calls that returned Success and the failure counter the number
of calls that returned something else. -/
theorem c62_keygen_calls {pre : List Char} {env : Keygen.KEnv P S H L Pt A Q} (g : Storage.Good env.base.storage pre) (calls : List (GenCall P L A Q))
    (hc : ∀ c ∈ calls, (∃ id, Spec.Keygen.HasId env c.req id) ∧ KeyGeneration.ProperKeys env c.req) (hist : List Update)
    (hist_eq : hist.Perm (calls.flatMap fun c => (c.final env).effects.filterMap (keygenUpdate c.duration))) :
    value (run hist).keygenCounter "success" = (genStatuses env calls).countP (· = .success) ∧
    value (run hist).keygenCounter "failure" = (genStatuses env calls).countP (· ≠ .success) := by
  have h1 := (c62_counters hist).1
  have key : ∀ b, times .keygen b hist = (genStatuses env calls).countP (fun s => decide (s = .success) = b) := by
    intro b
    rw [times_perm hist_eq, times_flatMap]
    clear hist_eq h1
    induction calls with
    | nil => rfl
    | cons c calls ih =>
      rw [List.map_cons, List.sum_cons, ih fun c h => hc c (List.mem_cons_of_mem _ h), filterMap_gen]
      obtain ⟨⟨id, hid⟩, hp⟩ := hc c List.mem_cons_self
      have h2 := KeyGeneration.c80_counted_once (disk := c.disk) g hid hp c.h
      unfold genStatuses
      rw [List.filterMap_cons]
      unfold GenCall.final
      cases hr : (Keygen.run env c.disk c.req c.h).ret with
      | none => rw [hr] at h2; dsimp only at h2; rw [h2]; simp
      | some a =>
        rw [hr] at h2
        dsimp only at h2
        rw [h2]
        simp only [Option.map_some, List.countP_cons]
        by_cases hs : decide (a.1.status = Server.Status.success) = b <;> simp [hs, Nat.add_comm]
  have e1 := h1 true
  have e2 := h1 false
  rw [key] at e1 e2
  exact ⟨by simpa [label] using e1, by simpa [label] using e2⟩

theorem filterMap_sign (d : Nat) (l : List (KeySign.Effect P)) :
    l.filterMap (keysignUpdate d) = (l.filter (fun e => match e with | .metric _ => true | _ => false)).filterMap (keysignUpdate d) := by
  induction l with
  | nil => rfl
  | cons e l ih =>
    rw [List.filter_cons]
    cases e <;> simp [List.filterMap_cons, keysignUpdate, ih]

/-- the answers of the calls that have returned -/
def signStatuses (env : Server.Env P S H L) (base64 : Server.Str → Option Bytes) (nenv : SigNotifier.Env) (calls : List (SignCall P)) :
    List Server.Status :=
  calls.filterMap fun c => (c.final env base64 nenv).ret.map (·.1.status)

/-- C62: when a node has handled any number of signing requests that pass the checks (concurrently or not: `hist` is any order of all the updates
the calls have made), the success counter is the number of calls that returned Success and the failure counter the number of calls that returned
something else. -/
theorem c62_keysign_calls {env : Server.Env P S H L} {base64 : Server.Str → Option Bytes} {nenv : SigNotifier.Env} (calls : List (SignCall P))
    (hc : ∀ c ∈ calls, (SigNotifier.run nenv c.nh).crashed = false ∧ ∃ old task, Spec.KeySign.Accepted env base64 c.disk c.req old task)
    (hist : List Update)
    (hist_eq : hist.Perm (calls.flatMap fun c => (c.final env base64 nenv).effects.filterMap (keysignUpdate c.duration))) :
    value (run hist).keysignCounter "success" = (signStatuses env base64 nenv calls).countP (· = .success) ∧
    value (run hist).keysignCounter "failure" = (signStatuses env base64 nenv calls).countP (· ≠ .success) := by
  have h1 := (c62_counters hist).2.1
  have key : ∀ b, times .keysign b hist = (signStatuses env base64 nenv calls).countP (fun s => decide (s = .success) = b) := by
    intro b
    rw [times_perm hist_eq, times_flatMap]
    clear hist_eq h1
    induction calls with
    | nil => rfl
    | cons c calls ih =>
      rw [List.map_cons, List.sum_cons, ih fun c h => hc c (List.mem_cons_of_mem _ h)]
      obtain ⟨hn, old, task, ha⟩ := hc c List.mem_cons_self
      obtain ⟨ex, -, hi⟩ := KeySign.inv_run env nenv c.req task old c.nh hn ha.version c.h
      have h2 := hi.effMetric
      rw [← KeySigning.call_accepted ha] at h2
      unfold signStatuses
      rw [List.filterMap_cons]
      unfold SignCall.final
      have h3 := (filterMap_sign c.duration _).trans (congrArg (List.filterMap (keysignUpdate c.duration)) h2)
      rw [h3]
      cases hr : (KeySigning.call env base64 nenv c.disk c.req c.nh c.h).ret with
      | none => simp [times]
      | some a =>
        simp only [Option.map_some, List.countP_cons, Option.toList_some, List.filterMap_cons, keysignUpdate, List.filterMap_nil]
        unfold times
        by_cases hs : decide (a.1.status = Server.Status.success) = b <;> simp [hs, Nat.add_comm]
  have e1 := h1 true
  have e2 := h1 false
  rw [key] at e1 e2
  exact ⟨by simpa [label] using e1, by simpa [label] using e2⟩

/-- C62: a refused request is not counted. -/
theorem c62_refused_not_counted {env : Server.Env P S H L} {base64 : Server.Str → Option Bytes} {nenv : SigNotifier.Env} (c : SignCall P)
    (hn : ∀ old task, ¬ Spec.KeySign.Accepted env base64 c.disk c.req old task) :
    (c.final env base64 nenv).effects.filterMap (keysignUpdate c.duration) = [] := by
  unfold SignCall.final KeySigning.call KeySign.run
  rcases hq : KeySign.prepare env base64 c.disk c.req with (b | task) | e | _
  · rfl
  · obtain ⟨old, h⟩ := (KeySign.prepare_ok env base64 c.disk c.req task).1 hq
    exact absurd h (hn old task)
  · rfl
  · rfl

end calls

section demo

/-- two successes, a failure and a join -/
example : let m := run [⟨.keysign, 7, true⟩, ⟨.keysign, 3, false⟩, ⟨.joinKeygen, 2, true⟩, ⟨.keysign, 9, true⟩, ⟨.keysign, 4, false⟩]
    value m.keysignCounter "success" = 2 ∧ value m.keysignCounter "failure" = 2 ∧ m.keySignTime = 9 ∧ value m.keygenCounter "success" = 0 ∧
      value m.joinPartyCounter ("keygen", "success") = 1 := by decide +kernel

/-- a key generation that succeeds, one that cannot write its share and one without a party: the updates and the counters -/
def genCalls : List (GenCall Nat Unit Unit Nat) :=
  [⟨KeyGeneration.request ['n'], [], KeyGeneration.answer [10, 11, 12, 13] .success ++ [KeyGeneration.delivers none, .finish], 5⟩,
   ⟨KeyGeneration.request ['n'], [], KeyGeneration.answer [10, 11, 12, 13] .success ++ [KeyGeneration.delivers (some (.after 1)), .finish], 6⟩,
   ⟨KeyGeneration.request ['n'], [], [.start [], .join .timeout, .join (.step Spec.DemoServer.keep), .joined KeyGeneration.sched], 7⟩]

example : let hist := genCalls.flatMap fun c => (c.final (KeyGeneration.env 1)).effects.filterMap (keygenUpdate c.duration)
    genStatuses (KeyGeneration.env 1) genCalls = [.success, .fail, .fail] ∧ value (run hist).keygenCounter "success" = 1 ∧
    value (run hist).keygenCounter "failure" = 2 ∧ value (run hist).joinPartyCounter ("keygen", "failure") = 1 := by decide +kernel

/-- signing: received, generated, failed -/
def signCalls : List (SignCall Nat) :=
  let call h : SignCall Nat := ⟨Spec.DemoServer.request ['n'] [], Spec.DemoServer.disk 1, [], h, 3⟩
  [call (KeySigning.wait ++ KeySigning.answer [10, 11] .timeout ++ [.main]),
   call (KeySigning.answer [10, 11, 12] .success ++ KeySigning.signed ++ KeySigning.noWait ++ [.main]),
   call (KeySigning.answer [10, 11] .timeout ++ KeySigning.noWait ++ [.main])]

example : let hist := signCalls.flatMap fun c => (c.final (Spec.DemoServer.env 1) Spec.DemoServer.base64 Spec.DemoServer.notifier).effects.filterMap (
      keysignUpdate c.duration)
    signStatuses (Spec.DemoServer.env 1) Spec.DemoServer.base64 Spec.DemoServer.notifier signCalls = [.success, .success, .fail] ∧
    value (run hist).keysignCounter "success" = 2 ∧ value (run hist).keysignCounter "failure" = 1 := by decide +kernel

end demo

end Verif.Props.Counting
