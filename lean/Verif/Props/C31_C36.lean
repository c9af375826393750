import Verif.Lemmas.Shape
import Verif.Lemmas.Blame
import Verif.Spec.DemoSession
import Mathlib.Data.Finset.Card

/-!
# C31–C36, C44 (reported culprits), C70: completion, share requests, repeats, attribution, crashes, culprits

See `C25_C30` for the reading of `run`, `newTssCommon` and `log`.
-/
set_option linter.unusedSectionVars false
namespace Verif.Props.SessionMore
open Verif.Go Verif.Conversion Verif.Messages Verif.Blame Verif.Threshold Verif.Spec Verif.TssCommon Relation

variable {K P : Type} [DecidableEq K] [DecidableEq P]

theorem run_snoc (env : Env K P) (s : St K P) (h : List (Event P)) (e : Event P) :
    run env s (h ++ [e]) = step env (run env s h) e := by simp [run]

theorem run_append (env : Env K P) (s : St K P) (h h' : List (Event P)) :
    run env s (h ++ h') = run env (run env s h) h' := by simp [run]

theorem step_crashed {env : Env K P} {s : St K P} (e : Event P) (h : s.crashed = true) : step env s e = s := by
  unfold step; rw [if_pos h]

theorem not_crashed_prefix {env : Env K P} {s : St K P} {h : List (Event P)} {e : Event P}
    (hc : (run env s (h ++ [e])).crashed = false) : (run env s h).crashed = false := by
  rw [run_snoc] at hc
  by_contra hn
  rw [Bool.not_eq_false] at hn
  rw [step_crashed e hn, hn] at hc
  cases hc

/-! ## C31 -/

/-- completion bookkeeping -/
structure DoneInv (n : Nat) (s : St K P) : Prop where
  nodup : s.finished.Nodup
  size : s.mgr.partyIDMap.length = n
  closed : s.taskDone = true → (n : Int) - 1 ≤ s.finished.length
  enough : 2 ≤ n → (n : Int) - 1 ≤ s.finished.length → s.taskDone = true

theorem stepJob_done (env : Env K P) (id : Nat) (s : St K P) :
    (stepJob env id s).finished = s.finished ∧ (stepJob env id s).taskDone = s.taskDone := by
  rcases hf : s.jobs.find? (fun j => j.id = id) with _ | j
  · rw [stepJob_none hf]; exact ⟨rfl, rfl⟩
  · rcases ho : j.outcome with _ | _ | cs
    · rw [stepJob_wait hf ho]; exact ⟨rfl, rfl⟩
    · rw [stepJob_ok hf ho]; exact ⟨rfl, rfl⟩
    · rw [stepJob_bad hf ho]
      obtain ⟨b, hb⟩ := processInvalid_frame env { s with jobs := s.jobs.filter (fun k => k.id ≠ id) } j.round cs
      rw [hb]; exact ⟨rfl, rfl⟩

theorem doneInv_micro {env : Env K P} {e : Event P} {n : Nat} {s s' : St K P} (h : DoneInv n s) (hm : Micro env e s s') :
    DoneInv n s' := by
  cases hm with
  | work id =>
    obtain ⟨h1, h2⟩ := stepJob_done env id s
    have hf := stepJob_frame env id s
    exact ⟨by rw [h1]; exact h.nodup, by rw [hf.ids]; exact h.size, by rw [h1, h2]; exact h.closed, by rw [h1, h2]; exact h.enough⟩
  | unicast w i peer hs hi hp hb =>
    exact ⟨h.nodup, by dsimp only; rw [(setLastUnicastPeer_maps _ _ _).1]; exact h.size, h.closed, h.enough⟩
  | done peer hr hn b hb =>
    refine ⟨?_, h.size, ?_, ?_⟩
    · dsimp only
      rw [List.nodup_append]
      refine ⟨h.nodup, by simp, ?_⟩
      intro a ha b hb
      simp at hb; subst hb
      intro hab; subst hab; exact hn ha
    · intro ht
      have h1 := h.closed
      have h2 := h.size
      dsimp only at ht ⊢
      rw [hb] at ht
      simp only [List.length_append, List.length_cons, List.length_nil]
      split at ht
      · push_cast at *; omega
      · have := h1 ht; push_cast; omega
    · intro hn2 hle
      have h1 := h.enough hn2
      have h2 := h.size
      dsimp only at hle ⊢
      rw [hb]
      simp only [List.length_append, List.length_cons, List.length_nil] at hle
      split
      · rfl
      · apply h1; push_cast at *; omega
  | _ => exact ⟨h.nodup, h.size, h.closed, h.enough⟩

theorem doneInv_run (env : Env K P) (m : Manager K P) (hd : List (Event P)) :
    DoneInv m.partyIDMap.length (run env (newTssCommon m) hd) := by
  refine run_invariant env _ (fun _ s => DoneInv m.partyIDMap.length s) ?_ (fun _ _ _ h => h) (fun _ _ _ _ h hm => doneInv_micro h hm) hd
  refine ⟨by simp [newTssCommon], rfl, by simp [newTssCommon], ?_⟩
  intro h2 h
  simp [newTssCommon] at h
  omega

theorem finished_micros {env : Env K P} {e : Event P} {s s' : St K P} (hm : Micros env e s s') :
    (∀ p ∈ s.finished, p ∈ s'.finished) ∧ (∀ p ∈ s'.finished, p ∈ s.finished ∨ ReportsDone env e p) := by
  induction hm with
  | refl => exact ⟨fun _ h => h, fun _ h => Or.inl h⟩
  | tail _ hmic ih =>
    obtain ⟨h1, h2⟩ := ih
    cases hmic with
    | work id => rw [(stepJob_done env id _).1]; exact ⟨h1, h2⟩
    | done peer hr hn b hb =>
      refine ⟨fun p hp => List.mem_append.2 (Or.inl (h1 p hp)), ?_⟩
      intro p hp
      rcases List.mem_append.1 hp with hp | hp
      · exact h2 p hp
      · simp at hp; subst hp; exact Or.inr hr
    | _ => exact ⟨h1, h2⟩

/-- what a completion report does -/
theorem report_step {env : Env K P} {m : Manager K P} {h : List (Event P)} {e : Event P} {p : P} (hr : ReportsDone env e p) :
    (step env (run env (newTssCommon m) h) e).crashed = (run env (newTssCommon m) h).crashed ∧
    ((run env (newTssCommon m) h).crashed = false → p ∈ (step env (run env (newTssCommon m) h) e).finished) := by
  have hi := doneInv_run env m h
  generalize run env (newTssCommon m) h = s at *
  obtain ⟨raw, sch, pl, rfl, hraw, hd⟩ := hr
  by_cases hc : s.crashed = true
  · rw [step_crashed _ hc]; exact ⟨rfl, fun h => by rw [hc] at h; cases h⟩
  · have h1 : ¬ (TSSTaskDone = TSSKeyGenMsg ∨ TSSTaskDone = TSSKeySignMsg) := by decide
    have h2 : ¬ (TSSTaskDone = TSSKeyGenVerMsg ∨ TSSTaskDone = TSSKeySignVerMsg) := by decide
    have hp : ProcessOneMessage env sch TSSTaskDone pl p s = processTaskDone p s := by
      simp only [ProcessOneMessage, if_neg h1, if_neg h2, if_pos, hd]
    unfold step
    rw [if_neg hc]
    simp only [hraw, hp]
    unfold processTaskDone
    by_cases hm : p ∈ s.finished
    · rw [if_pos hm]; exact ⟨rfl, fun _ => hm⟩
    · rw [if_neg hm]
      dsimp only
      by_cases hl : ((s.finished ++ [p]).length : Int) = (s.mgr.partyIDMap.length : Int) - 1
      · rw [if_pos hl]
        have : s.taskDone ≠ true := by
          intro ht
          have h3 := hi.closed ht
          have h4 := hi.size
          simp at hl
          omega
        rw [if_neg this]
        exact ⟨rfl, fun _ => by simp⟩
      · rw [if_neg hl]; exact ⟨rfl, fun _ => by simp⟩

/-- C31: a completion report never crashes the node, in particular the channel is never closed twice. -/
theorem c31_no_double_close (env : Env K P) (m : Manager K P) (h : List (Event P)) (e : Event P) (p : P)
    (hr : ReportsDone env e p) :
    (step env (run env (newTssCommon m) h) e).crashed = (run env (newTssCommon m) h).crashed := (report_step hr).1

/-- C31: for a committee of at least two, the completion channel is closed exactly when the peers who reported completion are at
least the committee size minus one; it stays closed. -/
theorem c31_closed_iff (env : Env K P) (m : Manager K P) (h : List (Event P)) (hn : 2 ≤ m.partyIDMap.length)
    (hc : (run env (newTssCommon m) h).crashed = false) :
    ∃ S : Finset P, (∀ p, p ∈ S ↔ ∃ e ∈ h, ReportsDone env e p) ∧
      ((run env (newTssCommon m) h).taskDone = true ↔ (m.partyIDMap.length : Int) - 1 ≤ S.card) := by
  have hi := doneInv_run env m h
  have hmem : ∀ p, p ∈ (run env (newTssCommon m) h).finished ↔ ∃ e ∈ h, ReportsDone env e p := by
    clear hi
    induction h using List.reverseRecOn with
    | nil => simp [run, newTssCommon]
    | append_singleton h e ih =>
      have hc' := not_crashed_prefix hc
      have ih := ih hc'
      obtain ⟨f1, f2⟩ := finished_micros (step_micro env (run env (newTssCommon m) h) e)
      intro p
      rw [run_snoc]
      constructor
      · intro hp
        rcases f2 p hp with hp | hp
        · obtain ⟨e', he', hr⟩ := (ih p).1 hp
          exact ⟨e', by simp [he'], hr⟩
        · exact ⟨e, by simp, hp⟩
      · rintro ⟨e', he', hr⟩
        rcases List.mem_append.1 he' with he' | he'
        · exact f1 p ((ih p).2 ⟨e', he', hr⟩)
        · simp at he'; subst he'
          exact (report_step hr).2 hc'
  refine ⟨⟨((run env (newTssCommon m) h).finished : List P), Multiset.coe_nodup.2 hi.nodup⟩, hmem, ?_⟩
  have : (⟨((run env (newTssCommon m) h).finished : List P), Multiset.coe_nodup.2 hi.nodup⟩ : Finset P).card =
    (run env (newTssCommon m) h).finished.length := rfl
  rw [this]
  exact ⟨hi.closed, hi.enough hn⟩

/-- the task-done message -/
def done (p : Nat) : Event Nat := .msg [5] p plain

example : (run (demoEnv {} 10) (newTssCommon (demoManager 0)) [done 11, done 12, done 11, done 12]).taskDone = false ∧
    (run (demoEnv {} 10) (newTssCommon (demoManager 0)) [done 11, done 12, done 11, done 13, done 14]).taskDone = true ∧
    (run (demoEnv {} 10) (newTssCommon (demoManager 0)) [done 11, done 12, done 11, done 13, done 14]).crashed = false := by
  decide +kernel

example : ReportsDone (demoEnv {} 10) (done 11) 11 := ⟨_, _, _, rfl, rfl, by decide⟩

/-! ## C32 -/

/-- C32: a request for a share (a control message without a message in it) makes the node send nothing and change nothing, or send
exactly one message, to the requester only, which is the request with the stored message of the requested key filled in. -/
theorem c32_request (env : Env K P) (s : St K P) (raw pl : Bytes) (p : P) (sch : Sched P) (c : Control)
    (hraw : env.decWrapped raw = some (TSSControlMsg, pl)) (hd : env.decControl pl = some c) (hm : c.msg = none)
    (hc : s.crashed = false) :
    step env s (.msg raw p sch) = match Map.get s.mgr.storedMsg c.reqKey with
      | none => s
      | some w => { s with sent := s.sent ++ [⟨.control { c with msg := some w }, [p]⟩] } := by
  unfold step
  rw [if_neg (by rw [hc]; exact Bool.false_ne_true)]
  have h1 : ¬ (TSSControlMsg = TSSKeyGenMsg ∨ TSSControlMsg = TSSKeySignMsg) := by decide
  have h2 : ¬ (TSSControlMsg = TSSKeyGenVerMsg ∨ TSSControlMsg = TSSKeySignVerMsg) := by decide
  have h3 : ¬ (TSSControlMsg = TSSTaskDone) := by decide
  simp only [hraw, ProcessOneMessage, if_neg h1, if_neg h2, if_neg h3, if_pos, hd, hm, processRequestMsgFromPeer, Manager.roundGet,
    if_neg Bool.false_ne_true]
  rcases Map.get s.mgr.storedMsg c.reqKey with _ | w <;> rfl

/-- C32: what is stored under a key, and so sent, is a message received in this session from the committee member and for the round
named by the key, signed by that member, and which won its vote. -/
theorem c32_stored_share (env : Env K P) (m : Manager K P) (hm : m.storedMsg = []) (h : List (Event P)) (key : String)
    (w : WireMessage) (hw : Map.get (run env (newTssCommon m) h).mgr.storedMsg key = some w) :
    (∃ e ∈ h, Carries env e w) ∧ Signed env m.partyIDMap w ∧ Quorum env m h w ∧
    ∃ i, w.sender = some i ∧ key = cacheKey i w.roundInfo := by
  obtain ⟨hj, hb, hi⟩ := (good_run env m h).stored hm key w hw
  exact ⟨hj.carried, hj.signed, hj.quorum hb, hi⟩

/-- C32: a control message that cannot be decoded changes nothing. -/
theorem c32_malformed (env : Env K P) (s : St K P) (raw pl : Bytes) (p : P) (sch : Sched P)
    (hraw : env.decWrapped raw = some (TSSControlMsg, pl)) (hd : env.decControl pl = none) :
    step env s (.msg raw p sch) = s := by
  unfold step
  split
  · rfl
  have h1 : ¬ (TSSControlMsg = TSSKeyGenMsg ∨ TSSControlMsg = TSSKeySignMsg) := by decide
  have h2 : ¬ (TSSControlMsg = TSSKeyGenVerMsg ∨ TSSControlMsg = TSSKeySignVerMsg) := by decide
  have h3 : ¬ (TSSControlMsg = TSSTaskDone) := by decide
  simp only [hraw, ProcessOneMessage, if_neg h1, if_neg h2, if_neg h3, if_pos, hd]

/-- the network of the examples: member 1's share with its confirmation, a request for it, for something unknown, and for it with
another digest -/
def net3 : DemoNet where
  wires := [bcast 1 [5]]
  confirms := [⟨none, "1-R", demoHash [5]⟩]
  bulks := [([5], [inner 1 [50]])]
  controls := [⟨demoHash [5], "1-R", 0, none⟩, ⟨"zz", "2-R", 0, none⟩, ⟨"zz", "1-R", 0, none⟩]

example : ((run (demoEnv net3 10) (newTssCommon (demoManager 0)) [recv 0 0 11, recv 2 0 12, recv 4 0 13]).sent.drop 1) =
    [⟨.control ⟨demoHash [5], "1-R", 0, some (bcast 1 [5])⟩, [13]⟩] := by decide +kernel

example : ((run (demoEnv net3 10) (newTssCommon (demoManager 0)) [recv 0 0 11, recv 2 0 12, recv 4 1 13]).sent.drop 1) = [] := by
  decide +kernel

/-- the digest in a request is not looked at: the answer may have another digest than the one asked for -/
example : ((run (demoEnv net3 10) (newTssCommon (demoManager 0)) [recv 0 0 11, recv 2 0 12, recv 4 2 13]).sent.drop 1) =
    [⟨.control ⟨"zz", "1-R", 0, some (bcast 1 [5])⟩, [13]⟩] := by decide +kernel

/-! ## C33 -/

/-- a share is identified by the sender, the round and the message it is for -/
abbrev Slot := Nat × RoundInfo

/-- the slot of a share inside a bulk message -/
def slotOf (env : Env K P) (mm : BulkWireMsg) : Option Slot :=
  (mm.routing.bind Routing.sender).bind fun i =>
    (GetMsgRound env.parse mm.wired).map fun r => (i, { r with msgIdentifier := mm.ident })

/-- the slots already accepted -/
def Accepted (s : St K P) (k : Slot) : Prop := s.mgr.checkMsgDuplication k.2 k.1 = true

/-- bookkeeping of jobs and calls -/
structure Once (s : St K P) : Prop where
  ids : (s.jobs.map Job.id).Nodup
  fresh : ∀ j ∈ s.jobs, j.id < s.nextJob
  keys : (s.jobs.map (fun j => ((j.share.from_, j.round) : Slot))).Nodup
  okNodup : ((s.log.filter Entry.ok).map (fun en => ((en.share.from_, en.round) : Slot))).Nodup
  okWhere : ∀ en ∈ s.log, en.ok = true → Accepted s (en.share.from_, en.round) ∨
    ∃ j ∈ s.jobs, (j.share.from_, j.round) = ((en.share.from_, en.round) : Slot) ∧ j.outcome = some none
  open_ : ∀ j ∈ s.jobs, ¬ Accepted s (j.share.from_, j.round)

theorem accepted_update (m : Manager K P) (r r' : RoundInfo) (i i' : Nat) :
    (m.updateAcceptShare r i).checkMsgDuplication r' i' = true ↔ m.checkMsgDuplication r' i' = true ∨ (r' = r ∧ i' = i) := by
  unfold Manager.updateAcceptShare Manager.checkMsgDuplication
  rcases hg : Map.get m.acceptedShares r with _ | l
  · dsimp only
    rw [Map.get_set]
    by_cases hr : r' = r
    · subst hr; simp [hg, eq_comm]
    · simp [hr]
  · dsimp only
    rw [Map.get_set]
    by_cases hr : r' = r
    · subst hr
      rw [if_pos rfl, hg]
      simp only [List.any_append, List.any_cons, List.any_nil, Bool.or_false, Bool.or_eq_true, decide_eq_true_eq, true_and]
      exact or_congr Iff.rfl eq_comm
    · simp [hr]

theorem job_unique {s : St K P} (h : Once s) {j k : Job} (hj : j ∈ s.jobs) (hk : k ∈ s.jobs) (hid : j.id = k.id) : j = k :=
  List.inj_on_of_nodup_map h.ids hj hk hid

theorem slot_unique {s : St K P} (h : Once s) {j k : Job} (hj : j ∈ s.jobs) (hk : k ∈ s.jobs)
    (hs : ((j.share.from_, j.round) : Slot) = (k.share.from_, k.round)) : j = k :=
  List.inj_on_of_nodup_map h.keys hj hk hs

theorem once_stepJob (env : Env K P) (id : Nat) {s : St K P} (h : Once s) : Once (stepJob env id s) := by
  rcases hf : s.jobs.find? (fun j => j.id = id) with _ | j
  · rw [stepJob_none hf]; exact h
  · have hmem := List.mem_of_find?_eq_some hf
    have hid : j.id = id := by simpa using List.find?_some hf
    rcases ho : j.outcome with _ | _ | cs
    · rw [stepJob_wait hf ho]
      refine ⟨?_, ?_, ?_, ?_, ?_, ?_⟩
      · dsimp only
        rw [List.map_map]
        have : (Job.id ∘ fun k : Job => if k.id = id then { k with outcome := some (env.upd s.log j.share) } else k) = Job.id := by
          funext k; simp only [Function.comp]; split <;> rfl
        rw [this]; exact h.ids
      · intro k hk
        obtain ⟨k0, hk0, rfl⟩ := List.mem_map.1 hk
        have := h.fresh k0 hk0
        split <;> exact this
      · dsimp only
        rw [List.map_map]
        have : ((fun j => ((j.share.from_, j.round) : Slot)) ∘ fun k : Job =>
            if k.id = id then { k with outcome := some (env.upd s.log j.share) } else k) = fun j => (j.share.from_, j.round) := by
          funext k; simp only [Function.comp]; split <;> rfl
        rw [this]; exact h.keys
      · dsimp only
        rw [List.filter_append, List.map_append]
        rcases hu : env.upd s.log j.share with _ | cs
        · rw [List.nodup_append]
          refine ⟨h.okNodup, by simp, ?_⟩
          intro a ha b hb hab
          simp at hb
          subst hab
          obtain ⟨en, hen, hae⟩ := List.mem_map.1 ha
          rw [List.mem_filter] at hen
          rw [hb] at hae
          rcases h.okWhere en hen.1 (by simpa using hen.2) with hacc | ⟨k, hk, hks, hko⟩
          · rw [hae] at hacc; exact h.open_ j hmem hacc
          · rw [hae] at hks
            rw [slot_unique h hk hmem hks, ho] at hko
            cases hko
        · simpa using h.okNodup
      · intro en hen hok
        dsimp only at hen ⊢
        rcases List.mem_append.1 hen with hen | hen
        · rcases h.okWhere en hen hok with hacc | ⟨k, hk, hks, hko⟩
          · exact Or.inl hacc
          · right
            refine ⟨k, List.mem_map.2 ⟨k, hk, ?_⟩, hks, hko⟩
            rw [if_neg]
            intro hkid
            rw [job_unique h hk hmem (hkid.trans hid.symm), ho] at hko
            cases hko
        · simp at hen
          subst hen
          right
          have hu : env.upd s.log j.share = none := by simpa using hok
          exact ⟨{ j with outcome := some (env.upd s.log j.share) }, List.mem_map.2 ⟨j, hmem, if_pos hid⟩, rfl, by rw [hu]⟩
      · intro k hk
        obtain ⟨k0, hk0, rfl⟩ := List.mem_map.1 hk
        have := h.open_ k0 hk0
        split <;> exact this
    · rw [stepJob_ok hf ho]
      have hsub : (s.jobs.filter (fun k => k.id ≠ id)).Sublist s.jobs := List.filter_sublist
      refine ⟨(hsub.map _).nodup h.ids, fun k hk => h.fresh k (hsub.subset hk), (hsub.map _).nodup h.keys, h.okNodup, ?_, ?_⟩
      · intro en hen hok
        rcases h.okWhere en hen hok with hacc | ⟨k, hk, hks, hko⟩
        · left; exact (accepted_update _ _ _ _ _).2 (Or.inl hacc)
        · by_cases hkid : k.id = id
          · left
            rw [job_unique h hk hmem (hkid.trans hid.symm)] at hks
            have h2 := Prod.mk.inj hks
            exact (accepted_update _ _ _ _ _).2 (Or.inr ⟨h2.2.symm, h2.1.symm⟩)
          · right
            exact ⟨k, List.mem_filter.2 ⟨hk, by simpa using hkid⟩, hks, hko⟩
      · intro k hk hacc
        obtain ⟨hk, hkid⟩ := List.mem_filter.1 hk
        rcases (accepted_update _ _ _ _ _).1 hacc with hacc | ⟨h1, h2⟩
        · exact h.open_ k hk hacc
        · have : k = j := slot_unique h hk hmem (by dsimp only at h1 h2; rw [h1, h2])
          rw [this] at hkid
          simp [hid] at hkid
    · rw [stepJob_bad hf ho]
      obtain ⟨b, hb⟩ := processInvalid_frame env { s with jobs := s.jobs.filter (fun k => k.id ≠ id) } j.round cs
      rw [hb]
      have hsub : (s.jobs.filter (fun k => k.id ≠ id)).Sublist s.jobs := List.filter_sublist
      refine ⟨(hsub.map _).nodup h.ids, fun k hk => h.fresh k (hsub.subset hk), (hsub.map _).nodup h.keys, h.okNodup, ?_, ?_⟩
      · intro en hen hok
        rcases h.okWhere en hen hok with hacc | ⟨k, hk, hks, hko⟩
        · exact Or.inl hacc
        · right
          refine ⟨k, List.mem_filter.2 ⟨hk, ?_⟩, hks, hko⟩
          simp only [ne_eq, decide_not, Bool.not_eq_eq_eq_not, Bool.not_true, decide_eq_false_iff_not]
          intro hkid
          rw [job_unique h hk hmem (hkid.trans hid.symm), ho] at hko
          cases hko
      · intro k hk
        exact h.open_ k (hsub.subset hk)

theorem stepJob_slots (env : Env K P) (id : Nat) (s : St K P) (k : Slot) (h : ∀ j ∈ s.jobs, (j.share.from_, j.round) ≠ k) :
    ∀ j ∈ (stepJob env id s).jobs, (j.share.from_, j.round) ≠ k := by
  intro j hj
  obtain ⟨j0, hj0, _, h2, h3⟩ := (stepJob_effect env id s).2.1 j hj
  rw [← h2, ← h3]
  exact h j0 hj0

theorem once_stepJobs (env : Env K P) (ids : List Nat) {s : St K P} (h : Once s) :
    Once (stepJobs env ids s) ∧ ∀ k : Slot, (∀ j ∈ s.jobs, (j.share.from_, j.round) ≠ k) →
      ∀ j ∈ (stepJobs env ids s).jobs, (j.share.from_, j.round) ≠ k := by
  induction ids generalizing s with
  | nil => exact ⟨h, fun k hk => hk⟩
  | cons i ids ih =>
    obtain ⟨h1, h2⟩ := ih (once_stepJob env i h)
    exact ⟨h1, fun k hk => h2 k (stepJob_slots env i s k hk)⟩

theorem once_drain (env : Env K P) (start : Nat) {s : St K P} (h : Once s) : Once (drain env start s) := by
  unfold drain
  generalize s.jobs.filter (fun j => start ≤ j.id) = l
  induction l generalizing s with
  | nil => exact h
  | cons j l ih => exact ih (once_stepJob env _ (once_stepJob env _ h))

theorem once_queue {s : St K P} (h : Once s) (sh : Share) (round : RoundInfo) (w : WireMessage)
    (hnew : ∀ j ∈ s.jobs, (j.share.from_, j.round) ≠ ((sh.from_, round) : Slot)) (hacc : ¬ Accepted s (sh.from_, round)) :
    Once { s with jobs := s.jobs ++ [⟨s.nextJob, sh, round, w, none⟩], nextJob := s.nextJob + 1 } := by
  refine ⟨?_, ?_, ?_, h.okNodup, ?_, ?_⟩
  · dsimp only
    rw [List.map_append, List.nodup_append]
    refine ⟨h.ids, by simp, ?_⟩
    intro a ha b hb hab
    obtain ⟨j, hj, rfl⟩ := List.mem_map.1 ha
    have := h.fresh j hj
    simp at hb
    omega
  · intro j hj
    rcases List.mem_append.1 hj with hj | hj
    · have := h.fresh j hj; dsimp only; omega
    · simp at hj; subst hj; simp
  · dsimp only
    rw [List.map_append, List.nodup_append]
    refine ⟨h.keys, by simp, ?_⟩
    intro a ha b hb hab
    obtain ⟨j, hj, rfl⟩ := List.mem_map.1 ha
    simp only [List.map_cons, List.map_nil, List.mem_cons, List.not_mem_nil, or_false] at hb
    exact hnew j hj (hab.trans hb)
  · intro en hen hok
    rcases h.okWhere en hen hok with ha | ⟨k, hk, hks, hko⟩
    · exact Or.inl ha
    · exact Or.inr ⟨k, List.mem_append.2 (Or.inl hk), hks, hko⟩
  · intro j hj
    rcases List.mem_append.1 hj with hj | hj
    · exact h.open_ j hj
    · simp at hj; subst hj; exact hacc

theorem once_feed (env : Env K P) (w : WireMessage) (start : Nat) :
    ∀ (rest : List BulkWireMsg) (ticks : List (List Nat)) (s : St K P), Once s → (rest.filterMap (slotOf env)).Nodup →
      (∀ k ∈ rest.filterMap (slotOf env), ∀ j ∈ s.jobs, (j.share.from_, j.round) ≠ k) →
      Once (feed env w start rest ticks s).1 := by
  intro rest
  induction rest with
  | nil =>
    intro ticks s h _ _
    exact once_drain env start (once_stepJobs env _ h).1
  | cons mm rest ih =>
    intro ticks s h hnd hdis
    obtain ⟨h1, h2⟩ := once_stepJobs env (ticks.headD []) h
    have hdis1 : ∀ k ∈ (mm :: rest).filterMap (slotOf env), ∀ j ∈ (stepJobs env (ticks.headD []) s).jobs,
        (j.share.from_, j.round) ≠ k := fun k hk => h2 k (hdis k hk)
    unfold feed
    dsimp only
    generalize stepJobs env (ticks.headD []) s = s1 at h1 hdis1
    have hndr : (rest.filterMap (slotOf env)).Nodup := by
      rw [List.filterMap_cons] at hnd
      split at hnd
      · exact hnd
      · exact (List.nodup_cons.1 hnd).2
    have hmem : ∀ k ∈ rest.filterMap (slotOf env), k ∈ (mm :: rest).filterMap (slotOf env) := by
      intro k hk
      rw [List.filterMap_cons]
      split
      · exact hk
      · exact List.mem_cons_of_mem _ hk
    split
    · rcases hr : mm.routing with _ | r
      · exact h1
      · dsimp only
        rcases hi : r.sender with _ | i
        · exact h1
        · dsimp only
          rcases hp : Map.get s1.mgr.partyIDMap i with _ | p
          · exact h1
          · dsimp only
            rcases hg : GetMsgRound env.parse mm.wired with _ | round
            · exact h1
            · dsimp only
              have hslot : slotOf env mm = some (i, { round with msgIdentifier := mm.ident }) := by
                simp [slotOf, hr, hi, hg]
              split
              · exact ih ticks.tail s1 h1 hndr (fun k hk => hdis1 k (hmem k hk))
              · rename_i hdup
                split
                · exact h1
                · have hk0 : (i, { round with msgIdentifier := mm.ident }) ∈ (mm :: rest).filterMap (slotOf env) := by
                    rw [List.filterMap_cons, hslot]; exact List.mem_cons_self
                  refine ih ticks.tail _ (once_queue h1 ⟨mm.ident, i, r.isBroadcast, mm.wired⟩ _ w (hdis1 _ hk0) hdup) hndr ?_
                  intro k hk j hj
                  rcases List.mem_append.1 hj with hj | hj
                  · exact hdis1 k (hmem k hk) j hj
                  · simp at hj; subst hj
                    intro hkk
                    rw [List.filterMap_cons, hslot] at hnd
                    exact (List.nodup_cons.1 hnd).1 (by dsimp only at hkk; rw [hkk]; exact hk)
    · exact h1

theorem once_quiet {s s' : St K P} (h : Once s) (hq : Quiet s s') : Once s' := by
  have hacc : ∀ k : Slot, Accepted s' k ↔ Accepted s k := by
    intro k
    unfold Accepted Manager.checkMsgDuplication
    rw [hq.accepted]
  refine ⟨by rw [hq.jobs]; exact h.ids, by rw [hq.jobs, hq.next]; exact h.fresh, by rw [hq.jobs]; exact h.keys,
    by rw [hq.log]; exact h.okNodup, ?_, ?_⟩
  · rw [hq.log, hq.jobs]
    intro en hen hok
    rcases h.okWhere en hen hok with ha | hb
    · exact Or.inl ((hacc _).2 ha)
    · exact Or.inr hb
  · rw [hq.jobs]
    intro j hj ha
    exact h.open_ j hj ((hacc _).1 ha)

theorem once_updateLocal (env : Env K P) (ticks : List (List Nat)) (w : WireMessage) {s : St K P} (h : Once s) (hj : s.jobs = [])
    (hnd : ∀ bulk, env.decBulk w.message = some bulk → (bulk.filterMap (slotOf env)).Nodup) :
    Once (updateLocal env ticks w s).1 := by
  unfold updateLocal
  split
  · exact h
  · rcases hi : w.sender with _ | i
    · exact h
    · dsimp only
      rcases hp : Map.get s.mgr.partyIDMap i with _ | p
      · exact h
      · dsimp only
        rcases hpe : Map.get s.mgr.partyIDtoP2PID i with _ | peer
        · exact h
        · dsimp only
          have hq : Quiet s (if w.isBroadcast then s else { s with mgr := s.mgr.setLastUnicastPeer peer w.roundInfo }) := by
            split
            · exact Quiet.refl s
            · obtain ⟨a1, a2, a3, a4, a5, a6⟩ := setLastUnicastPeer_maps s.mgr peer w.roundInfo
              exact ⟨rfl, rfl, rfl, a5, rfl, a1, a2, rfl⟩
          generalize (if w.isBroadcast then s else { s with mgr := s.mgr.setLastUnicastPeer peer w.roundInfo }) = s1 at hq
          have h1 := once_quiet h hq
          rcases hb : env.decBulk w.message with _ | bulk
          · exact h1
          · refine once_feed env w _ bulk ticks s1 h1 (hnd bulk hb) ?_
            rw [hq.jobs, hj]
            simp

/-- C33, the part that holds: for every sender, round and message at most one share is applied successfully, provided that no bulk
message contains two shares for the same slot and that no worker of an earlier, aborted bulk message is still running when a
message arrives.

Missing: see `c33_repeat_in_bulk` and `c33_leftover_worker`. -/
theorem c33_once_partial (env : Env K P) (m : Manager K P) (h : List (Event P))
    (hbulk : ∀ e ∈ h, ∀ w, Carries env e w → ∀ bulk, env.decBulk w.message = some bulk → (bulk.filterMap (slotOf env)).Nodup)
    (hidle : ∀ h1 raw p sch h2, h = h1 ++ Event.msg raw p sch :: h2 → (run env (newTssCommon m) h1).jobs = []) :
    (((run env (newTssCommon m) h).log.filter Entry.ok).map (fun en => (en.share.from_, en.round))).Nodup := by
  have : Once (run env (newTssCommon m) h) := by
    induction h using List.reverseRecOn with
    | nil =>
      refine ⟨?_, ?_, ?_, ?_, ?_, ?_⟩ <;> simp [run, newTssCommon]
    | append_singleton h e ih =>
      have ih := ih (fun e' he' => hbulk e' (by simp [he'])) (fun h1 raw p sch h2 hh => hidle h1 raw p sch (h2 ++ [e]) (by simp [hh]))
      have hg := good_run env m h
      rw [run_snoc]
      cases e with
      | work j =>
        unfold step
        split
        · exact ih
        · exact once_stepJob env j ih
      | msg raw p sch =>
        have hj := hidle h raw p sch [] rfl
        have hdone := doneInv_run env m h
        generalize run env (newTssCommon m) h = s at *
        unfold step
        split
        · exact ih
        · dsimp only
          rcases hraw : env.decWrapped raw with _ | ⟨t, pl⟩
          · exact ih
          · dsimp only
            have hsh := ProcessOneMessage_shape env raw p sch t pl hraw s hg.cached_sender (by
              intro ht hl
              have := hdone.closed ht
              rw [hdone.size] at hl
              omega)
            rcases hP : ProcessOneMessage env sch t pl p s with ⟨s', r⟩
            rw [hP] at hsh
            have key : Once s' := by
              cases hsh with
              | quiet hq _ => exact once_quiet ih hq
              | hollow hq => exact once_quiet ih hq
              | apply s1 w ticks hq hw hq' _ =>
                obtain ⟨⟨e', he', hc⟩, _⟩ := hw.just hg
                exact once_quiet (once_updateLocal env ticks w (once_quiet ih hq) (by rw [hq.jobs]; exact hj)
                  (fun bulk hb => hbulk e' he' w hc bulk hb)) hq'
            cases r with
            | panic => exact ⟨key.1, key.2, key.3, key.4, key.5, key.6⟩
            | _ => exact key
  exact this.okNodup

/-- a wire message of member 1 marked as unicast, with payload `b` -/
def ucast (b : Bytes) : WireMessage := ⟨some ⟨some (some 1), [0], false⟩, "R", b, [2]⟩

/-- payload 7 holds one share, 8 two shares for one slot, 9 a share and one for a party that does not exist -/
def net4 : DemoNet where
  wires := [ucast [7], ucast [8], ucast [9]]
  bulks := [([7], [inner 1 [50]]), ([8], [inner 1 [51], inner 1 [52]]), ([9], [inner 1 [53], ⟨[54], "x", none⟩])]

/-- The whole of C33 is false: two shares for one slot in one bulk message are both applied. -/
theorem c33_repeat_in_bulk : ∃ (env : Env Nat Nat) (m : Manager Nat Nat) (e : Event Nat) (a b : Entry),
    Committee env.codec m ∧ (run env (newTssCommon m) [e]).log = [a, b] ∧ a.ok = true ∧ b.ok = true ∧
    a.share.from_ = b.share.from_ ∧ a.round = b.round ∧ a.share.bytes ≠ b.share.bytes := by
  refine ⟨demoEnv net4 10, demoManager 0, recv 0 1 11, ⟨⟨"m", 1, true, [51]⟩, ⟨0, KEYGEN1, "m"⟩, ucast [8], true⟩,
    ⟨⟨"m", 1, true, [52]⟩, ⟨0, KEYGEN1, "m"⟩, ucast [8], true⟩, demoCommittee 0 (by decide), by decide +kernel, rfl, rfl, rfl, rfl,
    by decide⟩

/-- The whole of C33 is false: the workers of a bulk message whose processing was aborted go on, and may apply a share for a slot
after another share for it has been applied. -/
theorem c33_leftover_worker : ∃ (env : Env Nat Nat) (m : Manager Nat Nat) (h : List (Event Nat)) (a b : Entry),
    Committee env.codec m ∧
    (∀ e ∈ h, ∀ w, Carries env e w → ∀ bulk, env.decBulk w.message = some bulk → (bulk.filterMap (slotOf env)).Nodup) ∧
    (run env (newTssCommon m) h).log = [a, b] ∧ a.ok = true ∧ b.ok = true ∧
    a.share.from_ = b.share.from_ ∧ a.round = b.round ∧ a.share.bytes ≠ b.share.bytes := by
  refine ⟨demoEnv net4 10, demoManager 0, [recv 0 2 11, recv 0 0 11, .work 0],
    ⟨⟨"m", 1, true, [50]⟩, ⟨0, KEYGEN1, "m"⟩, ucast [7], true⟩,
    ⟨⟨"m", 1, true, [53]⟩, ⟨0, KEYGEN1, "m"⟩, ucast [9], true⟩, demoCommittee 0 (by decide), ?_, by decide +kernel, rfl, rfl, rfl, rfl,
    by decide⟩
  rintro e he w ⟨raw, peer, sch, t, pl, rfl, hraw, ht⟩ bulk hb
  simp only [recv, List.mem_cons, List.not_mem_nil, or_false] at he
  rcases he with he | he | he <;> cases he <;> cases hraw <;> rcases ht with ⟨ht, hw⟩ | ⟨ht, _⟩
  · cases hw; cases hb; decide +kernel
  · exact absurd ht (by decide)
  · cases hw; cases hb; decide +kernel
  · exact absurd ht (by decide)

/-- the hypotheses of `c33_once_partial` hold for a share that is delivered three times, and applied once -/
example : (((run (demoEnv net4 10) (newTssCommon (demoManager 0)) [recv 0 0 11, recv 0 0 11, recv 0 0 11]).log.filter Entry.ok).map
    (fun en => (en.share.from_, en.round))).Nodup := by
  apply c33_once_partial
  · rintro e he w ⟨raw, peer, sch, t, pl, rfl, hraw, ht⟩ bulk hb
    simp only [recv, List.mem_cons, List.not_mem_nil, or_false] at he
    rcases he with he | he | he <;> cases he <;> cases hraw <;> rcases ht with ⟨ht, hw⟩ | ⟨ht, _⟩
    all_goals first
      | (cases hw; cases hb; decide +kernel)
      | exact absurd ht (by decide)
  · intro h1 raw p sch h2 hh
    have hl := congrArg List.length hh
    simp only [List.length_cons, List.length_nil, List.length_append] at hl
    have hpre : h1 = [recv 0 0 11, recv 0 0 11, recv 0 0 11].take h1.length := by rw [hh]; simp
    have : h1.length = 0 ∨ h1.length = 1 ∨ h1.length = 2 := by omega
    rcases this with hl | hl | hl <;> rw [hpre, hl] <;> decide +kernel

example : (run (demoEnv net4 10) (newTssCommon (demoManager 0)) [recv 0 0 11, recv 0 0 11, recv 0 0 11]).log.length = 1 := by
  decide +kernel

/-! ## C34 -/

/-- C34, the part that holds: a share is applied under the party named inside the payload, so it is the signer whenever the
signed payload names only its signer in its shares.

Missing: the party named inside a payload is not compared with the signer; see `c34_impersonation`. -/
theorem c34_attribution_partial (env : Env K P) (m : Manager K P) (h : List (Event P)) (en : Entry)
    (hen : en ∈ (run env (newTssCommon m) h).log) (i : Nat) (hi : en.carrier.sender = some i)
    (hself : ∀ bulk, env.decBulk en.carrier.message = some bulk → ∀ mm ∈ bulk, ∀ r, mm.routing = some r → r.sender = some i) :
    en.share.from_ = i ∧ ∃ p, Map.get m.partyIDMap i = some p ∧
      env.verify p.key (en.carrier.message ++ env.msgID) en.carrier.sig = true := by
  obtain ⟨hj, bulk, mm, r, ri, hb, hm, _, _, _, hr, hs, _⟩ := (good_run env m h).log en hen
  obtain ⟨i', p, hi', hp, hv⟩ := hj.signed
  rw [hi] at hi'; cases hi'
  have := hself bulk hb mm hm r hr
  rw [hs] at this
  exact ⟨Option.some.inj this, p, hp, hv⟩

example : ∀ en ∈ (run (demoEnv net4 10) (newTssCommon (demoManager 0)) [recv 0 0 11]).log,
    en.carrier.sender = some 1 ∧ en.share.from_ = 1 := by decide +kernel

/-- The whole of C34 is false: member 1 signs a payload with a share in the name of member 2, and the share is applied as member
2's. -/
theorem c34_impersonation : ∃ (env : Env Nat Nat) (m : Manager Nat Nat) (e : Event Nat) (en : Entry),
    Committee env.codec m ∧ (run env (newTssCommon m) [e]).log = [en] ∧ en.ok = true ∧ en.carrier.sender = some 1 ∧
    Signed env m.partyIDMap en.carrier ∧ en.share.from_ = 2 := by
  refine ⟨demoEnv { wires := [ucast [7]], bulks := [([7], [inner 2 [50]])] } 10, demoManager 0, recv 0 0 11,
    ⟨⟨"m", 2, true, [50]⟩, ⟨0, KEYGEN1, "m"⟩, ucast [7], true⟩, demoCommittee 0 (by decide), by decide +kernel, rfl, rfl, ?_, rfl⟩
  exact ⟨1, ⟨1, [2], 1⟩, rfl, by decide +kernel, by decide⟩

/-! ## C35 -/

/-- the routing of a share or message can be read -/
def Readable (r : Option Routing) : Prop := ∃ r' i, r = some r' ∧ r'.sender = some i

theorem feed_no_panic (env : Env K P) (w : WireMessage) (start : Nat) :
    ∀ (rest : List BulkWireMsg) (ticks : List (List Nat)) (s : St K P), (∀ mm ∈ rest, Readable mm.routing) →
      (feed env w start rest ticks s).2 ≠ .panic := by
  intro rest
  induction rest with
  | nil => intro ticks s _; simp [feed]
  | cons mm rest ih =>
    intro ticks s hr
    obtain ⟨r, i, hr1, hi⟩ := hr mm List.mem_cons_self
    have hrest := fun mm' hm' => hr mm' (List.mem_cons_of_mem _ hm')
    unfold feed
    dsimp only
    split
    · simp only [hr1, hi]
      split
      · simp
      · split
        · simp
        · split
          · exact ih _ _ hrest
          · split
            · simp
            · exact ih _ _ hrest
    · simp

theorem updateLocal_no_panic (env : Env K P) (ticks : List (List Nat)) (w : WireMessage) (s : St K P)
    (hs : Signed env s.mgr.partyIDMap w)
    (hb : ∀ bulk, env.decBulk w.message = some bulk → ∀ mm ∈ bulk, Readable mm.routing) :
    (updateLocal env ticks w s).2 ≠ .panic := by
  obtain ⟨i, p, hi, hp, _⟩ := hs
  unfold updateLocal
  split
  · simp
  · simp only [hi, hp]
    split
    · simp
    · split
      · simp
      · rename_i bulk hbulk
        exact feed_no_panic env w _ bulk ticks _ (hb bulk hbulk)

/-- C35, the part that holds: the node crashes only because of a wire message whose routing has a sender object without content
(such a message needs no signature), or of a signed payload in which the routing of some share is missing or has no sender.

Missing: those two cases, see `c35_hollow_sender` and `c35_nil_routing`. -/
theorem c35_no_crash_partial (env : Env K P) (m : Manager K P) (h : List (Event P))
    (hwire : ∀ e ∈ h, ∀ w, Carries env e w → w.noSender = false → ∃ i, w.sender = some i)
    (hbulk : ∀ e ∈ h, ∀ w, Carries env e w → Signed env m.partyIDMap w → ∀ bulk, env.decBulk w.message = some bulk →
      ∀ mm ∈ bulk, Readable mm.routing) :
    (run env (newTssCommon m) h).crashed = false := by
  induction h using List.reverseRecOn with
  | nil => rfl
  | append_singleton h e ih =>
    have ih := ih (fun e' he' => hwire e' (by simp [he'])) (fun e' he' => hbulk e' (by simp [he']))
    have hg := good_run env m h
    have hdone := doneInv_run env m h
    rw [run_snoc]
    generalize run env (newTssCommon m) h = s at *
    cases e with
    | work j =>
      unfold step
      rw [if_neg (by rw [ih]; exact Bool.false_ne_true)]
      dsimp only
      exact (stepJob_crashed env j s).trans ih
    | msg raw p sch =>
      unfold step
      rw [if_neg (by rw [ih]; exact Bool.false_ne_true)]
      dsimp only
      rcases hraw : env.decWrapped raw with _ | ⟨t, pl⟩
      · exact ih
      · dsimp only
        have hsh := ProcessOneMessage_shape env raw p sch t pl hraw s hg.cached_sender (by
          intro ht hl
          have := hdone.closed ht
          rw [hdone.size] at hl
          omega)
        have hnc := hsh.crashed_eq
        rcases hP : ProcessOneMessage env sch t pl p s with ⟨s', r⟩
        rw [hP] at hsh hnc
        dsimp only at hnc
        have hr : r ≠ .panic := by
          cases hsh with
          | quiet _ hr => exact hr
          | hollow _ w hw hn hs =>
            exfalso
            rcases hw with hc | ⟨key, item, hk, hm⟩
            · obtain ⟨i, hi⟩ := hwire _ (by simp) w hc hn
              rw [hs] at hi; cases hi
            · obtain ⟨i, hi⟩ := hg.cached_sender key item w hk hm
              rw [hs] at hi; cases hi
          | apply s1 w ticks hq hw hq' hr =>
            intro hp
            obtain ⟨⟨e', he', hc⟩, hs⟩ := hw.just hg
            refine updateLocal_no_panic env ticks w s1 ?_ (hbulk e' he' w hc hs) (hr hp)
            rw [hq.ids, hg.ids]; exact hs
        cases r with
        | panic => exact absurd rfl hr
        | _ => exact hnc.trans ih

/-- the hypotheses of `c35_no_crash_partial` hold for messages with readable routing, whatever they are -/
example : (run (demoEnv net4 10) (newTssCommon (demoManager 0)) [recv 0 0 11, recv 0 1 13]).crashed = false := by
  apply c35_no_crash_partial
  · rintro e he w ⟨raw, peer, sch, t, pl, rfl, hraw, ht⟩ _
    simp only [recv, List.mem_cons, List.not_mem_nil, or_false] at he
    rcases he with he | he <;> cases he <;> cases hraw <;> rcases ht with ⟨ht, hw⟩ | ⟨ht, _⟩
    all_goals first
      | (cases hw; exact ⟨1, rfl⟩)
      | exact absurd ht (by decide)
  · rintro e he w ⟨raw, peer, sch, t, pl, rfl, hraw, ht⟩ _ bulk hb mm hmm
    simp only [recv, List.mem_cons, List.not_mem_nil, or_false] at he
    rcases he with he | he <;> cases he <;> cases hraw <;> rcases ht with ⟨ht, hw⟩ | ⟨ht, _⟩
    · cases hw; cases hb
      simp only [List.mem_cons, List.not_mem_nil, or_false] at hmm
      subst hmm; exact ⟨_, 1, rfl, rfl⟩
    · exact absurd ht (by decide)
    · cases hw; cases hb
      simp only [List.mem_cons, List.not_mem_nil, or_false] at hmm
      rcases hmm with rfl | rfl <;> exact ⟨_, 1, rfl, rfl⟩
    · exact absurd ht (by decide)

/-- The whole of C35 is false: one message of anybody, signed by nobody, whose routing has a sender without content, crashes the
node. -/
theorem c35_hollow_sender : ∃ (env : Env Nat Nat) (m : Manager Nat Nat) (e : Event Nat),
    Committee env.codec m ∧ (∀ w, Carries env e w → ¬ Signed env m.partyIDMap w) ∧ (run env (newTssCommon m) [e]).crashed = true := by
  refine ⟨demoEnv { wires := [⟨some ⟨some none, [], true⟩, "R", [], []⟩] } 10, demoManager 0, recv 0 0 99, demoCommittee 0 (by decide),
    ?_, by decide +kernel⟩
  rintro w ⟨raw, peer, sch, t, pl, he, hraw, ht⟩ ⟨i, p, hi, _⟩
  cases he; cases hraw
  rcases ht with ⟨_, hw⟩ | ⟨ht, _⟩
  · cases hw; cases hi
  · exact absurd ht (by decide)

/-- The whole of C35 is false: a member can crash the node with a share without routing in a payload it signed. -/
theorem c35_nil_routing : ∃ (env : Env Nat Nat) (m : Manager Nat Nat) (e : Event Nat),
    Committee env.codec m ∧ (∀ w, Carries env e w → w.sender = some 1) ∧ (run env (newTssCommon m) [e]).crashed = true := by
  refine ⟨demoEnv { wires := [ucast [7]], bulks := [([7], [⟨[50], "m", none⟩])] } 10, demoManager 0, recv 0 0 11,
    demoCommittee 0 (by decide), ?_, by decide +kernel⟩
  rintro w ⟨raw, peer, sch, t, pl, he, hraw, ht⟩
  cases he; cases hraw
  rcases ht with ⟨_, hw⟩ | ⟨ht, _⟩
  · cases hw; rfl
  · exact absurd ht (by decide)

/-! ## C36 -/

/-- a peer `i` is excluded in `s`, with `l` the shares of it applied so far -/
structure Silenced (i : Nat) (l : List Entry) (s : St K P) : Prop where
  culprit : ⟨i, true⟩ ∈ s.culprits
  jobs : ∀ j ∈ s.jobs, j.share.from_ = i → j.outcome ≠ none
  log : s.log.filter (fun en => en.share.from_ = i) = l

theorem silenced_stepJob (env : Env K P) (id : Nat) {i : Nat} {l : List Entry} {s : St K P} (h : Silenced i l s) :
    Silenced i l (stepJob env id s) := by
  unfold stepJob
  rcases hf : s.jobs.find? (fun j => j.id = id) with _ | j
  · rw [hf]; exact h
  · have hj : j ∈ s.jobs := List.mem_of_find?_eq_some hf
    rw [hf]
    dsimp only
    rcases ho : j.outcome with _ | _ | cs
    · dsimp only
      refine ⟨h.culprit, ?_, ?_⟩
      · intro k hk hki
        simp only [List.mem_map] at hk
        obtain ⟨k0, hk0, rfl⟩ := hk
        by_cases hid : k0.id = id
        · simp [hid]
        · rw [if_neg hid] at hki ⊢; exact h.jobs k0 hk0 hki
      · have hne : j.share.from_ ≠ i := fun hji => h.jobs j hj hji ho
        rw [List.filter_append, h.log]
        simp [hne]
    · exact ⟨h.culprit, fun k hk => h.jobs k (List.mem_of_mem_filter hk), h.log⟩
    · dsimp only
      unfold processInvalidMsgBlame
      dsimp only
      split <;> exact ⟨by simp [h.culprit], fun k hk => h.jobs k (List.mem_of_mem_filter hk), h.log⟩

theorem silenced_micro {env : Env K P} {e : Event P} {i : Nat} {l : List Entry} {s s' : St K P} (h : Silenced i l s)
    (hm : Micro env e s s') : Silenced i l s' := by
  cases hm with
  | work id => exact silenced_stepJob env id h
  | queue w bulk mm r j p round hs hd hmm hp hr hi hip hround hdup hc =>
    refine ⟨h.culprit, ?_, h.log⟩
    intro k hk hki
    simp only [List.mem_append, List.mem_singleton] at hk
    rcases hk with hk | rfl
    · exact h.jobs k hk hki
    · exfalso
      dsimp only at hki
      have := List.any_eq_false.1 hc ⟨i, true⟩ h.culprit
      simp [hki] at this
  | _ => exact ⟨h.culprit, h.jobs, h.log⟩

/-- C36, the part that holds: when a peer has been reported as culprit by a local party that shares its party objects with the
session (as in key generation), and no share of it is waiting for a worker, none of its shares is applied any more.

Missing: shares already waiting (`c36_waiting_share`), and reports naming a copy of the party object, as in signing
(`c36_copied_culprit`). -/
theorem c36_silenced_partial (env : Env K P) (m : Manager K P) (h1 h2 : List (Event P)) (i : Nat)
    (hc : ⟨i, true⟩ ∈ (run env (newTssCommon m) h1).culprits)
    (hj : ∀ j ∈ (run env (newTssCommon m) h1).jobs, j.share.from_ = i → j.outcome ≠ none) :
    (run env (newTssCommon m) (h1 ++ h2)).log.filter (fun en => en.share.from_ = i) =
      (run env (newTssCommon m) h1).log.filter (fun en => en.share.from_ = i) := by
  have h0 : Silenced i ((run env (newTssCommon m) h1).log.filter (fun en => en.share.from_ = i)) (run env (newTssCommon m) h1) :=
    ⟨hc, hj, rfl⟩
  have : Silenced i ((run env (newTssCommon m) h1).log.filter (fun en => en.share.from_ = i)) (run env (newTssCommon m) (h1 ++ h2)) := by
    rw [run_append]
    generalize run env (newTssCommon m) h1 = s at *
    clear hc hj
    generalize s.log.filter (fun en => en.share.from_ = i) = l at *
    induction h2 generalizing s with
    | nil => exact h0
    | cons e h2 ih =>
      refine ih (step env s e) ?_
      have hms := step_micro env s e
      generalize step env s e = s' at hms
      induction hms with
      | refl => exact h0
      | tail _ hm ih' => exact silenced_micro ih' hm
  exact this.log

/-- the local party rejects the share `[50]` and reports member 1, as party object `stored` of the session or as a copy -/
def net5 (stored : Bool) : DemoNet where
  wires := [ucast [7], ucast [8], ucast [9]]
  bulks := [([7], [inner 1 [50]]), ([8], [inner 1 [51]]), ([9], [inner 1 [50], inner 1 [51]])]
  answer _ sh := if sh.bytes = [50] then some [⟨1, stored⟩] else none

example : (run (demoEnv (net5 true) 10) (newTssCommon (demoManager 0)) [recv 0 0 11]).culprits = [⟨1, true⟩] ∧
    (run (demoEnv (net5 true) 10) (newTssCommon (demoManager 0)) [recv 0 0 11]).jobs = [] ∧
    (run (demoEnv (net5 true) 10) (newTssCommon (demoManager 0)) [recv 0 0 11, recv 0 1 11]).log.length = 1 := by
  decide +kernel

/-- The whole of C36 is false: a share waiting for a worker when its sender is reported is applied afterwards. -/
theorem c36_waiting_share : ∃ (env : Env Nat Nat) (m : Manager Nat Nat) (e1 e2 : Event Nat) (en : Entry),
    Committee env.codec m ∧ ⟨1, true⟩ ∈ (run env (newTssCommon m) [e1]).culprits ∧
    (run env (newTssCommon m) [e1, e2]).log = (run env (newTssCommon m) [e1]).log ++ [en] ∧ en.ok = true ∧ en.share.from_ = 1 := by
  refine ⟨demoEnv { net5 true with bulks := [([7], [inner 1 [50], inner 1 [51], inner 9 [52]])] } 10, demoManager 0,
    .msg [0, 0] 11 { plain with ticks := [[], [], [0, 0]] }, .work 1, ⟨⟨"m", 1, true, [51]⟩, ⟨0, KEYGEN1, "m"⟩, ucast [7], true⟩,
    demoCommittee 0 (by decide), by decide +kernel, by decide +kernel, rfl, rfl⟩

/-- The whole of C36 is false: a culprit reported by a copy of its party object, as signing does, goes on. -/
theorem c36_copied_culprit : ∃ (env : Env Nat Nat) (m : Manager Nat Nat) (e1 e2 : Event Nat) (en : Entry),
    Committee env.codec m ∧ (run env (newTssCommon m) [e1]).culprits = [⟨1, false⟩] ∧ (run env (newTssCommon m) [e1]).jobs = [] ∧
    (run env (newTssCommon m) [e1, e2]).log = (run env (newTssCommon m) [e1]).log ++ [en] ∧ en.ok = true ∧ en.share.from_ = 1 := by
  refine ⟨demoEnv (net5 false) 10, demoManager 0, recv 0 0 11, recv 0 1 11,
    ⟨⟨"m", 1, true, [51]⟩, ⟨0, KEYGEN1, "m"⟩, ucast [8], true⟩,
    demoCommittee 0 (by decide), by decide +kernel, by decide +kernel, by decide +kernel, rfl, rfl⟩

/-! ## C44, reported culprits -/

/-- Specification: `w` is a broadcast message of round `round` received in `h`, signed by committee member `i` -/
def MessageOf (env : Env K P) (m : Manager K P) (h : List (Event P)) (i : Nat) (round : String) (w : WireMessage) : Prop :=
  (∃ e ∈ h, Carries env e w) ∧ w.sender = some i ∧ w.roundInfo = round ∧ w.isBroadcast = true ∧
  ∃ p, Map.get m.partyIDMap i = some p ∧ env.verify p.key (w.message ++ env.msgID) w.sig = true

/-- Specification: the node blames culprit `i`, with a message of its own as evidence, or without evidence -/
def BlamesCulprit (env : Env K P) (m : Manager K P) (h : List (Event P)) (round : String) (i : Nat) (n : Node K) : Prop :=
  Named env.codec m.partyIDMap i n.pubkey ∧
  ((n.data = [] ∧ n.sig = []) ∨
    ∃ w, MessageOf env m h i round w ∧ n.data = w.message ∧ n.sig = w.sig)

/-- C44: when the local party reports culprits of the committee, each of them, in order, gets one blame node, with a message that
culprit signed for the round as evidence, or none; the blame reason is a broken message. -/
theorem c44_culprits (env : Env K P) (m : Manager K P) (hcom : Committee env.codec m) (hst : m.storedMsg = [])
    (h : List (Event P)) (j : Job) (cs : List Culprit)
    (hcr : (run env (newTssCommon m) h).crashed = false)
    (hj : (run env (newTssCommon m) h).jobs.find? (fun k => k.id = j.id) = some j) (ho : j.outcome = some (some cs))
    (hcs : ∀ c ∈ cs, c.id ∈ Map.keys m.partyIDMap) :
    let s := run env (newTssCommon m) h
    let s' := run env (newTssCommon m) (h ++ [.work j.id])
    ∃ ns, List.Forall₂ (fun (c : Culprit) n => BlamesCulprit env m h j.round.roundMsg c.id n) cs ns ∧
      s'.mgr.blame.nodes = s.mgr.blame.nodes ++ ns ∧ s'.mgr.blame.failReason = "tss share verification failed" ∧
      s'.culprits = s.culprits ++ cs ∧ s'.log = s.log := by
  intro s s'
  have hg : Good env m h s := good_run env m h
  have hs' : s' = stepJob env j.id s := by
    show run env (newTssCommon m) (h ++ [.work j.id]) = _
    rw [run_snoc]
    show step env s (.work j.id) = _
    unfold step
    rw [if_neg (by rw [show s.crashed = false from hcr]; exact Bool.false_ne_true)]
  rw [hs']
  clear hs' s'
  have hf : s.jobs.find? (fun k => k.id = j.id) = some j := hj
  clear hj hcr
  clear_value s
  unfold stepJob
  rw [hf]
  dsimp only
  rw [ho]
  dsimp only
  unfold processInvalidMsgBlame
  dsimp only
  rw [hg.ids]
  obtain ⟨ks, hk, hn⟩ := names_exists env.codec m.partyIDMap hcom.named (cs.map Culprit.id) (by
    intro i hi
    simp only [List.mem_map] at hi
    obtain ⟨c, hc, rfl⟩ := hi
    exact hcs c hc)
  rw [hk]
  dsimp only
  refine ⟨_, ?_, rfl, rfl, rfl, rfl⟩
  clear hk hf ho hcs
  induction cs generalizing ks with
  | nil => cases hn; exact List.Forall₂.nil
  | cons c cs ih =>
    cases hn with
    | cons h1 h2 =>
      rename_i k ks
      refine List.Forall₂.cons ?_ (ih _ h2)
      dsimp only
      rcases hr : s.mgr.roundGet (cacheKey c.id j.round.roundMsg) with _ | w
      · exact ⟨h1, Or.inl ⟨rfl, rfl⟩⟩
      · refine ⟨h1, Or.inr ⟨w, ?_, rfl, rfl⟩⟩
        obtain ⟨hw, hb, i, hi, hkey⟩ := hg.stored hst _ w hr
        obtain ⟨e1, e2⟩ := cacheKey_inj hkey
        subst e1
        obtain ⟨i', p, hi', hp, hv⟩ := hw.signed
        rw [hi] at hi'; cases hi'
        exact ⟨hw.carried, hi, e2.symm, hb, p, hp, hv⟩

/-- payload 7 is applied, payload 8 is rejected with members 1 and 2 reported -/
def net6 : DemoNet where
  wires := [bcast 1 [7], { bcast 1 [8] with roundInfo := KEYGEN1 }]
  confirms := [⟨none, "1-R", demoHash [7]⟩, ⟨none, cacheKey 1 KEYGEN1, demoHash [8]⟩]
  bulks := [([7], [inner 1 [50]]), ([8], [inner 1 [51], inner 9 [52]])]
  parse b := if b = [50] then some .KGRound2Message2 else some .KGRound1Message
  answer _ sh := if sh.bytes = [51] then some [⟨1, true⟩, ⟨2, true⟩] else none

/-- two culprits are blamed when the worker goes on: member 1 with its message as evidence, member 2 without -/
example :
    let h := [recv 0 1 11, Event.msg [2, 1] 12 { plain with ticks := [[], [0]] }]
    let s := run (demoEnv net6 10) (newTssCommon (demoManager 0)) h
    let s' := run (demoEnv net6 10) (newTssCommon (demoManager 0)) (h ++ [.work 0])
    s.crashed = false ∧ (s.jobs.map (fun j => (j.id, j.outcome)) = [(0, some (some [⟨1, true⟩, ⟨2, true⟩]))]) ∧ s.mgr.blame.nodes = [] ∧
    s'.mgr.blame.nodes = [⟨21, [8], [2]⟩, ⟨22, [], []⟩] := by decide +kernel

/-! ## C71 -/

/-- Specification: node `n` of a blame names a committee member, with no evidence or with a message received in `h` that this member
signed for this session -/
def Attributed (env : Env K P) (m : Manager K P) (h : List (Event P)) (n : Node K) : Prop :=
  ∃ i, Named env.codec m.partyIDMap i n.pubkey ∧
    ((n.data = [] ∧ n.sig = []) ∨
      ∃ p w e, e ∈ h ∧ Carries env e w ∧ w.sender = some i ∧ Map.get m.partyIDMap i = some p ∧
        env.verify p.key (n.data ++ env.msgID) n.sig = true ∧ n.data = w.message ∧ n.sig = w.sig)

theorem Attributed.mono {env : Env K P} {m : Manager K P} {h : List (Event P)} {n : Node K} (e : Event P)
    (ha : Attributed env m h n) : Attributed env m (h ++ [e]) n := by
  obtain ⟨i, hn, h1 | ⟨p, w, e', he', h2⟩⟩ := ha
  · exact ⟨i, hn, Or.inl h1⟩
  · exact ⟨i, hn, Or.inr ⟨p, w, e', by simp [he'], h2⟩⟩

theorem attributed_of_just {env : Env K P} {m : Manager K P} {h : List (Event P)} {w : WireMessage} {i : Nat} {pk : K}
    (hn : Named env.codec m.partyIDMap i pk) (hc : ∃ e ∈ h, Carries env e w) (hs : Signed env m.partyIDMap w)
    (hi : w.sender = some i) : Attributed env m h ⟨pk, w.message, w.sig⟩ := by
  obtain ⟨e, he, hc⟩ := hc
  obtain ⟨i', p, hi', hp, hv⟩ := hs
  rw [hi] at hi'; cases hi'
  exact ⟨i, hn, Or.inr ⟨p, w, e, he, hc, hi, hp, hv, rfl, rfl⟩⟩

theorem attributed_hashBlame {env : Env K P} {m : Manager K P} {h : List (Event P)} {s : St K P} {key : String} {item : Item P}
    {w : WireMessage} {i : Nat} (hg : Good env m h s) (hk : Map.get s.cache key = some item) (hm : item.msg = some w)
    (hi : w.sender = some i) (ha : ∀ n ∈ s.mgr.blame.nodes, Attributed env m h n) :
    ∀ n ∈ (hashBlame env s w).nodes, Attributed env m h n := by
  unfold hashBlame
  rcases hb : s.mgr.tssWrongShareBlame env.codec w with pk | _ | _
  · intro n hn
    simp only [Blame.setBlame, List.mem_append, List.mem_singleton] at hn
    rcases hn with hn | rfl
    · exact ha n hn
    · obtain ⟨hc, hs, _⟩ := (hg.cache key item hk).msg w hm
      refine attributed_of_just ?_ hc hs hi
      simp only [Manager.tssWrongShareBlame, hi, hg.ids] at hb
      rcases hp : Map.get m.partyIDMap i with _ | p
      · rw [hp] at hb; cases hb
      · rw [hp] at hb; exact ⟨p, hp, hb⟩
  · simpa [Blame.setBlame] using ha
  · simpa [Blame.setBlame] using ha

theorem attributed_stepJob {env : Env K P} {m : Manager K P} (hst : m.storedMsg = []) {h : List (Event P)} {s : St K P} (id : Nat)
    (hg : Good env m h s) (ha : ∀ n ∈ s.mgr.blame.nodes, Attributed env m h n) :
    ∀ n ∈ (stepJob env id s).mgr.blame.nodes, Attributed env m h n := by
  unfold stepJob
  split
  · exact ha
  · rename_i j _
    split
    · exact ha
    · dsimp only
      rw [(updateAcceptShare_maps _ _ _).2.2.2.1]; exact ha
    · rename_i cs _
      unfold processInvalidMsgBlame
      dsimp only
      split
      · rename_i ks hks
        intro n hn
        simp only [Blame.setBlame, List.mem_append, List.mem_map] at hn
        rcases hn with hn | ⟨⟨pk, o⟩, hz, rfl⟩
        · exact ha n hn
        · rw [accPubKeys_ok_iff, hg.ids] at hks
          have key : ∀ (cs : List Culprit) (ks : List K), Names env.codec m.partyIDMap (cs.map Culprit.id) ks →
              (pk, o) ∈ ks.zip (cs.map fun el => s.mgr.roundGet (cacheKey el.id j.round.roundMsg)) →
              ∃ c ∈ cs, Named env.codec m.partyIDMap c.id pk ∧ o = s.mgr.roundGet (cacheKey c.id j.round.roundMsg) := by
            intro cs
            induction cs with
            | nil => intro ks _ hz; simp at hz
            | cons c cs ih =>
              intro ks hn hz
              cases hn with
              | cons h1 h2 =>
                simp only [List.map_cons, List.zip_cons_cons, List.mem_cons, Prod.mk.injEq] at hz
                rcases hz with ⟨rfl, rfl⟩ | hz
                · exact ⟨c, by simp, h1, rfl⟩
                · obtain ⟨c', hc', h⟩ := ih _ h2 hz
                  exact ⟨c', by simp [hc'], h⟩
          obtain ⟨c, _, hnm, ho⟩ := key cs ks hks hz
          rcases o with _ | w
          · exact ⟨c.id, hnm, Or.inl ⟨rfl, rfl⟩⟩
          · obtain ⟨hw, hb, i, hi, hkey⟩ := hg.stored hst _ w ho.symm
            obtain ⟨e1, _⟩ := cacheKey_inj hkey
            exact attributed_of_just hnm hw.carried hw.signed (by rw [e1]; exact hi)
      · simpa [Blame.setBlame] using ha

/-- C71: in every state of every session, each node blamed by the processing of messages is a member, and the evidence attached to
it, if any, is a message the node received that verifies under this member's key for this session. -/
theorem c71_evidence (env : Env K P) (m : Manager K P) (hst : m.storedMsg = []) (hb : m.blame.nodes = []) (h : List (Event P)) :
    ∀ n ∈ (run env (newTssCommon m) h).mgr.blame.nodes, Attributed env m h n := by
  refine run_invariant_good env m (fun h s => ∀ n ∈ s.mgr.blame.nodes, Attributed env m h n) ?_ ?_ ?_ h
  · intro n hn; simp [newTssCommon, hb] at hn
  · intro h e s hI n hn; exact (hI n hn).mono e
  · intro h e s s' hg hI hm
    cases hm with
    | work id => exact attributed_stepJob hst id hg hI
    | blameOwner key item w i peer t hk hm hi hp ht hn hv => exact attributed_hashBlame hg hk hm hi hI
    | blameSplit key item w i t hk hm hi ht hn => exact attributed_hashBlame hg hk hm hi hI
    | unicast w i peer hs hi hp hb =>
      dsimp only
      rw [(setLastUnicastPeer_maps _ _ _).2.2.2.1]; exact hI
    | _ => exact hI

/-- the blame of the example above satisfies it, with evidence for one of its nodes -/
example : ∀ n ∈ (run (demoEnv net6 10) (newTssCommon (demoManager 0))
    [recv 0 1 11, Event.msg [2, 1] 12 { plain with ticks := [[], [0]] }, .work 0]).mgr.blame.nodes,
    Attributed (demoEnv net6 10) (demoManager 0) [recv 0 1 11, Event.msg [2, 1] 12 { plain with ticks := [[], [0]] }, .work 0] n :=
  c71_evidence _ _ rfl rfl _

/-! ## C70 -/

/-- C70, the part that holds: when only committee members send confirmations, a broadcast share is applied only after votes of at
least `threshold` distinct members other than its owner, all but one of them for its payload.

Missing: a confirmation is not rejected when its sender is not in the committee, see `c70_outsiders`. -/
theorem c70_members_partial (env : Env K P) (m : Manager K P) (h : List (Event P))
    (hloc : env.localPeer ∈ m.partyIDtoP2PID.map Prod.snd)
    (hc : ∀ e ∈ h, ∀ p key d, Confirms env e p key d → p ∈ m.partyIDtoP2PID.map Prod.snd)
    (en : Entry) (hen : en ∈ (run env (newTssCommon m) h).log) (hb : en.carrier.isBroadcast = true) :
    ∃ (voters : List P) (t : Int), voters.Nodup ∧ GetThreshold m.partyIDMap.length = .ok t ∧ t ≤ (voters.length : Int) ∧
      ∀ p ∈ voters, p ∈ m.partyIDtoP2PID.map Prod.snd := by
  obtain ⟨hj, _⟩ := (good_run env m h).log en hen
  obtain ⟨votes, owner, peer, t, h1, h2, h3, h4, h5, h6, h7, h8, h9⟩ := hj.quorum hb
  refine ⟨votes.map Prod.fst, t, h1, h5, by simpa using h6, ?_⟩
  intro p hp
  obtain ⟨⟨p', d⟩, hpd, rfl⟩ := List.mem_map.1 hp
  rcases h7 p' d hpd with ⟨e, he, hcf⟩ | ⟨hl, _⟩
  · exact hc e he _ _ _ hcf
  · show p' ∈ _
    rw [hl]; exact hloc

example : (10 : Nat) ∈ (demoManager (K := Nat) 0).partyIDtoP2PID.map Prod.snd ∧
    (run (demoEnv net6 10) (newTssCommon (demoManager 0)) [recv 0 0 11, recv 2 0 12]).log.map (fun en => en.carrier.isBroadcast) = [true] := by
  decide +kernel

/-- the confirmations in this history come from members -/
example : ∀ e ∈ [recv 0 0 11, recv 2 0 12], ∀ p key d, Confirms (demoEnv net6 10) e p key d →
    p ∈ (demoManager (K := Nat) 0).partyIDtoP2PID.map Prod.snd := by
  rintro e he p key d ⟨raw, sch, t, pl, rfl, _⟩
  simp only [recv, List.mem_cons, List.not_mem_nil, or_false] at he
  rcases he with he | he <;> cases he <;> decide

/-- The whole of C70 is false: with the confirmation of a peer that is not in the committee (99) instead of a member's, the share is
applied; and the reports of three such peers end the task. -/
theorem c70_outsiders : ∃ (env : Env Nat Nat) (m : Manager Nat Nat) (e1 e2 : Event Nat) (dones : List (Event Nat)),
    Committee env.codec m ∧ Confirms env e2 99 "1-R" (env.hash [7]) ∧ 99 ∉ m.partyIDtoP2PID.map Prod.snd ∧
    (run env (newTssCommon m) [e1]).log = [] ∧ (run env (newTssCommon m) [e1, e2]).log.map Entry.ok = [true] ∧
    (∀ e ∈ dones, ∃ p ∉ m.partyIDtoP2PID.map Prod.snd, ReportsDone env e p) ∧ (run env (newTssCommon m) dones).taskDone = true := by
  refine ⟨demoEnv net6 10, demoManager 0, recv 0 0 11, recv 2 0 99, [done 97, done 98, done 99], demoCommittee 0 (by decide), ?_,
    by decide, by decide +kernel, by decide +kernel, ?_, by decide +kernel⟩
  · exact ⟨_, _, _, _, rfl, rfl, Or.inl rfl, ⟨none, "1-R", demoHash [7]⟩, rfl, rfl, rfl⟩
  · intro e he
    simp only [List.mem_cons, List.not_mem_nil, or_false] at he
    rcases he with rfl | rfl | rfl
    · exact ⟨97, by decide, _, _, _, rfl, rfl, by decide⟩
    · exact ⟨98, by decide, _, _, _, rfl, rfl, by decide⟩
    · exact ⟨99, by decide, _, _, _, rfl, rfl, by decide⟩

end Verif.Props.SessionMore
