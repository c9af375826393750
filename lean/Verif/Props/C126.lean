import Verif.Model.Coordinator
import Verif.Lemmas.JoinNet
import Verif.Spec.DemoJoinNet
import Mathlib.Data.List.Induction
import Mathlib.Data.List.Perm.Subperm

set_option linter.unusedSectionVars false
set_option linter.unusedSimpArgs false

/-!
# C126 Joining again, or twice at once, for the same request
-/
namespace Verif.Props.Rejoin
open Verif.Go Verif.JoinParty Verif.Server Verif.Coordinator
open scoped List

variable {P A H L : Type} [DecidableEq P] [LinearOrder A] [LinearOrder H]
variable {env : Env P A H L}

/-! ## specification -/

/-- the messages for a message id that arrive in a history, in order -/
def arrivals (id : String) (h : List (Coordinator.Event P)) : List (Body P) := h.filterMap fun e => match e with
  | .arrive id' b => if id' = id then some b else none
  | _ => none

/-- the messages that a join call was given -/
def got (h : List (JoinParty.Event P)) : List (String × Body P) := h.filterMap fun e => match e with
  | .incoming id b => some (id, b)
  | _ => none

/-- the handlers that are on their way to the group of call `k` -/
def waiting (n : Coordinator.Node P) (k : Nat) : List (Body P) := (n.pending.filter fun x => x.1 = k).map Prod.snd

/-- the join call which a request begins with -/
def Begins (env : Env P A H L) (job : JoinNet.Job) (c0 : JoinCall P) : Prop :=
  joinParty env [] job.msgID job.version job.blockHeight job.keys job.threshold = .ok c0

/-! ## invariants -/

theorem run_snoc (h : List (Coordinator.Event P)) (e : Coordinator.Event P) :
    Coordinator.run env (h ++ [e]) = Coordinator.step env (Coordinator.run env h) e := by
  rw [Coordinator.run, List.foldl_append, List.foldl_cons, List.foldl_nil, ← Coordinator.run]

theorem arrivals_snoc (id : String) (h : List (Coordinator.Event P)) (e : Coordinator.Event P) :
    arrivals id (h ++ [e]) = arrivals id h ++ arrivals id [e] := by unfold arrivals; rw [List.filterMap_append]

theorem got_snoc (h : List (JoinParty.Event P)) (e : JoinParty.Event P) : got (h ++ [e]) = got h ++ got [e] := by
  unfold got; rw [List.filterMap_append]

theorem got_local {e : JoinParty.Event P} (h : JoinNet.isLocal e = true) : got [e] = [] := by
  cases e <;> first | rfl | cases h

/-- pulling an element out of a list by its position -/
theorem perm_eraseIdx {α : Type} (l : List α) (i : Nat) (x : α) (h : l[i]? = some x) : l ~ x :: l.eraseIdx i := by
  induction l generalizing i with
  | nil => simp at h
  | cons a l ih =>
    cases i with
    | zero => simp only [List.getElem?_cons_zero, Option.some.injEq] at h; subst h; simp
    | succ i =>
      simp only [List.getElem?_cons_succ] at h
      simp only [List.eraseIdx_cons_succ]
      exact ((ih i h).cons a).trans (List.Perm.swap x a _)

theorem waiting_erase {n : Coordinator.Node P} {i k : Nat} {b : Body P} (h : n.pending[i]? = some (k, b)) (j : Nat) :
    waiting n j ~ (if j = k then [b] else []) ++ ((n.pending.eraseIdx i).filter fun x => x.1 = j).map Prod.snd := by
  have h1 := ((perm_eraseIdx _ i _ h).filter fun x => x.1 = j).map Prod.snd
  unfold waiting
  by_cases hj : j = k
  · subst hj
    simpa using h1
  · have : ¬ k = j := fun h => hj h.symm
    simpa [hj, this] using h1

/-- what is known of call `k` of a node with history `h1 ++ begin :: h2` -/
structure Known (env : Env P A H L) (n : Coordinator.Node P) (h : List (Coordinator.Event P)) (k : Nat) (c : Coordinator.Call P) : Prop where
  split : ∃ h1 h2 c0, h = h1 ++ .begin_ c.job :: h2 ∧ (Coordinator.run env h1).calls.length = k ∧ Begins env c.job c0 ∧
    c.call = c.hist.foldl (JoinCall.step env) c0 ∧
    (got c.hist ++ (waiting n k).map fun b => (c.job.msgID, b)) <+~ (arrivals c.job.msgID h2).map fun b => (c.job.msgID, b)

theorem known_run (h : List (Coordinator.Event P)) :
    (∀ x ∈ (Coordinator.run env h).pending, x.1 < (Coordinator.run env h).calls.length) ∧
    (∀ id k, Map.get (Coordinator.run env h).groups id = some k → ∃ c, (Coordinator.run env h).calls[k]? = some c ∧ c.job.msgID = id) ∧
    ∀ k c, (Coordinator.run env h).calls[k]? = some c → Known env (Coordinator.run env h) h k c := by
  induction h using List.reverseRecOn with
  | nil =>
    refine ⟨?_, ?_, ?_⟩
    · intro x hx; cases hx
    · intro id k hk; cases hk
    · intro k c hk; simp [Coordinator.run] at hk
  | append_singleton h e ih =>
    rw [run_snoc]
    generalize hn : Coordinator.run env h = n at ih
    obtain ⟨hp, hg, hk⟩ := ih
    have same : ∀ (n' : Coordinator.Node P) k c, Known env n h k c → waiting n' k = waiting n k → Known env n' (h ++ [e]) k c := by
      rintro n' k c ⟨h1, h2, c0, rfl, a2, a3, a4, a5⟩ hw
      refine ⟨h1, h2 ++ [e], c0, by simp, a2, a3, a4, ?_⟩
      rw [hw, arrivals_snoc, List.map_append]
      exact a5.trans (List.sublist_append_left _ _).subperm
    cases e with
    | begin_ job =>
      simp only [Coordinator.step]
      split
      · rename_i c0 hc0
        refine ⟨?_, ?_, ?_⟩
        · intro x hx; have := hp x hx; simp only [List.length_append, List.length_singleton]; omega
        · intro id k hget
          dsimp only at hget ⊢
          rw [Map.get_set] at hget
          split at hget
          · rename_i hid
            cases hget
            exact ⟨⟨job, c0, []⟩, by simp, hid.symm⟩
          · obtain ⟨c, h1, h2⟩ := hg id k hget
            have hlt := (List.getElem?_eq_some_iff.1 h1).1
            exact ⟨c, by rw [List.getElem?_append_left hlt]; exact h1, h2⟩
        · intro k c hc
          dsimp only at hc
          by_cases hlt : k < n.calls.length
          · rw [List.getElem?_append_left hlt] at hc
            exact same _ k c (hk k c hc) rfl
          · have hke : k = n.calls.length := by
              have := (List.getElem?_eq_some_iff.1 hc).1
              simp at this; omega
            subst hke
            simp at hc
            subst hc
            refine ⟨h, [], c0, rfl, by rw [hn], hc0, rfl, ?_⟩
            have : waiting ({ n with calls := n.calls ++ [⟨job, c0, []⟩], groups := Map.set n.groups job.msgID n.calls.length } : Coordinator.Node P)
                n.calls.length = [] := by
              unfold waiting
              rw [List.map_eq_nil_iff, List.filter_eq_nil_iff]
              intro x hx
              have := hp x hx
              simp; omega
            rw [this]
            simp [got]
      · exact ⟨hp, hg, fun k c hc => same n k c (hk k c hc) rfl⟩
    | arrive id b =>
      simp only [Coordinator.step]
      split
      · exact ⟨hp, hg, fun k c hc => same n k c (hk k c hc) rfl⟩
      · rename_i k0 hk0
        obtain ⟨c0, hc0, hid0⟩ := hg id k0 hk0
        refine ⟨?_, hg, ?_⟩
        · intro x hx
          rcases List.mem_append.1 hx with hx | hx
          · exact hp x hx
          · rw [List.mem_singleton.1 hx]; exact (List.getElem?_eq_some_iff.1 hc0).1
        · intro k c hc
          dsimp only at hc
          by_cases hkk : k = k0
          · subst hkk
            rw [hc0] at hc
            cases hc
            obtain ⟨h1, h2, c1, rfl, a2, a3, a4, a5⟩ := hk k c0 hc0
            refine ⟨h1, h2 ++ [.arrive id b], c1, by simp, a2, a3, a4, ?_⟩
            have hw : waiting ({ n with pending := n.pending ++ [(k, b)] } : Coordinator.Node P) k = waiting n k ++ [b] := by
              unfold waiting; simp
            rw [hw, arrivals_snoc, List.map_append, List.map_append, ← List.append_assoc]
            have : arrivals c0.job.msgID [Coordinator.Event.arrive id b] = [b] := by simp [arrivals, hid0]
            rw [this]
            exact (List.subperm_append_right _).2 a5
          · refine same _ k c (hk k c hc) ?_
            unfold waiting
            have : ¬ k0 = k := fun h => hkk h.symm
            simp [this]
    | handle i =>
      simp only [Coordinator.step]
      split
      · exact ⟨hp, hg, fun k c hc => same n k c (hk k c hc) rfl⟩
      · rename_i k0 b hi
        have hlt := hp _ (List.mem_of_getElem? hi)
        dsimp only at hlt
        have hc0 : n.calls[k0]? = some n.calls[k0] := List.getElem?_eq_getElem hlt
        rw [hc0]
        dsimp only
        refine ⟨?_, ?_, ?_⟩
        · intro x hx
          rw [List.length_set]
          exact hp x (List.mem_of_mem_eraseIdx hx)
        · intro id k hget
          obtain ⟨c, h1, h2⟩ := hg id k hget
          by_cases hkk : k0 = k
          · subst hkk
            rw [hc0] at h1
            cases h1
            exact ⟨_, List.getElem?_set_self hlt, h2⟩
          · exact ⟨c, by rw [List.getElem?_set_ne hkk]; exact h1, h2⟩
        · intro k c hc
          have hw := waiting_erase hi k
          by_cases hkk : k0 = k
          · subst hkk
            rw [List.getElem?_set_self hlt] at hc
            simp only [Option.some.injEq] at hc
            obtain ⟨h1, h2, c1, rfl, a2, a3, a4, a5⟩ := hk k0 _ hc0
            subst hc
            refine ⟨h1, h2 ++ [.handle i], c1, by simp [Coordinator.Call.step], a2, a3, ?_, ?_⟩
            · simp only [Coordinator.Call.step]
              rw [List.foldl_append, List.foldl_cons, List.foldl_nil, ← a4]
            · simp only [Coordinator.Call.step]
              rw [got_snoc, arrivals_snoc]
              have e1 : arrivals n.calls[k0].job.msgID [Coordinator.Event.handle (P := P) i] = [] := rfl
              have e2 : got [JoinParty.Event.incoming n.calls[k0].job.msgID b] = [(n.calls[k0].job.msgID, b)] := rfl
              rw [e1, e2, List.append_nil, List.append_assoc]
              refine List.Perm.subperm ?_ |>.trans a5
              refine List.Perm.append_left _ ?_
              have := (hw.map fun b => (n.calls[k0].job.msgID, b)).symm
              simpa [waiting] using this
          · rw [List.getElem?_set_ne hkk] at hc
            obtain ⟨h1, h2, c1, rfl, a2, a3, a4, a5⟩ := hk k c hc
            refine ⟨h1, h2 ++ [.handle i], c1, by simp, a2, a3, a4, ?_⟩
            rw [arrivals_snoc]
            have e1 : arrivals c.job.msgID [Coordinator.Event.handle (P := P) i] = [] := rfl
            rw [e1, List.append_nil]
            refine List.Perm.subperm ?_ |>.trans a5
            refine List.Perm.append_left _ ?_
            have := (hw.map fun b => (c.job.msgID, b)).symm
            have hne : ¬ k = k0 := fun h => hkk h.symm
            simpa [waiting, hne] using this
    | act k0 e =>
      simp only [Coordinator.step]
      split
      · exact ⟨hp, hg, fun k c hc => same n k c (hk k c hc) rfl⟩
      · rename_i c0 hc0
        split
        · rename_i hloc
          have hlt := (List.getElem?_eq_some_iff.1 hc0).1
          dsimp only
          refine ⟨?_, ?_, ?_⟩
          · intro x hx
            rw [List.length_set]
            exact hp x hx
          · intro id k hget
            have hget' : Map.get n.groups id = some k := by
              split at hget
              · rw [Map.get_del] at hget
                split at hget
                · cases hget
                · exact hget
              · exact hget
            obtain ⟨c, h1, h2⟩ := hg id k hget'
            by_cases hkk : k0 = k
            · subst hkk
              rw [hc0] at h1
              cases h1
              exact ⟨_, List.getElem?_set_self hlt, h2⟩
            · exact ⟨c, by rw [List.getElem?_set_ne hkk]; exact h1, h2⟩
          · intro k c hc
            by_cases hkk : k0 = k
            · subst hkk
              rw [List.getElem?_set_self hlt] at hc
              simp only [Option.some.injEq] at hc
              obtain ⟨h1, h2, c1, rfl, a2, a3, a4, a5⟩ := hk k0 _ hc0
              subst hc
              refine ⟨h1, h2 ++ [.act k0 e], c1, by simp [Coordinator.Call.step], a2, a3, ?_, ?_⟩
              · simp only [Coordinator.Call.step]
                rw [List.foldl_append, List.foldl_cons, List.foldl_nil, ← a4]
              · simp only [Coordinator.Call.step]
                rw [got_snoc, arrivals_snoc, got_local hloc]
                have e1 : arrivals c0.job.msgID [Coordinator.Event.act (P := P) k0 e] = [] := rfl
                rw [e1, List.append_nil, List.append_nil]
                exact a5
            · rw [List.getElem?_set_ne hkk] at hc
              exact same _ k c (hk k c hc) rfl
        · exact ⟨hp, hg, fun k c hc => same n k c (hk k c hc) rfl⟩

/-! ## the theorems about one node -/

/-- C126, what holds of every call: however many join calls a node makes, one after the other or at the same time, for the same request or for others,
each of them is a join call as it would be alone, given some of the messages that arrived for its message id after it had begun, each at most once
and no others. Therefore what is proved of a single join call (C19 to C23) holds of each of them, for the messages it was given.

Missing: that it is given all of them, see `c126_alone_partial` and the counterexamples. -/
theorem c126_each_call_partial (h : List (Coordinator.Event P)) (k : Nat) (c : Coordinator.Call P) (hc : (Coordinator.run env h).calls[k]? = some c) :
    ∃ h1 h2 c0, h = h1 ++ .begin_ c.job :: h2 ∧ (Coordinator.run env h1).calls.length = k ∧ Begins env c.job c0 ∧
      c.call = c.hist.foldl (JoinCall.step env) c0 ∧ got c.hist <+~ (arrivals c.job.msgID h2).map fun b => (c.job.msgID, b) := by
  obtain ⟨h1, h2, c0, a1, a2, a3, a4, a5⟩ := (known_run (env := env) h).2.2 k c hc
  exact ⟨h1, h2, c0, a1, a2, a3, a4, (List.sublist_append_left _ _).subperm.trans a5⟩

/-- is the call one that removes the group of its message id when it returns, and has it not returned yet? -/
def WillRemove (c : Coordinator.Call P) : Prop := removes c.call.kind = true ∧ c.call.st.result = none

theorem step_some (env : Env P A H L) (c : JoinCall P) (e : JoinParty.Event P) (hk : removes c.kind = true) (h : c.st.result ≠ none) :
    (c.step env e).st.result ≠ none := by
  obtain ⟨k, l, i, st⟩ := c
  cases k with
  | leader t => cases hk
  | member t => cases hk
  | leaderless n =>
    simp only [JoinCall.step] at h ⊢
    cases e <;> simp only [retryStep] <;> repeat' split
    all_goals first
      | exact h
      | simp

theorem incoming_none (env : Env P A H L) (c : JoinCall P) (id : String) (b : Body P) : (c.step env (.incoming id b)).st.result = c.st.result := by
  obtain ⟨k, l, i, st⟩ := c
  cases k <;> rfl

/-- C126, a call that is alone: if no other call for its message id begins after it, and no leaderless call for it was still running when it began, then
until it returns (and if it is not leaderless, also later) the group of its message id is its own: every message that arrives for it is given to it, or a
handler is about to do so. -/
theorem c126_alone_partial (h1 h2 : List (Coordinator.Event P)) (job : JoinNet.Job) (c0 : JoinCall P) (hb : Begins env job c0)
    (ho : ∀ c ∈ (Coordinator.run env h1).calls, c.job.msgID = job.msgID → ¬ WillRemove c)
    (hn : ∀ job', .begin_ job' ∈ h2 → job'.msgID ≠ job.msgID) :
    let n := Coordinator.run env (h1 ++ .begin_ job :: h2)
    let k := (Coordinator.run env h1).calls.length
    ∃ c, n.calls[k]? = some c ∧ c.job = job ∧
      (removes c.call.kind = false ∨ c.call.st.result = none →
        Map.get n.groups job.msgID = some k ∧
        (got c.hist ++ (waiting n k).map fun b => (job.msgID, b)) ~ (arrivals job.msgID h2).map fun b => (job.msgID, b)) := by
  intro n k
  suffices hs : (∀ j c', n.calls[j]? = some c' → j ≠ k → c'.job.msgID = job.msgID → ¬ WillRemove c') ∧ ∃ c, n.calls[k]? = some c ∧ c.job = job ∧
      (removes c.call.kind = false ∨ c.call.st.result = none →
        Map.get n.groups job.msgID = some k ∧
        (got c.hist ++ (waiting n k).map fun b => (job.msgID, b)) ~ (arrivals job.msgID h2).map fun b => (job.msgID, b)) from hs.2
  induction h2 using List.reverseRecOn with
  | nil =>
    have hrun : n = Coordinator.step env (Coordinator.run env h1) (.begin_ job) := by
      show Coordinator.run env (h1 ++ [Coordinator.Event.begin_ job]) = _
      rw [run_snoc]
    have hst : Coordinator.step env (Coordinator.run env h1) (.begin_ job) =
        { Coordinator.run env h1 with
          calls := (Coordinator.run env h1).calls ++ [⟨job, c0, []⟩]
          groups := Map.set (Coordinator.run env h1).groups job.msgID (Coordinator.run env h1).calls.length } := by
      unfold Coordinator.step
      dsimp only
      unfold Begins at hb
      rw [hb]
    rw [hrun, hst]
    refine ⟨?_, ⟨job, c0, []⟩, by simp [k], rfl, fun _ => ⟨by simp [k], ?_⟩⟩
    · intro j c' hj hjk hid
      dsimp only at hj
      have hlt : j < (Coordinator.run env h1).calls.length := by
        have := (List.getElem?_eq_some_iff.1 hj).1
        simp at this
        simp only [k] at hjk
        omega
      rw [List.getElem?_append_left hlt] at hj
      exact ho c' (List.mem_of_getElem? hj) hid
    · have : waiting ({ Coordinator.run env h1 with
          calls := (Coordinator.run env h1).calls ++ [⟨job, c0, []⟩]
          groups := Map.set (Coordinator.run env h1).groups job.msgID (Coordinator.run env h1).calls.length } : Coordinator.Node P) k = [] := by
        unfold waiting
        rw [List.map_eq_nil_iff, List.filter_eq_nil_iff]
        intro x hx
        have := (known_run (env := env) h1).1 x hx
        simp [k]; omega
      rw [this]
      simp [got, arrivals]
  | append_singleton h2 e ih =>
    obtain ⟨hA, c, hc, hj, hB⟩ := ih (fun job' hm => hn job' (by simp [hm]))
    have hrun : n = Coordinator.step env (Coordinator.run env (h1 ++ .begin_ job :: h2)) e := by
      rw [← run_snoc]
      simp [n]
    have hne : ∀ job', e = .begin_ job' → job'.msgID ≠ job.msgID := fun job' he => hn job' (by simp [he])
    have hpend := (known_run (env := env) (h1 ++ .begin_ job :: h2)).1
    have hgr := (known_run (env := env) (h1 ++ .begin_ job :: h2)).2.1
    rw [hrun, arrivals_snoc]
    clear hrun ho hn
    generalize Coordinator.run env (h1 ++ .begin_ job :: h2) = m at hA hc hB hpend hgr
    have hkl : k < m.calls.length := (List.getElem?_eq_some_iff.1 hc).1
    cases e with
    | begin_ job' =>
      have hid := hne job' rfl
      have e1 : arrivals job.msgID [Coordinator.Event.begin_ (P := P) job'] = [] := rfl
      rw [e1, List.append_nil]
      simp only [Coordinator.step]
      split
      · rename_i c1 hc1
        refine ⟨?_, c, by dsimp only; rw [List.getElem?_append_left hkl]; exact hc, hj, fun hx => ?_⟩
        · intro j c' hj' hjk hid'
          dsimp only at hj'
          by_cases hlt : j < m.calls.length
          · rw [List.getElem?_append_left hlt] at hj'
            exact hA j c' hj' hjk hid'
          · have : j = m.calls.length := by
              have := (List.getElem?_eq_some_iff.1 hj').1
              simp at this; omega
            subst this
            simp at hj'
            subst hj'
            exact absurd hid' hid
        · obtain ⟨b1, b2⟩ := hB hx
          exact ⟨by dsimp only; rw [Map.get_set_ne _ _ (Ne.symm hid)]; exact b1, b2⟩
      · exact ⟨hA, c, hc, hj, hB⟩
    | arrive id b =>
      simp only [Coordinator.step]
      by_cases hid : id = job.msgID
      · subst hid
        have e1 : arrivals job.msgID [Coordinator.Event.arrive job.msgID b] = [b] := by simp [arrivals]
        rw [e1]
        refine ⟨?_, c, ?_, hj, fun hx => ?_⟩
        · intro j c' hj'; split at hj' <;> exact hA j c' hj'
        · split <;> exact hc
        · obtain ⟨b1, b2⟩ := hB hx
          rw [b1]
          dsimp only
          refine ⟨b1, ?_⟩
          have hw : waiting ({ m with pending := m.pending ++ [(k, b)] } : Coordinator.Node P) k = waiting m k ++ [b] := by
            unfold waiting; simp
          rw [hw, List.map_append, List.map_append, ← List.append_assoc]
          exact b2.append_right _
      · have e1 : arrivals job.msgID [Coordinator.Event.arrive id b] = [] := by simp [arrivals, hid]
        rw [e1, List.append_nil]
        split
        · exact ⟨hA, c, hc, hj, hB⟩
        · rename_i k' hk'
          refine ⟨hA, c, hc, hj, fun hx => ?_⟩
          obtain ⟨b1, b2⟩ := hB hx
          refine ⟨b1, ?_⟩
          have hkk : ¬ k' = k := by
            rintro rfl
            obtain ⟨c2, g1, g2⟩ := hgr id k hk'
            rw [hc] at g1
            cases g1
            exact hid (by rw [← g2, hj])
          have hw : waiting ({ m with pending := m.pending ++ [(k', b)] } : Coordinator.Node P) k = waiting m k := by
            unfold waiting; simp [hkk]
          rw [hw]
          exact b2
    | handle i =>
      have e1 : arrivals job.msgID [Coordinator.Event.handle (P := P) i] = [] := rfl
      rw [e1, List.append_nil]
      simp only [Coordinator.step]
      split
      · exact ⟨hA, c, hc, hj, hB⟩
      · rename_i k0 b hi
        have hlt := hpend _ (List.mem_of_getElem? hi)
        dsimp only at hlt
        have hc0 : m.calls[k0]? = some m.calls[k0] := List.getElem?_eq_getElem hlt
        rw [hc0]
        dsimp only
        have hw := waiting_erase hi k
        refine ⟨?_, ?_⟩
        · intro j c' hj' hjk hid'
          by_cases hkk : k0 = j
          · subst hkk
            rw [List.getElem?_set_self hlt] at hj'
            simp only [Option.some.injEq] at hj'
            subst hj'
            have := hA k0 _ hc0 hjk hid'
            rintro ⟨w1, w2⟩
            refine this ⟨w1, ?_⟩
            simp only [Coordinator.Call.step, incoming_none] at w2
            exact w2
          · rw [List.getElem?_set_ne hkk] at hj'
            exact hA j c' hj' hjk hid'
        · by_cases hkk : k0 = k
          · subst hkk
            rw [hc] at hc0
            simp only [Option.some.injEq] at hc0
            rw [← hc0]
            refine ⟨_, List.getElem?_set_self hlt, hj, fun hx => ?_⟩
            simp only [Coordinator.Call.step, incoming_none] at hx
            obtain ⟨b1, b2⟩ := hB hx
            refine ⟨b1, List.Perm.trans ?_ b2⟩
            simp only [Coordinator.Call.step]
            rw [got_snoc, hj]
            have e2 : got [JoinParty.Event.incoming job.msgID b] = [(job.msgID, b)] := rfl
            rw [e2, List.append_assoc]
            refine List.Perm.append_left _ ?_
            have := (hw.map fun b => (job.msgID, b)).symm
            simpa [waiting] using this
          · refine ⟨c, by rw [List.getElem?_set_ne hkk]; exact hc, hj, fun hx => ?_⟩
            obtain ⟨b1, b2⟩ := hB hx
            refine ⟨b1, List.Perm.trans ?_ b2⟩
            refine List.Perm.append_left _ ?_
            have := (hw.map fun b => (job.msgID, b)).symm
            have hne : ¬ k = k0 := fun h => hkk h.symm
            simpa [waiting, hne] using this
    | act k0 e =>
      have e1 : arrivals job.msgID [Coordinator.Event.act (P := P) k0 e] = [] := rfl
      rw [e1, List.append_nil]
      simp only [Coordinator.step]
      split
      · exact ⟨hA, c, hc, hj, hB⟩
      · rename_i c0' hc0
        have hlt := (List.getElem?_eq_some_iff.1 hc0).1
        split
        · rename_i hloc
          dsimp only
          refine ⟨?_, ?_⟩
          · intro j c' hj' hjk hid'
            by_cases hkk : k0 = j
            · subst hkk
              rw [List.getElem?_set_self hlt] at hj'
              simp only [Option.some.injEq] at hj'
              subst hj'
              have := hA k0 _ hc0 hjk hid'
              rintro ⟨w1, w2⟩
              by_cases hr : c0'.call.st.result = none
              · exact this ⟨w1, hr⟩
              · exact step_some env c0'.call e w1 hr w2
            · rw [List.getElem?_set_ne hkk] at hj'
              exact hA j c' hj' hjk hid'
          · by_cases hkk : k0 = k
            · subst hkk
              rw [hc] at hc0
              simp only [Option.some.injEq] at hc0
              subst hc0
              refine ⟨_, List.getElem?_set_self hlt, hj, fun hx => ?_⟩
              have hx' : removes c.call.kind = false ∨ c.call.st.result = none := by
                rcases hx with hx | hx
                · exact Or.inl hx
                · by_cases hr : removes c.call.kind = true
                  · right
                    by_contra hne
                    exact step_some env c.call e hr hne hx
                  · exact Or.inl (by simpa using hr)
              obtain ⟨b1, b2⟩ := hB hx'
              refine ⟨?_, ?_⟩
              · rw [if_neg]
                · exact b1
                · rintro ⟨r1, r2, r3⟩
                  rcases hx with hx | hx
                  · have : removes c.call.kind = false := hx
                    rw [this] at r1; cases r1
                  · rw [hx] at r3; cases r3
              · simp only [Coordinator.Call.step]
                rw [got_snoc, got_local hloc, List.append_nil]
                exact b2
            · refine ⟨c, by rw [List.getElem?_set_ne hkk]; exact hc, hj, fun hx => ?_⟩
              obtain ⟨b1, b2⟩ := hB hx
              refine ⟨?_, b2⟩
              split
              · rename_i hrem
                obtain ⟨r1, r2, r3⟩ := hrem
                have hid : c0'.job.msgID ≠ job.msgID := by
                  intro hid
                  exact hA k0 c0' hc0 hkk hid ⟨r1, by simpa using r2⟩
                rw [Map.get_del_ne _ (Ne.symm hid)]
                exact b1
              · exact b1
        · exact ⟨hA, c, hc, hj, hB⟩

/-! ## several nodes -/

variable {envs : P → Env P A H L} {honest : P → Bool}

/-- node `l` has announced the verdict `r` for the message id, in one of its calls -/
def Announced (n : Coordinator.Net P) (l : P) (id : String) (r : Resp) : Prop :=
  ∃ c ∈ (n.nodes l).calls, c.job.msgID = id ∧ c.call.st.sent = some r

theorem netRun_snoc (h : List (Coordinator.NetEvent P)) (e : Coordinator.NetEvent P) :
    Coordinator.netRun envs honest (h ++ [e]) = Coordinator.netStep envs honest (Coordinator.netRun envs honest h) e := by
  rw [Coordinator.netRun, List.foldl_append, List.foldl_cons, List.foldl_nil, ← Coordinator.netRun]

/-- what an event does to a node: nothing, or one event of it -/
theorem netStep_node (n : Coordinator.Net P) (e : Coordinator.NetEvent P) (q : P) :
    (Coordinator.netStep envs honest n e).nodes q = n.nodes q ∨
    ∃ e', (Coordinator.netStep envs honest n e).nodes q = Coordinator.step (envs q) (n.nodes q) e' := by
  have upd : ∀ (q' : P) (e' : Coordinator.Event P), n.update q' (Coordinator.step (envs q') (n.nodes q') e') q = n.nodes q ∨
      ∃ e'', n.update q' (Coordinator.step (envs q') (n.nodes q') e') q = Coordinator.step (envs q) (n.nodes q) e'' := by
    intro q' e'
    unfold Net.update
    by_cases hq : q = q'
    · subst hq; right; exact ⟨e', by simp⟩
    · left; simp [hq]
  cases e with
  | at_ q' e' =>
    simp only [Coordinator.netStep]
    split
    · exact upd q' e'
    · exact Or.inl rfl
  | ask q' k p =>
    simp only [Coordinator.netStep]
    repeat' split
    all_goals exact Or.inl rfl
  | deliver i =>
    simp only [Coordinator.netStep]
    split
    · exact Or.inl rfl
    · rename_i q' id b hi
      split
      · exact upd q' _
      · exact Or.inl rfl
  | foreign q' id b =>
    simp only [Coordinator.netStep]
    split
    · exact upd q' _
    · exact Or.inl rfl

theorem net_is_run (h : List (Coordinator.NetEvent P)) (q : P) :
    ∃ hq, (Coordinator.netRun envs honest h).nodes q = Coordinator.run (envs q) hq := by
  induction h using List.reverseRecOn with
  | nil => exact ⟨[], rfl⟩
  | append_singleton h e ih =>
    rw [netRun_snoc]
    obtain ⟨hq, hr⟩ := ih
    rcases netStep_node (envs := envs) (honest := honest) (Coordinator.netRun envs honest h) e q with h1 | ⟨e', h1⟩
    · exact ⟨hq, h1.trans hr⟩
    · exact ⟨hq ++ [e'], by rw [h1, hr, run_snoc]⟩

theorem verdict_of_run (h : List (Coordinator.Event P)) (c : Coordinator.Call P) (hc : c ∈ (Coordinator.run env h).calls) : JoinNet.VerdictInv c.call := by
  obtain ⟨k, hk⟩ := List.getElem?_of_mem hc
  obtain ⟨h1, h2, c0, -, -, a3, a4, -⟩ := (known_run (env := env) h).2.2 k c hk
  rw [a4]
  exact JoinNet.fold_verdict env _ c0 (fun hs => absurd (JoinNet.joinParty_start a3).1 hs)

/-- a call of a node after an event -/
theorem call_step (n : Coordinator.Node P) (e : Coordinator.Event P) (c : Coordinator.Call P) (hc : c ∈ n.calls) :
    c ∈ (Coordinator.step env n e).calls ∨ ∃ e', c.step env e' ∈ (Coordinator.step env n e).calls := by
  have setc : ∀ k (c0 : Coordinator.Call P) e', n.calls[k]? = some c0 → c ∈ n.calls.set k (c0.step env e') ∨ ∃ e'', c.step env e'' ∈ n.calls.set k (c0.step env e') := by
    intro k c0 e' hk
    obtain ⟨j, hj⟩ := List.getElem?_of_mem hc
    by_cases hkj : k = j
    · subst hkj
      rw [hk] at hj
      cases hj
      exact Or.inr ⟨e', List.mem_of_getElem? (List.getElem?_set_self (List.getElem?_eq_some_iff.1 hk).1)⟩
    · exact Or.inl (List.mem_of_getElem? (by rw [List.getElem?_set_ne hkj]; exact hj))
  cases e with
  | begin_ job =>
    simp only [Coordinator.step]
    split
    · exact Or.inl (List.mem_append_left _ hc)
    · exact Or.inl hc
  | arrive id b => simp only [Coordinator.step]; split <;> exact Or.inl hc
  | handle i =>
    simp only [Coordinator.step]
    split
    · exact Or.inl hc
    · dsimp only
      split
      · exact Or.inl hc
      · rename_i hk
        exact setc _ _ _ hk
  | act k e =>
    simp only [Coordinator.step]
    split
    · exact Or.inl hc
    · rename_i hk
      split
      · exact setc _ _ _ hk
      · exact Or.inl hc

theorem announced_step (h : List (Coordinator.NetEvent P)) (e : Coordinator.NetEvent P) {l : P} {id : String} {r : Resp}
    (ha : Announced (Coordinator.netRun envs honest h) l id r) : Announced (Coordinator.netRun envs honest (h ++ [e])) l id r := by
  rw [netRun_snoc]
  obtain ⟨c, hc, h1, h2⟩ := ha
  rcases netStep_node (envs := envs) (honest := honest) (Coordinator.netRun envs honest h) e l with hs | ⟨e', hs⟩
  · exact ⟨c, by rw [hs]; exact hc, h1, h2⟩
  · obtain ⟨hq, hr⟩ := net_is_run (envs := envs) (honest := honest) h l
    rcases call_step (env := envs l) _ e' c hc with h3 | ⟨e'', h3⟩
    · exact ⟨c, by rw [hs]; exact h3, h1, h2⟩
    · refine ⟨c.step (envs l) e'', by rw [hs]; exact h3, h1, ?_⟩
      have hv := verdict_of_run (env := envs l) hq c (by rw [← hr]; exact hc)
      rw [← h2]
      exact (JoinNet.step_verdict (envs l) c.call e'' hv).2 (by rw [h2]; simp)

theorem pool_verdicts (q : P) (n : Coordinator.Node P) (e : Coordinator.Event P) (x : P × P × String × Body P)
    (hx : x ∈ verdicts (envs q) q n (Coordinator.step (envs q) n e) e) :
    ∃ c' ∈ (Coordinator.step (envs q) n e).calls, ∃ r, c'.call.st.sent = some r ∧ x.2.2 = (c'.job.msgID, .response q r) := by
  cases e with
  | act k e =>
    unfold verdicts at hx
    dsimp only at hx
    split at hx
    · rename_i c c' hc hc'
      split at hx
      · rename_i r hr1 hr2
        obtain ⟨p, -, rfl⟩ := List.mem_map.1 hx
        refine ⟨c', List.mem_of_getElem? hc', r, hr2, ?_⟩
        have : c'.job = c.job := by
          simp only [Coordinator.step] at hc'
          rw [hc] at hc'
          dsimp only at hc'
          split at hc'
          · rw [List.getElem?_set_self (List.getElem?_eq_some_iff.1 hc).1] at hc'
            cases hc'; rfl
          · rw [hc] at hc'; cases hc'; rfl
        rw [this]
      · cases hx
    · cases hx
  | begin_ job => cases hx
  | arrive id b => cases hx
  | handle i => cases hx

/-- everything an honest node was told in the name of an honest one has been announced by that one -/
theorem told (h : List (Coordinator.NetEvent P)) :
    (∀ x ∈ (Coordinator.netRun envs honest h).pool, ∀ p r, x.2.2.2 = .response p r → Announced (Coordinator.netRun envs honest h) p x.2.2.1 r) ∧
    ∀ q, ∃ hq, (Coordinator.netRun envs honest h).nodes q = Coordinator.run (envs q) hq ∧
      ∀ id p r, .arrive id (.response p r) ∈ hq → honest p = true → Announced (Coordinator.netRun envs honest h) p id r := by
  induction h using List.reverseRecOn with
  | nil =>
    refine ⟨?_, fun q => ⟨[], rfl, ?_⟩⟩
    · intro x hx; cases hx
    · intro id p r hx; cases hx
  | append_singleton h e ih =>
    obtain ⟨hpool, hnode⟩ := ih
    have mono := fun {l id r} => announced_step (envs := envs) (honest := honest) h e (l := l) (id := id) (r := r)
    have keep : ∀ q, (Coordinator.netRun envs honest (h ++ [e])).nodes q = (Coordinator.netRun envs honest h).nodes q →
        ∃ hq, (Coordinator.netRun envs honest (h ++ [e])).nodes q = Coordinator.run (envs q) hq ∧
          ∀ id p r, .arrive id (.response p r) ∈ hq → honest p = true → Announced (Coordinator.netRun envs honest (h ++ [e])) p id r := by
      intro q hq
      obtain ⟨hq', h1, h2⟩ := hnode q
      exact ⟨hq', hq.trans h1, fun id p r hm hp => mono (h2 id p r hm hp)⟩
    have go : ∀ q e', (Coordinator.netRun envs honest (h ++ [e])).nodes q = Coordinator.step (envs q) ((Coordinator.netRun envs honest h).nodes q) e' →
        (∀ id p r, e' = .arrive id (.response p r) → honest p = true → Announced (Coordinator.netRun envs honest (h ++ [e])) p id r) →
        ∃ hq, (Coordinator.netRun envs honest (h ++ [e])).nodes q = Coordinator.run (envs q) hq ∧
          ∀ id p r, .arrive id (.response p r) ∈ hq → honest p = true → Announced (Coordinator.netRun envs honest (h ++ [e])) p id r := by
      intro q e' hs he
      obtain ⟨hq', h1, h2⟩ := hnode q
      refine ⟨hq' ++ [e'], by rw [hs, h1, run_snoc], ?_⟩
      intro id p r hm hp
      rcases List.mem_append.1 hm with hm | hm
      · exact mono (h2 id p r hm hp)
      · exact he id p r (List.mem_singleton.1 hm).symm hp
    rw [netRun_snoc] at mono keep go ⊢
    cases e with
    | at_ q' e' =>
      by_cases hq : honest q' = true ∧ isArrival e' = false
      · have hst : Coordinator.netStep envs honest (Coordinator.netRun envs honest h) (.at_ q' e') =
            ⟨(Coordinator.netRun envs honest h).update q' (Coordinator.step (envs q') ((Coordinator.netRun envs honest h).nodes q') e'),
              (Coordinator.netRun envs honest h).pool ++ verdicts (envs q') q' ((Coordinator.netRun envs honest h).nodes q')
                (Coordinator.step (envs q') ((Coordinator.netRun envs honest h).nodes q') e') e'⟩ := by
          simp only [Coordinator.netStep]; rw [if_pos hq]
        refine ⟨?_, ?_⟩
        · intro x hx p r hb
          rw [hst] at hx
          rcases List.mem_append.1 hx with hx | hx
          · exact mono (hpool x hx p r hb)
          · obtain ⟨c', hc', r', h1, h2⟩ := pool_verdicts q' _ e' x hx
            rw [h2] at hb ⊢
            cases hb
            refine ⟨c', ?_, rfl, h1⟩
            rw [hst]
            simp [Net.update, hc']
        · intro q
          by_cases hqq : q = q'
          · subst hqq
            refine go q e' (by rw [hst]; simp [Net.update]) ?_
            rintro id p r rfl
            exact absurd hq.2 (by simp [isArrival])
          · exact keep q (by rw [hst]; simp [Net.update, hqq])
      · have hst : Coordinator.netStep envs honest (Coordinator.netRun envs honest h) (.at_ q' e') = Coordinator.netRun envs honest h := by
          simp only [Coordinator.netStep]; rw [if_neg hq]
        exact ⟨fun x hx p r hb => mono (hpool x (by rw [hst] at hx; exact hx) p r hb), fun q => keep q (by rw [hst])⟩
    | ask q' k p' =>
      have hn : (Coordinator.netStep envs honest (Coordinator.netRun envs honest h) (.ask q' k p')).nodes = (Coordinator.netRun envs honest h).nodes := by
        simp only [Coordinator.netStep]; repeat' split
        all_goals rfl
      have hp : ∀ x ∈ (Coordinator.netStep envs honest (Coordinator.netRun envs honest h) (.ask q' k p')).pool,
          x ∈ (Coordinator.netRun envs honest h).pool ∨ ∀ p r, x.2.2.2 ≠ .response p r := by
        intro x hx
        simp only [Coordinator.netStep] at hx
        split at hx
        · split at hx
          · exact Or.inl hx
          · split at hx
            · exact Or.inl hx
            · rename_i b hb
              rcases List.mem_append.1 hx with hx | hx
              · exact Or.inl hx
              · right
                rw [List.mem_singleton.1 hx]
                intro p r hbr
                dsimp only at hbr
                subst hbr
                unfold asks at hb
                repeat' split at hb
                all_goals cases hb
        · exact Or.inl hx
      refine ⟨?_, fun q => keep q (by rw [hn])⟩
      intro x hx p r hb
      rcases hp x hx with hx | hx
      · exact mono (hpool x hx p r hb)
      · exact absurd hb (hx p r)
    | deliver i =>
      rcases hi : (Coordinator.netRun envs honest h).pool[i]? with _ | ⟨s, q', id', b⟩
      · have hst : Coordinator.netStep envs honest (Coordinator.netRun envs honest h) (.deliver i) = Coordinator.netRun envs honest h := by
          simp only [Coordinator.netStep, hi]
        exact ⟨fun x hx p r hb => mono (hpool x (by rw [hst] at hx; exact hx) p r hb), fun q => keep q (by rw [hst])⟩
      · by_cases hq : honest q' = true
        · have hst : Coordinator.netStep envs honest (Coordinator.netRun envs honest h) (.deliver i) =
              ⟨(Coordinator.netRun envs honest h).update q' (Coordinator.step (envs q') ((Coordinator.netRun envs honest h).nodes q') (.arrive id' b)),
                (Coordinator.netRun envs honest h).pool.eraseIdx i⟩ := by
            simp only [Coordinator.netStep, hi]; rw [if_pos hq]
          refine ⟨fun x hx p r hb => mono (hpool x (List.mem_of_mem_eraseIdx (by rw [hst] at hx; exact hx)) p r hb), fun q => ?_⟩
          by_cases hqq : q = q'
          · subst hqq
            refine go q (.arrive id' b) (by rw [hst]; simp [Net.update]) ?_
            intro id p r he hp
            cases he
            exact mono (hpool _ (List.mem_of_getElem? hi) p r rfl)
          · exact keep q (by rw [hst]; simp [Net.update, hqq])
        · have hst : Coordinator.netStep envs honest (Coordinator.netRun envs honest h) (.deliver i) =
              { Coordinator.netRun envs honest h with pool := (Coordinator.netRun envs honest h).pool.eraseIdx i } := by
            simp only [Coordinator.netStep, hi]; rw [if_neg hq]
          exact ⟨fun x hx p r hb => mono (hpool x (List.mem_of_mem_eraseIdx (by rw [hst] at hx; exact hx)) p r hb), fun q => keep q (by rw [hst])⟩
    | foreign q' id' b =>
      by_cases hq : honest (writer b) = false ∧ honest q' = true
      · have hst : Coordinator.netStep envs honest (Coordinator.netRun envs honest h) (.foreign q' id' b) =
            { Coordinator.netRun envs honest h with nodes :=
              (Coordinator.netRun envs honest h).update q' (Coordinator.step (envs q') ((Coordinator.netRun envs honest h).nodes q') (.arrive id' b)) } := by
          simp only [Coordinator.netStep]; rw [if_pos hq]
        refine ⟨fun x hx p r hb => mono (hpool x (by rw [hst] at hx; exact hx) p r hb), fun q => ?_⟩
        by_cases hqq : q = q'
        · subst hqq
          refine go q (.arrive id' b) (by rw [hst]; simp [Net.update]) ?_
          intro id p r he hp
          cases he
          have := hq.1
          simp only [writer] at this
          rw [this] at hp; cases hp
        · exact keep q (by rw [hst]; simp [Net.update, hqq])
      · have hst : Coordinator.netStep envs honest (Coordinator.netRun envs honest h) (.foreign q' id' b) = Coordinator.netRun envs honest h := by
          simp only [Coordinator.netStep]; rw [if_neg hq]
        exact ⟨fun x hx p r hb => mono (hpool x (by rw [hst] at hx; exact hx) p r hb), fun q => keep q (by rw [hst])⟩

theorem begins_member {job : JoinNet.Job} {c0 : JoinCall P} {t : Int} (hb : Begins env job c0) (hk : c0.kind = .member t) :
    ∃ gs, createJoinPartyGroups env.peers env.me [] job.msgID c0.leader [c0.leader] t = .ok gs ∧ c0 = ⟨.member t, c0.leader, job.msgID, JoinParty.start gs⟩ := by
  unfold Begins joinParty at hb
  repeat' split at hb
  all_goals first
    | cases hb
    | (obtain ⟨gs, h1, rfl⟩ := startJoin_ok hb
       cases hk <;> exact ⟨gs, h1, rfl⟩)

theorem answers_got (cd : PeerCodec P) (id leader : String) (h : List (JoinParty.Event P)) (a : Resp) (ha : a ∈ answers cd id leader h) :
    ∃ p, cd.str p = leader ∧ (id, Body.response p a) ∈ got h := by
  induction h with
  | nil => cases ha
  | cons e h ih =>
    have ht : a ∈ answers cd id leader h → ∃ p, cd.str p = leader ∧ (id, Body.response p a) ∈ got (e :: h) := by
      intro ha
      obtain ⟨p, h1, h2⟩ := ih ha
      refine ⟨p, h1, ?_⟩
      unfold got at h2 ⊢
      rw [List.filterMap_cons]
      split
      · exact h2
      · exact List.mem_cons_of_mem _ h2
    cases e with
    | incoming id' b =>
      cases b with
      | response p r =>
        simp only [answers] at ha
        split at ha
        · rename_i hx
          obtain ⟨rfl, hs⟩ := hx
          rcases List.mem_cons.1 ha with rfl | ha
          · exact ⟨p, hs, by simp [got]⟩
          · exact ht ha
        · exact ht ha
      | leaderless p => exact ht ha
      | request p => exact ht ha
    | other id' g => exact ht ha
    | wake σ => exact ht ha
    | timeout => exact ht ha
    | sig s => exact ht ha
    | step σ => exact ht ha

/-- C126, the answer of an honest leader: a member's call that returns a party without error returns one which the leader announced for the same message id,
in one of its calls, and the leader announced a success for this message id.

Missing: that it was announced in the call that goes with this one, and as a success, see `c126_old_party` and `c126_mixed`. -/
theorem c126_announced_partial (hl : ∀ q, Verif.Spec.Server.LawfulPeers (envs q).peers) (h : List (Coordinator.NetEvent P))
    (q l : P) (hh : honest l = true) (c : Coordinator.Call P) (hc : c ∈ ((Coordinator.netRun envs honest h).nodes q).calls) (t : Int)
    (hk : c.call.kind = .member t) (hlead : c.call.leader = (envs q).peers.str l) (party : List P) (hr : c.call.st.result = some ⟨party, none⟩) :
    t ≤ (party.length : Int) ∧
    (∃ a, Announced (Coordinator.netRun envs honest h) l c.job.msgID a ∧ getPeerIDs (envs q).peers a.peerIDs = .ok party) ∧
    ∃ b, Announced (Coordinator.netRun envs honest h) l c.job.msgID b ∧ b.typ = .success := by
  obtain ⟨hq, hrun, htold⟩ := (told (envs := envs) (honest := honest) h).2 q
  rw [hrun] at hc
  obtain ⟨k, hck⟩ := List.getElem?_of_mem hc
  obtain ⟨h1, h2, c0, rfl, -, a3, a4, a5⟩ := c126_each_call_partial (env := envs q) hq k c hck
  obtain ⟨f1, f2, f3⟩ := JoinNet.fold_kind (envs q) c.hist c0
  rw [← a4] at f1 f2 f3
  obtain ⟨gs, g1, g2⟩ := begins_member a3 (f1.symm.trans hk)
  rw [g2, fold_member] at a4
  have hres : (runMember (envs q).peers t c.job.msgID gs c.hist).result = some ⟨party, none⟩ := by
    rw [a4] at hr; exact hr
  have hfrom : ∀ a ∈ answers (envs q).peers c.job.msgID c0.leader c.hist, Announced (Coordinator.netRun envs honest h) l c.job.msgID a := by
    intro a ha
    obtain ⟨p, hp, hg⟩ := answers_got _ _ _ _ _ ha
    have hpl : p = l := by
      rw [← f2, hlead] at hp
      have e1 := (hl q).decode_str p
      rw [hp, (hl q).decode_str l] at e1
      cases e1; rfl
    subst hpl
    obtain ⟨b, hb, hbe⟩ := List.mem_map.1 (a5.subset hg)
    cases hbe
    unfold arrivals at hb
    obtain ⟨e, he, heb⟩ := List.mem_filterMap.1 hb
    cases e with
    | arrive id b =>
      dsimp only at heb
      split at heb
      · rename_i hid
        cases heb
        subst hid
        exact htold _ _ _ (by simp [he]) hh
      · cases heb
    | begin_ job => cases heb
    | handle i => cases heb
    | act k e => cases heb
  rcases Verif.Props.Join.c21_member_outcome_partial _ _ _ _ _ _ _ g1 c.hist _ hres with h0 | ⟨h0, _⟩ | ⟨h0, _⟩ |
    ⟨l', h0, _⟩ | ⟨l', h0, _⟩ | ⟨l', h0, h1, ⟨a, ha, h2⟩, b, hb, h3⟩
  · cases h0
  · cases h0
  · cases h0
  · cases h0
  · cases h0
  · cases h0
    exact ⟨h1, ⟨a, hfrom a ha, h2⟩, b, hfrom b hb, h3⟩

/-! ## examples and counterexamples -/

/-- the results of the join calls of a node -/
def results (n : Coordinator.Node Nat) : List (Option (Result Nat)) := n.calls.map fun c => c.call.st.result

open Verif.Spec.DemoServer (keep)
open Verif.Spec.DemoJoinNet (job oldJob)

/-- the environments of the demo -/
abbrev denvs := Verif.Spec.DemoJoinNet.envs

/-- the committee of the demo is 10, 11, 12, the threshold is 1, and 10 leads; all are honest -/
def all3 (p : Nat) : Bool := p = 10 || p = 11 || p = 12

/-- node 11 asks the leader in its call `k`, who reads the request: the request is the last message on its way -/
def asked (q k i : Nat) : List (Coordinator.NetEvent Nat) := [.ask q k 10, .deliver i, .at_ 10 (.handle 0)]

/-- in its call `k` the leader decides with those it has heard -/
def decide_ (k : Nat) : List (Coordinator.NetEvent Nat) := [.at_ 10 (.act k (.wake keep)), .at_ 10 (.act k (.step keep))]

/-- a call waits no longer and returns -/
def giveUp (q k : Nat) : List (Coordinator.NetEvent Nat) := [.at_ q (.act k .timeout), .at_ q (.act k (.step keep))]

/-- a call of a member goes on to its end -/
def goOn (q k : Nat) : List (Coordinator.NetEvent Nat) :=
  [.at_ q (.handle 0), .at_ q (.act k (.wake keep)), .at_ q (.act k (.step keep)), .at_ q (.act k (.step keep)), .at_ q (.act k (.step keep))]

/-- In the first attempt the leader forms a party with 12, of which 11 does not hear in time. In the second the leader forms one with 11. -/
def twice : List (Coordinator.NetEvent Nat) :=
  [.at_ 10 (.begin_ (job 10)), .at_ 11 (.begin_ (job 11)), .at_ 12 (.begin_ (job 12))] ++ asked 12 0 0 ++ decide_ 0 ++ giveUp 11 0 ++
  [.at_ 10 (.begin_ (job 10)), .at_ 11 (.begin_ (job 11))] ++ asked 11 1 2 ++ decide_ 1

/-- the hypotheses of C126 hold: when 11 hears of the verdict of the second attempt, it returns the party of that attempt -/
example :
    let n := Coordinator.netRun denvs all3 (twice ++ [.deliver 2] ++ goOn 11 1)
    results (n.nodes 10) = [some ⟨[12, 10], none⟩, some ⟨[11, 10], none⟩] ∧
      results (n.nodes 11) = [some ⟨[], some .leaderNotReady⟩, some ⟨[11, 10], none⟩] := by decide +kernel

example : Verif.Spec.Server.LawfulPeers (denvs 11).peers := Verif.Spec.DemoServer.lawfulPeers

/-- C126 is false: the verdict of the first attempt, arriving late, is taken for that of the second. All nodes are honest, and in the second attempt the
leader returns a party with 11 while 11 returns a party without itself. -/
theorem c126_old_party :
    let n := Coordinator.netRun denvs all3 (twice ++ [.deliver 0] ++ goOn 11 1)
    results (n.nodes 10) = [some ⟨[12, 10], none⟩, some ⟨[11, 10], none⟩] ∧
      results (n.nodes 11) = [some ⟨[], some .leaderNotReady⟩, some ⟨[12, 10], none⟩] := by decide +kernel

/-- In the first attempt nobody comes and the leader gives up, of which 11 hears only in the second attempt. -/
def alone : List (Coordinator.NetEvent Nat) :=
  [.at_ 10 (.begin_ (job 10)), .at_ 11 (.begin_ (job 11))] ++ giveUp 10 0 ++ giveUp 11 0 ++ [.at_ 11 (.begin_ (job 11))]

/-- … a failure announced late ends the next attempt at once, before the leader has begun it … -/
theorem c126_old_failure :
    let n := Coordinator.netRun denvs all3 (alone ++ [.deliver 0] ++ goOn 11 1)
    results (n.nodes 10) = [some ⟨[10], some .timeout⟩] ∧ results (n.nodes 11) = [some ⟨[], some .leaderNotReady⟩, some ⟨[10], some .timeout⟩] := by
  decide +kernel

/-- … and a late failure together with a success: the member returns without error the list of the failed attempt, the leader alone. -/
theorem c126_mixed :
    let n := Coordinator.netRun denvs all3 (alone ++ [.at_ 10 (.begin_ (job 10))] ++ asked 11 1 2 ++ decide_ 1 ++
      [.deliver 0, .at_ 11 (.handle 0), .at_ 11 (.act 1 (.wake keep)), .at_ 11 (.act 1 (.step keep)), .at_ 11 (.act 1 (.step keep)), .deliver 1,
        .at_ 11 (.handle 0), .at_ 11 (.act 1 (.step keep))])
    results (n.nodes 10) = [some ⟨[10], some .timeout⟩, some ⟨[11, 10], none⟩] ∧
      results (n.nodes 11) = [some ⟨[], some .leaderNotReady⟩, some ⟨[10], none⟩] := by decide +kernel

/-- C126, two calls at the same time: the leader is asked twice for the same request; the group of the second call takes the place of that of the first, which
hears of nobody, although all requests arrived while it was waiting. -/
theorem c126_starved :
    let n := Coordinator.run (denvs 10) [.begin_ (job 10), .begin_ (job 10), .arrive "m" (.request 11), .arrive "m" (.request 12), .handle 0, .handle 0,
      .act 1 (.wake keep), .act 1 (.step keep), .act 0 .timeout, .act 0 (.step keep)]
    results n = [some ⟨[10], some .timeout⟩, some ⟨[11, 10], none⟩] := by decide +kernel

/-- … and without a leader the first call removes the group of the second when it returns, which then hears of nobody although 11 calls. -/
theorem c126_removed :
    let n := Coordinator.run (denvs 10) [.begin_ (oldJob 10), .begin_ (oldJob 10), .act 0 .timeout, .act 0 (.step keep), .arrive "m" (.leaderless 11),
      .handle 0, .act 1 .timeout, .act 1 (.step keep)]
    results n = [some ⟨[10], some .timeout⟩, some ⟨[10], some .timeout⟩] ∧
      results (Coordinator.run (denvs 10) [.begin_ (oldJob 10), .arrive "m" (.leaderless 11), .handle 0, .act 0 .timeout, .act 0 (.step keep)]) =
        [some ⟨[11, 10], none⟩] := by decide +kernel

/-- the hypotheses of `c126_alone_partial` hold of a call that follows another one for the same request -/
example : ∃ c0, Begins (denvs 10) (job 10) c0 ∧
    ∀ c ∈ (Coordinator.run (denvs 10) [.begin_ (job 10), .act 0 .timeout, .act 0 (.step keep)]).calls, c.job.msgID = "m" → ¬ WillRemove c := by
  refine ⟨_, rfl, ?_⟩
  intro c hc _ hw
  have : ((Coordinator.run (denvs 10) [.begin_ (job 10), .act 0 .timeout, .act 0 (.step keep)]).calls.all fun c => !removes c.call.kind) = true := by
    decide +kernel
  have := List.all_eq_true.1 this c hc
  rw [hw.1] at this
  cases this

end Verif.Props.Rejoin
