import Verif.Model.Service
import Mathlib.Data.List.Induction
import Mathlib.Data.List.Sublists

/-!
# C128: requests and the end of the service

The service answers the requests it has read, and ends when it is told to: it takes no new connections, waits for the requests that are being handled,
for ten seconds at most, stops the node once and ends.
-/
set_option linter.unusedSectionVars false
namespace Verif.Props.Process
open Verif.Service
open scoped List

/-! ## Specification -/

/-- time that passes in events -/
def elapsed (h : List Event) : Nat := (h.map fun e => match e with | .tick d => d | _ => 0).sum

/-- every request that was ever read has been answered, or its handler panicked -/
def AllAnswered (s : St) : Prop := ∀ c ∈ s.conns, c.read = c.answered + c.panicked

/-- a history after which the main goroutine has received the signal -/
def Told (h : List Event) : Prop := [Event.signal, Event.receive] <+ h

/-! ## one event -/

theorem step_ended {s : St} (h : s.phase.isEnded = true) (e : Event) : step s e = s := by
  unfold step
  rw [if_pos h]

theorem step_live {s : St} (h : s.phase.isEnded = false) (e : Event) : step s e = (match e with
  | .tick d => { s with now := s.now + d }
  | .listen ok => if s.listener = .starting then
      if s.phase.down then { s with listener := .closed } else { s with listener := if ok then .listening else .failed } else s
  | .connect => if s.listener = .listening then { s with conns := s.conns ++ [⟨.new s.now, 0, 0, 0⟩] } else s
  | .request i => update s i Conn.request
  | .hangUp i => update s i Conn.hangUp
  | .answer i => update s i (Conn.answer s.phase.down)
  | .panics i => update s i Conn.panics
  | .signal => if s.phase = .waiting then { s with phase := .signalled } else s
  | .receive => if s.phase = .signalled then
      { s with phase := .shutting (s.now + grace), listener := if s.listener = .listening then .closed else s.listener } else s
  | .poll => match s.phase with
    | .shutting _ =>
      if (s.conns.map (closeIdle s.now)).all (fun c => decide (c.state = .closed)) then
        { s with conns := s.conns.map (closeIdle s.now), phase := .stopping true, stops := s.stops + 1 }
      else { s with conns := s.conns.map (closeIdle s.now) }
    | _ => s
  | .expire => match s.phase with
    | .shutting d => if d ≤ s.now then { s with phase := .stopping false, stops := s.stops + 1 } else s
    | _ => s
  | .stopped => match s.phase with
    | .stopping ok => { s with phase := .ended ok }
    | _ => s) := by
  unfold step
  rw [if_neg (by simp [h])]
  cases e <;> rfl

theorem run_snoc (h : List Event) (e : Event) : run (h ++ [e]) = step (run h) e := by simp [run]

theorem run_append (h k : List Event) : run (h ++ k) = k.foldl step (run h) := by simp [run]

theorem update_rest (s : St) (i : Nat) (f : Conn → Conn) :
    (update s i f).now = s.now ∧ (update s i f).phase = s.phase ∧ (update s i f).listener = s.listener ∧ (update s i f).stops = s.stops ∧
      (update s i f).conns.length = s.conns.length := by
  unfold update
  split <;> simp

theorem update_mem {s : St} {i : Nat} {f : Conn → Conn} {c : Conn} (h : c ∈ (update s i f).conns) : c ∈ s.conns ∨ ∃ d ∈ s.conns, c = f d := by
  unfold update at h
  split at h
  · exact .inl h
  · rename_i d hd
    rcases List.mem_or_eq_of_mem_set h with h | h
    · exact .inl h
    · exact .inr ⟨d, List.mem_of_getElem? hd, h⟩

/-! ## invariants -/

/-- what is true of a connection -/
def Fine (c : Conn) : Prop :=
  (c.state = .active → c.read = c.answered + c.panicked + 1) ∧ (c.state ≠ .active → c.read = c.answered + c.panicked) ∧ c.panicked ≤ 1 ∧
    (c.panicked = 1 → c.state = .closed)

theorem fine_request {c : Conn} (h : Fine c) : Fine c.request := by
  obtain ⟨h1, h2, h3, h4⟩ := h
  unfold Conn.request
  split
  · rename_i t hs
    have := h2 (by simp [hs])
    refine ⟨fun _ => by dsimp; omega, fun h => absurd rfl h, h3, fun h => ?_⟩
    have := h4 h; simp [hs] at this
  · rename_i hs
    have := h2 (by simp [hs])
    refine ⟨fun _ => by dsimp; omega, fun h => absurd rfl h, h3, fun h => ?_⟩
    have := h4 h; simp [hs] at this
  · exact ⟨h1, h2, h3, h4⟩

theorem fine_hangUp {c : Conn} (h : Fine c) : Fine c.hangUp := by
  obtain ⟨h1, h2, h3, h4⟩ := h
  unfold Conn.hangUp
  split
  · rename_i t hs
    exact ⟨by simp, fun _ => h2 (by simp [hs]), h3, fun _ => rfl⟩
  · rename_i hs
    exact ⟨by simp, fun _ => h2 (by simp [hs]), h3, fun _ => rfl⟩
  · exact ⟨h1, h2, h3, h4⟩

theorem fine_answer {c : Conn} (d : Bool) (h : Fine c) : Fine (c.answer d) := by
  obtain ⟨h1, h2, h3, h4⟩ := h
  unfold Conn.answer
  split
  · rename_i hs
    have := h1 hs
    refine ⟨fun h => ?_, fun _ => by dsimp; omega, h3, fun h => ?_⟩
    · cases d <;> simp at h
    · have := h4 h; simp [hs] at this
  · exact ⟨h1, h2, h3, h4⟩

theorem fine_panics {c : Conn} (h : Fine c) : Fine c.panics := by
  obtain ⟨h1, h2, h3, h4⟩ := h
  unfold Conn.panics
  split
  · rename_i hs
    have := h1 hs
    have h0 : c.panicked = 0 := by
      by_contra h
      have := h4 (by omega)
      simp [hs] at this
    exact ⟨by simp, fun _ => by dsimp; omega, by dsimp; omega, fun _ => rfl⟩
  · exact ⟨h1, h2, h3, h4⟩

theorem fine_closeIdle {c : Conn} (now : Nat) (h : Fine c) : Fine (closeIdle now c) := by
  obtain ⟨h1, h2, h3, h4⟩ := h
  unfold closeIdle
  split
  · rename_i hs
    exact ⟨by simp, fun _ => h2 (by simp [hs]), h3, fun _ => rfl⟩
  · rename_i t hs
    split
    · exact ⟨by simp, fun _ => h2 (by simp [hs]), h3, fun _ => rfl⟩
    · exact ⟨h1, h2, h3, h4⟩
  · exact ⟨h1, h2, h3, h4⟩

/-- what is true of the process -/
structure Inv (s : St) : Prop where
  fine : ∀ c ∈ s.conns, Fine c
  shut : s.phase.down = true → s.listener ≠ .listening
  stops : s.stops = if s.phase.isEnded ∨ s.phase = .stopping true ∨ s.phase = .stopping false then 1 else 0
  clean : s.phase = .stopping true ∨ s.phase = .ended true → ∀ c ∈ s.conns, c.state = .closed

theorem closed_request {c : Conn} (h : c.state = .closed) : c.request = c := by simp [Conn.request, h]
theorem closed_hangUp {c : Conn} (h : c.state = .closed) : c.hangUp = c := by simp [Conn.hangUp, h]
theorem closed_answer {c : Conn} (d : Bool) (h : c.state = .closed) : c.answer d = c := by simp [Conn.answer, h]
theorem closed_panics {c : Conn} (h : c.state = .closed) : c.panics = c := by simp [Conn.panics, h]

theorem inv_update {s : St} (hi : Inv s) (i : Nat) (f : Conn → Conn) (hf : ∀ c, Fine c → Fine (f c)) (hc : ∀ c, c.state = .closed → f c = c) :
    Inv (update s i f) := by
  obtain ⟨-, h2, h3, h4, -⟩ := update_rest s i f
  refine ⟨fun c hcm => ?_, by rw [h2, h3]; exact hi.shut, by rw [h2, h4]; exact hi.stops, fun hp c hcm => ?_⟩
  · rcases update_mem hcm with h | ⟨d, hd, rfl⟩
    · exact hi.fine c h
    · exact hf d (hi.fine d hd)
  · rw [h2] at hp
    rcases update_mem hcm with h | ⟨d, hd, rfl⟩
    · exact hi.clean hp c h
    · rw [hc d (hi.clean hp d hd)]
      exact hi.clean hp d hd

theorem inv_step {s : St} (hi : Inv s) (e : Event) : Inv (step s e) := by
  cases he : s.phase.isEnded with
  | true => rw [step_ended he]; exact hi
  | false =>
    rw [step_live he]
    cases e with
    | tick d => exact ⟨hi.fine, hi.shut, hi.stops, hi.clean⟩
    | listen ok =>
      dsimp only
      split
      · split
        · exact ⟨hi.fine, fun _ => by simp, hi.stops, hi.clean⟩
        · rename_i hd
          exact ⟨hi.fine, fun h => absurd h hd, hi.stops, hi.clean⟩
      · exact hi
    | connect =>
      dsimp only
      split
      · rename_i hl
        refine ⟨fun c hc => ?_, hi.shut, hi.stops, fun hp => ?_⟩
        · rcases List.mem_append.1 hc with h | h
          · exact hi.fine c h
          · rw [List.mem_singleton.1 h]
            exact ⟨by simp, by simp, by simp, by simp⟩
        · have : s.phase.down = true := by rcases hp with h | h <;> · dsimp only at h; rw [h]; rfl
          exact absurd hl (hi.shut this)
      · exact hi
    | request i => exact inv_update hi i _ (fun _ => fine_request) (fun _ => closed_request)
    | hangUp i => exact inv_update hi i _ (fun _ => fine_hangUp) (fun _ => closed_hangUp)
    | answer i => exact inv_update hi i _ (fun _ => fine_answer _) (fun _ => closed_answer _)
    | panics i => exact inv_update hi i _ (fun _ => fine_panics) (fun _ => closed_panics)
    | signal =>
      dsimp only
      split
      · rename_i hp
        refine ⟨hi.fine, by simp [Phase.down], ?_, by simp⟩
        have := hi.stops
        simpa [hp, Phase.isEnded] using this
      · exact hi
    | receive =>
      dsimp only
      split
      · rename_i hp
        refine ⟨hi.fine, fun _ => ?_, ?_, by simp⟩
        · dsimp only
          split
          · simp
          · assumption
        · have := hi.stops
          simpa [hp, Phase.isEnded] using this
      · exact hi
    | poll =>
      dsimp only
      split
      · rename_i d hp
        have hs : s.stops = 0 := by have := hi.stops; simpa [hp, Phase.isEnded] using this
        have hf : ∀ c ∈ s.conns.map (closeIdle s.now), Fine c := by
          intro c hc
          obtain ⟨x, hx, rfl⟩ := List.mem_map.1 hc
          exact fine_closeIdle _ (hi.fine x hx)
        have hl := hi.shut (by rw [hp]; rfl)
        split
        · rename_i hall
          refine ⟨hf, fun _ => hl, by simp [hs], fun _ c hc => ?_⟩
          simpa using List.all_eq_true.1 hall c hc
        · exact ⟨hf, fun _ => hl, by simp [hs, hp, Phase.isEnded], by simp [hp]⟩
      · exact hi
    | expire =>
      dsimp only
      split
      · rename_i d hp
        have hs : s.stops = 0 := by have := hi.stops; simpa [hp, Phase.isEnded] using this
        split
        · exact ⟨hi.fine, fun _ => hi.shut (by rw [hp]; rfl), by simp [hs], by simp⟩
        · exact hi
      · exact hi
    | stopped =>
      dsimp only
      split
      · rename_i ok hp
        have hs : s.stops = 1 := by
          have := hi.stops
          cases ok <;> simpa [hp, Phase.isEnded] using this
        refine ⟨hi.fine, fun _ => hi.shut (by rw [hp]; rfl), by simp [hs, Phase.isEnded], fun h => ?_⟩
        refine hi.clean (.inl ?_)
        rcases h with h | h
        · simp at h
        · rw [hp]
          simpa using h
      · exact hi

theorem inv (h : List Event) : Inv (run h) := by
  induction h using List.reverseRecOn with
  | nil => exact ⟨by simp [run], by simp [run], by simp [run, Phase.isEnded], by simp [run]⟩
  | append_singleton h e ih => rw [run_snoc]; exact inv_step ih e

/-! ## C128 -/

/-- C128: no request is answered twice, and none is answered that was not read: on every connection at most one request is open. -/
theorem c128_one_answer (h : List Event) (c : Conn) (hc : c ∈ (run h).conns) :
    c.answered + c.panicked ≤ c.read ∧ c.read ≤ c.answered + c.panicked + 1 := by
  obtain ⟨h1, h2, -⟩ := (inv h).fine c hc
  by_cases hs : c.state = .active
  · have := h1 hs; omega
  · have := h2 hs; omega

/-- nothing happens any more to connections that are closed -/
theorem quiet_step {s : St} (hi : Inv s) (hp : s.phase = .stopping true ∨ s.phase = .ended true) (e : Event) :
    (step s e).conns = s.conns ∧ ((step s e).phase = .stopping true ∨ (step s e).phase = .ended true) := by
  cases he : s.phase.isEnded with
  | true => rw [step_ended he]; exact ⟨rfl, hp⟩
  | false =>
    have hp' : s.phase = .stopping true := by
      rcases hp with h | h
      · exact h
      · rw [h] at he; cases he
    have hu : ∀ i (f : Conn → Conn), (∀ c, c.state = .closed → f c = c) → (update s i f).conns = s.conns := by
      intro i f hf
      unfold update
      split
      · rfl
      · rename_i c hc
        dsimp only
        rw [hf c (hi.clean hp c (List.mem_of_getElem? hc))]
        obtain ⟨hi', hc'⟩ := List.getElem?_eq_some_iff.1 hc
        rw [← hc', List.set_getElem_self]
    rw [step_live he]
    cases e with
    | connect =>
      dsimp only
      rw [if_neg (hi.shut (by rw [hp']; rfl))]
      exact ⟨rfl, hp⟩
    | request i => exact ⟨hu i _ fun _ => closed_request, by rw [(update_rest ..).2.1]; exact hp⟩
    | hangUp i => exact ⟨hu i _ fun _ => closed_hangUp, by rw [(update_rest ..).2.1]; exact hp⟩
    | answer i => exact ⟨hu i _ fun _ => closed_answer _, by rw [(update_rest ..).2.1]; exact hp⟩
    | panics i => exact ⟨hu i _ fun _ => closed_panics, by rw [(update_rest ..).2.1]; exact hp⟩
    | listen ok =>
      dsimp only
      split
      · split <;> exact ⟨rfl, hp⟩
      · exact ⟨rfl, hp⟩
    | stopped => simp [hp']
    | poll => simp [hp']
    | expire => simp [hp']
    | signal => simp [hp']
    | receive => simp [hp']
    | tick d => exact ⟨rfl, hp⟩

/-- C128 (partial; missing: the handlers that panic, and the end after ten seconds): when the service stops gracefully, every request it ever read has
been answered, unless its handler panicked, and nothing is read any more until the process has ended. -/
theorem c128_graceful_partial (h k : List Event) (hp : (run h).phase = .stopping true ∨ (run h).phase = .ended true) :
    AllAnswered (run h) ∧ (run (h ++ k)).conns = (run h).conns ∧ ((run (h ++ k)).phase = .stopping true ∨ (run (h ++ k)).phase = .ended true) := by
  refine ⟨fun c hc => ?_, ?_⟩
  · exact ((inv h).fine c hc).2.1 (by rw [(inv h).clean hp c hc]; simp)
  · induction k using List.reverseRecOn with
    | nil => simpa using hp
    | append_singleton k e ih =>
      rw [← List.append_assoc, run_snoc]
      obtain ⟨g1, g2⟩ := quiet_step (inv (h ++ k)) ih.2 e
      exact ⟨g1.trans ih.1, g2⟩

/-- C128: the node is stopped exactly once, and that after the HTTP part: so the panic of a second stop (C86) never happens. -/
theorem c128_stopped_once (h : List Event) :
    (run h).stops ≤ 1 ∧ ((run h).phase.isEnded = true → (run h).stops = 1) := by
  have := (inv h).stops
  refine ⟨?_, fun he => ?_⟩
  · rw [this]; split <;> omega
  · rw [this, if_pos (.inl he)]

/-! ### the end -/

/-- the main goroutine never goes back -/
def rank : Phase → Nat
  | .waiting => 0
  | .signalled => 1
  | .shutting _ => 2
  | .stopping _ => 3
  | .ended _ => 4

theorem rank_step (s : St) (e : Event) : rank s.phase ≤ rank (step s e).phase := by
  cases he : s.phase.isEnded with
  | true => rw [step_ended he]
  | false =>
    rw [step_live he]
    cases e <;> dsimp only <;> (try rw [(update_rest ..).2.1]) <;> (repeat' split) <;> simp_all [rank]

theorem rank_run (s : St) (k : List Event) : rank s.phase ≤ rank (k.foldl step s).phase := by
  induction k generalizing s with
  | nil => exact le_refl _
  | cons e k ih => exact le_trans (rank_step s e) (ih _)

theorem told_rank (s : St) (h : List Event) (ht : [Event.receive] <+ h) (hr : 1 ≤ rank s.phase) : 2 ≤ rank (h.foldl step s).phase := by
  induction h generalizing s with
  | nil => cases ht
  | cons e h ih =>
    rcases List.cons_sublist_cons'.1 ht with ht | ⟨rfl, -⟩
    · exact ih _ ht (le_trans hr (rank_step s e))
    · refine le_trans ?_ (rank_run _ h)
      by_cases h2 : 2 ≤ rank s.phase
      · exact le_trans h2 (rank_step s _)
      · have hp : s.phase = .signalled := by
          cases hs : s.phase <;> simp [rank, hs] at hr h2 ⊢
        rw [step_live (by rw [hp]; rfl)]
        simp [hp, rank]

theorem told_down (s : St) (h : List Event) (ht : Told h) : 2 ≤ rank (h.foldl step s).phase := by
  unfold Told at ht
  induction h generalizing s with
  | nil => cases ht
  | cons e h ih =>
    rcases List.cons_sublist_cons'.1 ht with ht' | ⟨rfl, ht'⟩
    · exact ih _ ht'
    · refine told_rank _ h (by assumption) ?_
      by_cases h1 : 1 ≤ rank s.phase
      · exact le_trans h1 (rank_step s _)
      · have hp : s.phase = .waiting := by
          cases hs : s.phase <;> simp [rank, hs] at h1 ⊢
        rw [step_live (by rw [hp]; rfl)]
        simp [hp, rank]

/-- C128: after the signal was received no connection is taken any more. -/
theorem c128_no_new_connection (h k : List Event) (ht : Told h) : (run (h ++ k)).conns.length = (run h).conns.length := by
  induction k using List.reverseRecOn with
  | nil => simp
  | append_singleton k e ih =>
    rw [← List.append_assoc, run_snoc, ← ih]
    have hd : 2 ≤ rank (run (h ++ k)).phase := told_down _ _ (ht.trans (List.sublist_append_left h k))
    have hdown : (run (h ++ k)).phase.down = true := by
      generalize (run (h ++ k)).phase = p at hd
      cases p <;> simp [rank, Phase.down] at hd ⊢
    have hi := inv (h ++ k)
    generalize run (h ++ k) = s at hi hdown
    cases he : s.phase.isEnded with
    | true => rw [step_ended he]
    | false =>
      rw [step_live he]
      cases e with
      | connect => dsimp only; rw [if_neg (hi.shut hdown)]
      | request i => exact (update_rest ..).2.2.2.2
      | hangUp i => exact (update_rest ..).2.2.2.2
      | answer i => exact (update_rest ..).2.2.2.2
      | panics i => exact (update_rest ..).2.2.2.2
      | poll =>
        dsimp only
        split
        · split <;> simp
        · rfl
      | listen ok => dsimp only; (repeat' split) <;> rfl
      | signal => dsimp only; (repeat' split) <;> rfl
      | receive => dsimp only; (repeat' split) <;> rfl
      | expire => dsimp only; (repeat' split) <;> rfl
      | stopped => dsimp only; (repeat' split) <;> rfl
      | tick d => rfl

/-- the clock, while the process runs -/
theorem now_step (s : St) (e : Event) (he : s.phase.isEnded = false) : (step s e).now = s.now + elapsed [e] := by
  rw [step_live he]
  cases e <;> dsimp only [elapsed] <;> (try rw [(update_rest ..).1]) <;> (repeat' split) <;> simp

theorem ended_run {s : St} (he : s.phase.isEnded = true) (k : List Event) : k.foldl step s = s := by
  induction k with
  | nil => rfl
  | cons e k ih => rw [List.foldl_cons, step_ended he, ih]

theorem elapsed_cons (e : Event) (k : List Event) : elapsed (e :: k) = elapsed [e] + elapsed k := by simp [elapsed]

theorem elapsed_append (h k : List Event) : elapsed (h ++ k) = elapsed h + elapsed k := by simp [elapsed]

/-- the deadline: at most `D`, when `Shutdown` runs -/
def Before (D : Nat) (s : St) : Prop := 2 ≤ rank s.phase ∧ ∀ d, s.phase = .shutting d → d ≤ D

theorem before_step {D : Nat} {s : St} (h : Before D s) (e : Event) : Before D (step s e) := by
  refine ⟨le_trans h.1 (rank_step s e), fun d hd => h.2 d ?_⟩
  have h1 := h.1
  cases he : s.phase.isEnded with
  | true => rw [step_ended he] at hd; exact hd
  | false =>
    rw [step_live he] at hd
    cases e with
    | request i => rw [(update_rest ..).2.1] at hd; exact hd
    | hangUp i => rw [(update_rest ..).2.1] at hd; exact hd
    | answer i => rw [(update_rest ..).2.1] at hd; exact hd
    | panics i => rw [(update_rest ..).2.1] at hd; exact hd
    | receive =>
      dsimp only at hd
      split at hd
      · rename_i hp; rw [hp] at h1; simp [rank] at h1
      · exact hd
    | _ => dsimp only at hd; (repeat' split at hd) <;> simp_all

theorem before_run {D : Nat} {s : St} (h : Before D s) (k : List Event) : Before D (k.foldl step s) := by
  induction k generalizing s with
  | nil => exact h
  | cons e k ih => exact ih (before_step h e)

/-- what the phase says about the history -/
structure Past (h : List Event) (s : St) : Prop where
  signalled : s.phase ≠ .waiting → Event.signal ∈ h
  shutting : ∀ d, s.phase = .shutting d → ∃ a b, h = a ++ .receive :: b ∧ Event.signal ∈ a ∧ d + elapsed b = s.now + grace
  late : s.phase = .stopping false ∨ s.phase = .ended false → ∃ a b, h = a ++ .receive :: b ∧ Event.signal ∈ a ∧ grace ≤ elapsed b

/-- an event that leaves the phase as it is -/
theorem past_same {h : List Event} {s s' : St} (hp : Past h s) (e : Event) (h1 : s'.phase = s.phase) (h2 : s'.now = s.now + elapsed [e]) :
    Past (h ++ [e]) s' := by
  refine ⟨fun hn => ?_, fun d hd => ?_, fun hl => ?_⟩
  · rw [h1] at hn
    simp [hp.signalled hn]
  · rw [h1] at hd
    obtain ⟨a, b, rfl, g2, g3⟩ := hp.shutting d hd
    exact ⟨a, b ++ [e], by simp, g2, by rw [elapsed_append, h2]; omega⟩
  · rw [h1] at hl
    obtain ⟨a, b, rfl, g2, g3⟩ := hp.late hl
    exact ⟨a, b ++ [e], by simp, g2, by rw [elapsed_append]; omega⟩

theorem past_ended {h : List Event} {s : St} (hp : Past h s) (he : s.phase.isEnded = true) (e : Event) : Past (h ++ [e]) s := by
  refine ⟨fun hn => by simp [hp.signalled hn], fun d hd => (by rw [hd] at he; cases he), fun hl => ?_⟩
  obtain ⟨a, b, rfl, g2, g3⟩ := hp.late hl
  exact ⟨a, b ++ [e], by simp, g2, by rw [elapsed_append]; omega⟩

theorem past (h : List Event) : Past h (run h) := by
  induction h using List.reverseRecOn with
  | nil => exact ⟨by simp [run], by simp [run], by simp [run]⟩
  | append_singleton h e ih =>
    rw [run_snoc]
    generalize run h = s at ih
    cases he : s.phase.isEnded with
    | true => rw [step_ended he]; exact past_ended ih he e
    | false =>
      have hn := now_step s e he
      by_cases hph : (step s e).phase = s.phase
      · exact past_same ih e hph hn
      · have hph' := hph
        rw [step_live he] at hph
        cases e with
        | request i => exact absurd (update_rest ..).2.1 hph
        | hangUp i => exact absurd (update_rest ..).2.1 hph
        | answer i => exact absurd (update_rest ..).2.1 hph
        | panics i => exact absurd (update_rest ..).2.1 hph
        | tick d => exact absurd rfl hph
        | listen ok => dsimp only at hph; (repeat' split at hph) <;> exact absurd rfl hph
        | connect => dsimp only at hph; (repeat' split at hph) <;> exact absurd rfl hph
        | signal =>
          by_cases hw : s.phase = .waiting
          · have : (step s .signal).phase = .signalled := by rw [step_live he]; simp [hw]
            exact ⟨fun _ => by simp, fun d hd => (by rw [this] at hd; cases hd), fun hl => by rw [this] at hl; simp at hl⟩
          · exact absurd (by rw [step_live he]; simp [hw]) hph'
        | receive =>
          by_cases hw : s.phase = .signalled
          · have h1 : (step s .receive).phase = .shutting (s.now + grace) := by rw [step_live he]; simp [hw]
            have hs : Event.signal ∈ h := ih.signalled (by rw [hw]; simp)
            refine ⟨fun _ => by simp [hs], fun d hd => ?_, fun hl => by rw [h1] at hl; simp at hl⟩
            rw [h1] at hd
            injection hd with hd
            exact ⟨h, [], rfl, hs, by rw [hn, ← hd]; simp [elapsed]⟩
          · exact absurd (by rw [step_live he]; simp [hw]) hph'
        | poll =>
          cases hw : s.phase with
          | shutting d =>
            have h1 : (step s .poll).phase = .stopping true := by
              rw [step_live he]
              rw [step_live he] at hph'
              simp only [hw] at hph' ⊢
              split
              · rfl
              · rename_i hc
                rw [if_neg hc] at hph'
                exact (hph' rfl).elim
            have hs : Event.signal ∈ h := ih.signalled (by rw [hw]; simp)
            exact ⟨fun _ => by simp [hs], fun d hd => (by rw [h1] at hd; cases hd), fun hl => by rw [h1] at hl; simp at hl⟩
          | _ => exact absurd (by rw [step_live he]; simp [hw]) hph'
        | expire =>
          cases hw : s.phase with
          | shutting d =>
            obtain ⟨a, b, g1, g2, g3⟩ := ih.shutting d hw
            by_cases hd : d ≤ s.now
            · have h1 : (step s .expire).phase = .stopping false := by rw [step_live he]; simp [hw, hd]
              have hs : Event.signal ∈ h := ih.signalled (by rw [hw]; simp)
              refine ⟨fun _ => by simp [hs], fun d hd => (by rw [h1] at hd; cases hd), fun _ => ?_⟩
              exact ⟨a, b ++ [.expire], by simp [g1], g2, by rw [elapsed_append]; omega⟩
            · exact absurd (by rw [step_live he]; simp [hw, hd]) hph'
          | _ => exact absurd (by rw [step_live he]; simp [hw]) hph'
        | stopped =>
          cases hw : s.phase with
          | stopping ok =>
            have h1 : (step s .stopped).phase = .ended ok := by rw [step_live he]; simp [hw]
            have hs : Event.signal ∈ h := ih.signalled (by rw [hw]; simp)
            refine ⟨fun _ => by simp [hs], fun d hd => (by rw [h1] at hd; cases hd), fun hl => ?_⟩
            rw [h1] at hl
            obtain ⟨a, b, g1, g2, g3⟩ := ih.late (.inl (by rw [hw]; simpa using hl))
            exact ⟨a, b ++ [.stopped], by simp [g1], g2, by rw [elapsed_append]; omega⟩
          | _ => exact absurd (by rw [step_live he]; simp [hw]) hph'

/-- C128: requests are cut off only when ten seconds have passed since the signal was received; the service stops only after a signal. -/
theorem c128_waits (h : List Event) (hp : (run h).phase = .stopping false ∨ (run h).phase = .ended false) :
    ∃ a b, h = a ++ .receive :: b ∧ Event.signal ∈ a ∧ 10000 ≤ elapsed b := (past h).late hp

/-- C128: without signal the process goes on. -/
theorem c128_goes_on (h : List Event) (hs : Event.signal ∉ h) : (run h).phase = .waiting := by
  by_contra hw
  exact hs ((past h).signalled hw)

theorem now_run {s : St} (k : List Event) : (k.foldl step s).phase.isEnded = true ∨ (k.foldl step s).now = s.now + elapsed k := by
  induction k generalizing s with
  | nil => right; rfl
  | cons e k ih =>
    cases he : s.phase.isEnded with
    | true =>
      left
      rw [ended_run he]
      exact he
    | false =>
      rcases ih (s := step s e) with h | h
      · exact .inl h
      · right
        rw [List.foldl_cons, h, now_step s e he, elapsed_cons e k, Nat.add_assoc]

theorem expire_step {s : St} (h2 : 2 ≤ rank s.phase) (hd : ∀ d, s.phase = .shutting d → d ≤ s.now) : 3 ≤ rank (step s .expire).phase := by
  cases he : s.phase.isEnded with
  | true =>
    rw [step_ended he]
    cases hp : s.phase <;> simp [hp, Phase.isEnded] at he
    simp [rank]
  | false =>
    rw [step_live he]
    cases hp : s.phase <;> simp [hp, rank] at h2 ⊢
    rename_i d
    rw [if_pos (hd d hp)]

theorem stopped_step {s : St} (h3 : 3 ≤ rank s.phase) : (step s .stopped).phase.isEnded = true := by
  cases he : s.phase.isEnded with
  | true => rw [step_ended he]; exact he
  | false =>
    rw [step_live he]
    cases hp : s.phase <;> simp [hp, rank, Phase.isEnded] at h3 he ⊢

theorem ended_of_rank {s : St} (k : List Event) (he : s.phase.isEnded = true) : (k.foldl step s).phase.isEnded = true := by
  rw [ended_run he]; exact he

theorem stops_3 (s : St) (k : List Event) (h3 : 3 ≤ rank s.phase) (hk : [Event.stopped] <+ k) : (k.foldl step s).phase.isEnded = true := by
  induction k generalizing s with
  | nil => cases hk
  | cons e k ih =>
    rcases List.cons_sublist_cons'.1 hk with hk | ⟨rfl, -⟩
    · exact ih _ (le_trans h3 (rank_step s e)) hk
    · exact ended_of_rank k (stopped_step h3)

theorem stops_2 (D : Nat) (s : St) (k : List Event) (hb : Before D s) (hn : D ≤ s.now) (hk : [Event.expire, Event.stopped] <+ k) :
    (k.foldl step s).phase.isEnded = true := by
  induction k generalizing s with
  | nil => cases hk
  | cons e k ih =>
    rcases List.cons_sublist_cons'.1 hk with hk' | ⟨rfl, hk'⟩
    · cases he : s.phase.isEnded with
      | true => exact ended_of_rank (e :: k) he
      | false => exact ih _ (before_step hb e) (by rw [now_step s e he]; omega) hk'
    · exact stops_3 _ k (expire_step hb.1 fun d hd => le_trans (hb.2 d hd) hn) hk'

/-- C128: the process ends: after a signal, at the latest ten seconds after it was received, as soon as the goroutine of the main program gets its turn
and the node has stopped (C113). -/
theorem c128_ends (h a b : List Event) (ht : Told h) (ha : 10000 ≤ elapsed a) (hb : [Event.expire, Event.stopped] <+ b) :
    (run (h ++ a ++ b)).phase.isEnded = true := by
  rw [run_append, run_append]
  have h2 : Before ((run h).now + grace) (run h) := by
    refine ⟨told_down _ h ht, fun d hd => ?_⟩
    obtain ⟨-, b, -, -, h3⟩ := (past h).shutting d hd
    omega
  rcases now_run (s := run h) a with he | hn
  · exact ended_of_rank b he
  · exact stops_2 _ _ b (before_run h2 a) (by rw [hn]; unfold grace; omega) hb

/-- C128: when the address of the API cannot be bound, the process goes on until it is told to stop, but never takes a request. -/
theorem c128_no_api (h : List Event) : (run (.listen false :: h)).conns = [] ∧ (run (.listen false :: h)).listener = .failed ∧
    (Event.signal ∉ h → (run (.listen false :: h)).phase = .waiting) := by
  refine and_assoc.1 ⟨?_, fun hs => c128_goes_on _ (by simpa using hs)⟩
  induction h using List.reverseRecOn with
  | nil => exact ⟨rfl, rfl⟩
  | append_singleton h e ih =>
    rw [← List.cons_append, run_snoc]
    generalize run (.listen false :: h) = s at ih
    cases he : s.phase.isEnded with
    | true => rw [step_ended he]; exact ih
    | false =>
      rw [step_live he]
      have hu : ∀ i f, update s i f = s := fun i f => by simp [update, ih.1]
      cases e <;> dsimp only <;> (try rw [hu]) <;> (repeat' split) <;> simp_all

/-- what can happen to a connection during the shutdown -/
theorem down_conn {s : St} (hi : Inv s) (hd : s.phase.down = true) (e : Event) {i : Nat} {c' : Conn} (hc : (step s e).conns[i]? = some c') :
    ∃ c, s.conns[i]? = some c ∧ (c' = c ∨ c' = c.request ∨ c' = c.hangUp ∨ c' = c.answer true ∨ c' = c.panics ∨ c' = closeIdle s.now c) := by
  have hu : ∀ j f, (update s j f).conns[i]? = some c' → ∃ c, s.conns[i]? = some c ∧ (c' = c ∨ c' = f c) := by
    intro j f h
    unfold update at h
    split at h
    · exact ⟨c', h, .inl rfl⟩
    · rename_i c hj
      rw [List.getElem?_set] at h
      split at h
      · rename_i hji
        subst hji
        split at h
        · cases h
          exact ⟨c, hj, .inr rfl⟩
        · cases h
      · exact ⟨c', h, .inl rfl⟩
  have hm : ∀ {cs : List Conn}, (cs.map (closeIdle s.now))[i]? = some c' → ∃ c, cs[i]? = some c ∧ c' = closeIdle s.now c := by
    intro cs h
    rw [List.getElem?_map, Option.map_eq_some_iff] at h
    obtain ⟨c, h1, h2⟩ := h
    exact ⟨c, h1, h2.symm⟩
  cases he : s.phase.isEnded with
  | true => rw [step_ended he] at hc; exact ⟨c', hc, .inl rfl⟩
  | false =>
    rw [step_live he] at hc
    cases e with
    | connect => dsimp only at hc; rw [if_neg (hi.shut hd)] at hc; exact ⟨c', hc, .inl rfl⟩
    | request j => obtain ⟨c, h1, h2⟩ := hu _ _ hc; exact ⟨c, h1, by tauto⟩
    | hangUp j => obtain ⟨c, h1, h2⟩ := hu _ _ hc; exact ⟨c, h1, by tauto⟩
    | answer j => rw [hd] at hc; obtain ⟨c, h1, h2⟩ := hu _ _ hc; exact ⟨c, h1, by tauto⟩
    | panics j => obtain ⟨c, h1, h2⟩ := hu _ _ hc; exact ⟨c, h1, by tauto⟩
    | poll =>
      dsimp only at hc
      split at hc
      · split at hc
        · obtain ⟨c, h1, h2⟩ := hm hc; exact ⟨c, h1, by tauto⟩
        · obtain ⟨c, h1, h2⟩ := hm hc; exact ⟨c, h1, by tauto⟩
      · exact ⟨c', hc, .inl rfl⟩
    | tick d => exact ⟨c', hc, .inl rfl⟩
    | _ =>
      dsimp only at hc
      repeat' split at hc
      all_goals exact ⟨c', hc, .inl rfl⟩

theorem told_is_down {h : List Event} (ht : Told h) (k : List Event) : (run (h ++ k)).phase.down = true := by
  have hd : 2 ≤ rank (run (h ++ k)).phase := told_down _ _ (ht.trans (List.sublist_append_left h k))
  generalize (run (h ++ k)).phase = p at hd
  cases p <;> simp [rank, Phase.down] at hd ⊢

/-- C128: after the signal was received a client gets at most one more answer on a connection, however fast it sends further requests. -/
theorem c128_last_answer (h k : List Event) (ht : Told h) (i : Nat) (c c' : Conn) (hc : (run h).conns[i]? = some c)
    (hc' : (run (h ++ k)).conns[i]? = some c') : c'.answered ≤ c.answered + 1 := by
  have : c'.answered = c.answered ∨ c'.state = .closed ∧ c'.answered ≤ c.answered + 1 := by
    induction k using List.reverseRecOn generalizing c' with
    | nil =>
      rw [List.append_nil, hc] at hc'
      cases hc'
      exact .inl rfl
    | append_singleton k e ih =>
      rw [← List.append_assoc, run_snoc] at hc'
      obtain ⟨d, h1, h2⟩ := down_conn (inv _) (told_is_down ht k) e hc'
      rcases ih d h1 with h3 | ⟨h3, h4⟩
      · rcases h2 with rfl | rfl | rfl | rfl | rfl | rfl
        · exact .inl h3
        · refine .inl (Eq.trans ?_ h3); unfold Conn.request; split <;> rfl
        · refine .inl (Eq.trans ?_ h3); unfold Conn.hangUp; split <;> rfl
        · unfold Conn.answer
          split
          · exact .inr ⟨by simp, by dsimp only; omega⟩
          · exact .inl h3
        · refine .inl (Eq.trans ?_ h3); unfold Conn.panics; split <;> rfl
        · refine .inl (Eq.trans ?_ h3)
          unfold closeIdle
          split
          · rfl
          · split <;> rfl
          · rfl
      · right
        have : c' = d := by
          rcases h2 with h | h | h | h | h | h
          · exact h
          · rw [h, closed_request h3]
          · rw [h, closed_hangUp h3]
          · rw [h, closed_answer _ h3]
          · rw [h, closed_panics h3]
          · rw [h, closeIdle, h3]
        rw [this]
        exact ⟨h3, h4⟩
  rcases this with h | h <;> omega

theorem new_since (h : List Event) (c : Conn) (hc : c ∈ (run h).conns) (t : Nat) (hs : c.state = .new t) : t ≤ (run h).now := by
  induction h using List.reverseRecOn generalizing c with
  | nil => simp [run] at hc
  | append_singleton h e ih =>
    rw [run_snoc] at hc ⊢
    generalize run h = s at ih hc
    have hu : ∀ j f, (∀ d : Conn, (f d).state = .new t → d.state = .new t) → c ∈ (update s j f).conns → t ≤ s.now := by
      intro j f hf h
      rcases update_mem h with h | ⟨d, h1, h2⟩
      · exact ih c h hs
      · exact ih d h1 (hf d (by rw [← h2]; exact hs))
    cases he : s.phase.isEnded with
    | true => rw [step_ended he] at hc ⊢; exact ih c hc hs
    | false =>
      rw [step_live he] at hc ⊢
      cases e with
      | tick d => dsimp only at hc ⊢; have := ih c hc hs; omega
      | connect =>
        dsimp only at hc ⊢
        split at hc
        · rename_i hl
          rw [if_pos hl]
          rcases List.mem_append.1 hc with h | h
          · exact ih c h hs
          · rw [List.mem_singleton.1 h] at hs
            simp at hs
            dsimp only
            omega
        · rename_i hl
          rw [if_neg hl]
          exact ih c hc hs
      | request j =>
        rw [(update_rest ..).1]
        refine hu j _ (fun d h => ?_) hc
        unfold Conn.request at h
        split at h <;> simp_all
      | hangUp j =>
        rw [(update_rest ..).1]
        refine hu j _ (fun d h => ?_) hc
        unfold Conn.hangUp at h
        split at h <;> simp_all
      | answer j =>
        rw [(update_rest ..).1]
        refine hu j _ (fun d h => ?_) hc
        unfold Conn.answer at h
        split at h
        · dsimp only at h; split at h <;> simp at h
        · exact h
      | panics j =>
        rw [(update_rest ..).1]
        refine hu j _ (fun d h => ?_) hc
        unfold Conn.panics at h
        split at h <;> simp_all
      | poll =>
        dsimp only at hc ⊢
        have hm : c ∈ s.conns.map (closeIdle s.now) → t ≤ s.now := by
          intro h
          obtain ⟨d, h1, rfl⟩ := List.mem_map.1 h
          refine ih d h1 ?_
          unfold closeIdle at hs
          split at hs
          · simp at hs
          · split at hs
            · simp at hs
            · exact hs
          · exact hs
        split at hc
        · split at hc <;> rename_i hh
          · rw [if_pos hh]; exact hm hc
          · rw [if_neg hh]; exact hm hc
        · exact ih c hc hs
      | _ =>
        dsimp only at hc ⊢
        repeat' split at hc
        all_goals
          have := ih c hc hs
          repeat' split
          all_goals exact this

theorem now_elapsed (h k : List Event) (hp : (run (h ++ k)).phase.isEnded = false) : (run (h ++ k)).now = (run h).now + elapsed k := by
  induction k using List.reverseRecOn with
  | nil => simp [elapsed]
  | append_singleton k e ih =>
    rw [← List.append_assoc, run_snoc] at hp ⊢
    have he : (run (h ++ k)).phase.isEnded = false := by
      cases hh : (run (h ++ k)).phase.isEnded with
      | false => rfl
      | true => rw [step_ended hh, hh] at hp; cases hp
    have ih := ih he
    generalize run (h ++ k) = s at *
    have hk : elapsed (k ++ [e]) = elapsed k + elapsed [e] := by
      unfold elapsed
      simp
    rw [hk, step_live he]
    cases e <;> dsimp only <;> (try rw [(update_rest ..).1]) <;> (repeat' split) <;> simp_all [elapsed, Nat.add_assoc]

/-- C128: the shutdown is not kept up by clients that say nothing: from six seconds after the signal was received on, it ends at the next look at the
connections at which no request is being handled. -/
theorem c128_prompt (h k : List Event) (ht : Told h) (hk : 6000 ≤ elapsed k) (hp : ∃ d, (run (h ++ k)).phase = .shutting d)
    (ha : ∀ c ∈ (run (h ++ k)).conns, c.state ≠ .active) : (run (h ++ k ++ [.poll])).phase = .stopping true := by
  obtain ⟨d, hp⟩ := hp
  have hl : (run (h ++ k)).phase.isEnded = false := by rw [hp]; rfl
  have hnow := now_elapsed h k hl
  have hold : ∀ c ∈ (run (h ++ k)).conns, ∀ t, c.state = .new t → t ≤ (run h).now := by
    clear hnow hk hp ha hl
    induction k using List.reverseRecOn with
    | nil => rw [List.append_nil]; exact new_since h
    | append_singleton k e ih =>
      intro c hc t hs
      rw [← List.append_assoc, run_snoc] at hc
      obtain ⟨i, hi⟩ := List.getElem?_of_mem hc
      obtain ⟨c0, h1, h2⟩ := down_conn (inv _) (told_is_down ht k) e hi
      refine ih c0 (List.mem_of_getElem? h1) t ?_
      rcases h2 with rfl | rfl | rfl | rfl | rfl | rfl
      · exact hs
      · unfold Conn.request at hs; split at hs <;> simp_all
      · unfold Conn.hangUp at hs; split at hs <;> simp_all
      · unfold Conn.answer at hs; split at hs <;> simp_all
      · unfold Conn.panics at hs; split at hs <;> simp_all
      · unfold closeIdle at hs
        split at hs
        · simp at hs
        · split at hs
          · simp at hs
          · exact hs
        · exact hs
  rw [run_snoc, step_live hl]
  simp only [hp]
  rw [if_pos]
  rw [List.all_eq_true]
  intro c hc
  obtain ⟨x, hx, rfl⟩ := List.mem_map.1 hc
  rw [decide_eq_true_iff]
  unfold closeIdle
  cases hs : x.state with
  | active => exact absurd hs (ha x hx)
  | idle => rfl
  | closed => exact hs
  | new t =>
    have := hold x hx t hs
    dsimp only
    rw [if_pos (by omega)]

/-! ## examples and limits -/

/-- the hypotheses of `c128_prompt` and `c128_last_answer`: a silent client, and one that is answered and asks again -/
def silent : List Event := [.listen true, .connect, .connect, .request 0, .signal, .receive]

example : Told silent ∧ (∃ d, (run (silent ++ [.answer 0, .request 0, .poll, .tick 6000])).phase = .shutting d) ∧
    (run (silent ++ [.answer 0, .request 0, .poll, .tick 6000])).conns.map (fun c => (c.state, c.answered)) = [(.closed, 1), (.new 0, 0)] :=
  ⟨by unfold Told; decide +kernel, ⟨10000, by decide +kernel⟩, by decide +kernel⟩

/-- two connections, a request answered on each, one of them during the shutdown; the second signal has no effect -/
def gently : List Event :=
  [.listen true, .connect, .connect, .request 0, .answer 0, .request 1, .tick 3000, .signal, .signal, .receive, .poll, .tick 2000, .answer 1, .poll, .stopped]

example : (run gently).phase = .ended true ∧ AllAnswered (run gently) ∧ (run gently).conns.map Conn.answered = [1, 1] ∧ (run gently).now = 5000 := by
  unfold AllAnswered; decide +kernel

/-- the hypotheses of `c128_ends` and `c128_waits` -/
def hard : List Event := [.listen true, .connect, .request 0, .signal, .receive, .poll, .tick 10000, .expire, .answer 0, .stopped]

example : Told hard ∧ (run hard).phase = .ended false ∧ AllAnswered (run hard) := by
  refine ⟨by unfold Told; decide +kernel, by decide +kernel, by unfold AllAnswered; decide +kernel⟩

/-- Full statement: a request that the service has read is answered before the process ends. -/
def AlwaysAnswered : Prop := ∀ h : List Event, (run h).phase.isEnded = true → ∀ c ∈ (run h).conns, c.read = c.answered

/-- C128 is false: a key generation may take longer than the ten seconds (its timeout alone is thirty, C124); a service that is told to stop leaves the
client without answer. -/
theorem c128_cut_off : let h := [.listen true, .connect, .request 0, .tick 1000, .signal, .receive, .poll, .tick 10000, .expire, .stopped]
    (run h).phase = .ended false ∧ (run h).conns.map (fun c => (c.read, c.answered, c.panicked)) = [(1, 0, 0)] ∧ ¬ AlwaysAnswered := by
  refine ⟨by decide +kernel, by decide +kernel, fun h => ?_⟩
  have := h [.listen true, .connect, .request 0, .tick 1000, .signal, .receive, .poll, .tick 10000, .expire, .stopped] (by decide +kernel)
    ⟨.active, 1, 0, 0⟩ (by decide +kernel)
  simp at this

/-- C128 is false: a panic of the call (C76: a request without messages) leaves the client without answer; the process goes on. -/
theorem c128_panic : let h := [.listen true, .connect, .request 0, .panics 0]
    (run h).phase = .waiting ∧ (run h).conns.map (fun c => (c.read, c.answered, c.state)) = [(1, 0, .closed)] := by decide +kernel

/-- C128, limit: a client that connected before the signal can still send its request after it; it is handled. -/
theorem c128_late_request :
    let h := [Event.listen true, .connect, .signal, .receive, .poll, .tick 3000, .request 0, .poll, .tick 100, .answer 0, .poll, .stopped]
    (run h).phase = .ended true ∧ (run h).conns.map (fun c => (c.read, c.answered)) = [(1, 1)] := by decide +kernel

end Verif.Props.Process
