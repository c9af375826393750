import Verif.Model.StreamMgr
import Mathlib.Data.List.Induction

/-! # C13, C14, C68: stream release -/
namespace Verif.Props.StreamRelease
open Verif.Go Verif.StreamMgr

variable {S : Type}

theorem run_snoc (h : List (Op S)) (o : Op S) : run (h ++ [o]) = step (run h) o := by
  simp [run]

/-- the streams retained for an id -/
def retained (st : State S) (id : String) : List S := (Map.get st.unused id).getD []

theorem retained_add (st : State S) (id id' : String) (s : S) :
    retained (addStream st id (some s)) id' = if id' = id then retained st id ++ [s] else retained st id' := by
  unfold retained addStream
  simp only
  rcases h : Map.get st.unused id with _ | e
  · simp only [Map.get_set]; split <;> simp
  · simp only [Map.get_set]; split <;> simp

theorem retained_release (st : State S) (id id' : String) :
    retained (releaseStream st id) id' = if id' = id then [] else retained st id' := by
  unfold retained releaseStream finish snapshot
  simp only
  rcases h : Map.get st.unused id with _ | e <;> rcases h2 : Map.get st.unused "UNKNOWN" with _ | e2
  · simp only [Option.isSome_none, Bool.or_false, Bool.false_eq_true, if_false]
    by_cases he : id' = id
    · rw [if_pos he, he, h]; rfl
    · rw [if_neg he]
  · simp [Map.get_del]; split <;> simp
  · simp [Map.get_del]; split <;> simp
  · simp [Map.get_del]; split <;> simp

theorem resets_release (st : State S) (id : String) :
    (releaseStream st id).resets = st.resets ++ (retained st id ++ retained st "UNKNOWN") := by
  unfold retained releaseStream finish snapshot
  simp only
  rcases h : Map.get st.unused id with _ | e <;> rcases h2 : Map.get st.unused "UNKNOWN" with _ | e2 <;> simp

theorem resets_add (st : State S) (id : String) (s : Option S) : (addStream st id s).resets = st.resets := by
  unfold addStream
  cases s with
  | none => rfl
  | some s => simp only; split <;> rfl

theorem resets_mono_step (st : State S) (o : Op S) (s : S) (h : s ∈ st.resets) : s ∈ (step st o).resets := by
  cases o with
  | add id s' => simpa [step, resets_add] using h
  | addNil id => simpa [step, resets_add] using h
  | release id => simp [step, resets_release, h]

/-- every stream that was added is still retained under its id or has been reset -/
theorem added_retained_or_reset (h : List (Op S)) (id : String) (s : S) (ha : Op.add id s ∈ h) :
    s ∈ retained (run h) id ∨ s ∈ (run h).resets := by
  induction h using List.reverseRecOn with
  | nil => simp at ha
  | append_singleton h o ih =>
    rw [run_snoc]
    rcases List.mem_append.1 ha with ha | ha
    · rcases ih ha with h1 | h1
      · cases o with
        | add id' s' =>
          left
          simp only [step, retained_add]
          split
          · next he => subst he; simp [h1]
          · exact h1
        | addNil id' => left; simpa [step, addStream] using h1
        | release id' =>
          by_cases he : id = id'
          · right; subst he; simp [step, resets_release, h1]
          · left; simp only [step, retained_release, he, if_false]; exact h1
      · right; exact resets_mono_step _ _ _ h1
    · simp at ha
      subst ha
      left
      simp [step, retained_add]

/-- C13: after ReleaseStream(id) every stream ever added for `id` or for UNKNOWN has been reset. -/
theorem c13_released_streams_reset (h : List (Op S)) (id : String) (s : S)
    (ha : Op.add id s ∈ h ∨ Op.add "UNKNOWN" s ∈ h) : s ∈ (run (h ++ [Op.release id])).resets := by
  rw [run_snoc]
  simp only [step, resets_release]
  rcases ha with ha | ha
  · rcases added_retained_or_reset h id s ha with h1 | h1 <;> simp [h1]
  · rcases added_retained_or_reset h _ s ha with h1 | h1 <;> simp [h1]

theorem retained_was_added (h : List (Op S)) (id : String) (s : S) (hr : s ∈ retained (run h) id) :
    ∃ h1 h2, h = h1 ++ Op.add id s :: h2 ∧ Op.release id ∉ h2 := by
  induction h using List.reverseRecOn with
  | nil => simp [run, init, retained] at hr
  | append_singleton h o ih =>
    rw [run_snoc] at hr
    cases o with
    | add id' s' =>
      simp only [step, retained_add] at hr
      split at hr
      · next he =>
        subst he
        rcases List.mem_append.1 hr with hr | hr
        · obtain ⟨h1, h2, e, hn⟩ := ih hr
          exact ⟨h1, h2 ++ [Op.add id s'], by simp [e], by simp [hn]⟩
        · simp at hr; subst hr
          exact ⟨h, [], rfl, by simp⟩
      · obtain ⟨h1, h2, e, hn⟩ := ih hr
        exact ⟨h1, h2 ++ [Op.add id' s'], by simp [e], by simp [hn]⟩
    | addNil id' =>
      obtain ⟨h1, h2, e, hn⟩ := ih (by simpa [step, addStream] using hr)
      exact ⟨h1, h2 ++ [Op.addNil id'], by simp [e], by simp [hn]⟩
    | release id' =>
      simp only [step, retained_release] at hr
      split at hr
      · simp at hr
      · next he =>
        obtain ⟨h1, h2, e, hn⟩ := ih hr
        exact ⟨h1, h2 ++ [Op.release id'], by simp [e], by simp [hn]; exact he⟩

/-- C13: a stream is reset only by the release of the session it was added for, after it was added (or by any release, if it
was filed under UNKNOWN): no other session's stream is touched. -/
theorem c13_only_released_streams_reset (h : List (Op S)) (s : S) (hr : s ∈ (run h).resets) :
    ∃ id h1 h2, h = h1 ++ Op.add id s :: h2 ∧ (Op.release id ∈ h2 ∨ (id = "UNKNOWN" ∧ ∃ id', Op.release id' ∈ h2)) := by
  induction h using List.reverseRecOn with
  | nil => simp [run, init] at hr
  | append_singleton h o ih =>
    rw [run_snoc] at hr
    have ext : s ∈ (run h).resets → ∃ id h1 h2, h ++ [o] = h1 ++ Op.add id s :: h2 ∧
        (Op.release id ∈ h2 ∨ (id = "UNKNOWN" ∧ ∃ id', Op.release id' ∈ h2)) := by
      intro h0
      obtain ⟨id, h1, h2, e, hh⟩ := ih h0
      refine ⟨id, h1, h2 ++ [o], by simp [e], ?_⟩
      rcases hh with hh | ⟨hh, id', hh'⟩
      · left; simp [hh]
      · right; exact ⟨hh, id', by simp [hh']⟩
    cases o with
    | add id' s' => exact ext (by simpa [step, resets_add] using hr)
    | addNil id' => exact ext (by simpa [step, resets_add] using hr)
    | release id' =>
      simp only [step, resets_release, List.mem_append] at hr
      rcases hr with hr | hr | hr
      · exact ext hr
      · obtain ⟨h1, h2, e, _⟩ := retained_was_added h id' s hr
        exact ⟨id', h1, h2 ++ [Op.release id'], by simp [e], by simp⟩
      · obtain ⟨h1, h2, e, _⟩ := retained_was_added h "UNKNOWN" s hr
        exact ⟨"UNKNOWN", h1, h2 ++ [Op.release id'], by simp [e], Or.inr ⟨rfl, id', by simp⟩⟩

/-- C13: streams of a session that has not been released since stay retained, and the session's own list is empty right
after its release. -/
theorem c13_others_retained (h1 h2 : List (Op S)) (id : String) (s : S) (hn : Op.release id ∉ h2) :
    s ∈ retained (run (h1 ++ Op.add id s :: h2)) id := by
  induction h2 using List.reverseRecOn with
  | nil =>
    rw [run_snoc]; simp [step, retained_add]
  | append_singleton h o ih =>
    simp only [List.mem_append, List.mem_singleton, not_or] at hn
    have e : h1 ++ Op.add id s :: (h ++ [o]) = (h1 ++ Op.add id s :: h) ++ [o] := by simp
    rw [e, run_snoc]
    have := ih hn.1
    cases o with
    | add id' s' =>
      simp only [step, retained_add]
      split
      · next he => subst he; simp [this]
      · exact this
    | addNil id' => simpa [step, addStream] using this
    | release id' =>
      have hne : id ≠ id' := fun he => hn.2 (by rw [he])
      simp only [step, retained_release, hne, if_false]; exact this

theorem c13_released_forgotten (h : List (Op S)) (id : String) : retained (run (h ++ [Op.release id])) id = [] := by
  rw [run_snoc]; simp [step, retained_release]

/-- Witness for C13: two sessions and an unknown stream; releasing "a" resets 1 and 3, keeps 2. -/
example : (run [Op.add "a" 1, Op.add "b" 2, Op.add "UNKNOWN" 3, Op.release "a"]).resets = [1, 3] ∧
    retained (run [Op.add "a" 1, Op.add "b" 2, Op.add "UNKNOWN" 3, Op.release "a"]) "b" = [2] := by decide

/-! ## C14 -/

/-- C14 is false: a stream filed under UNKNOWN is kept (and reset again) by every later release of a real session; it is
never forgotten. -/
theorem c14_unknown_never_forgotten (h : List (Op S)) (s : S) (ha : Op.add "UNKNOWN" s ∈ h)
    (hn : Op.release "UNKNOWN" ∉ h) : s ∈ retained (run h) "UNKNOWN" := by
  obtain ⟨h1, h2, rfl⟩ := List.append_of_mem ha
  exact c13_others_retained h1 h2 "UNKNOWN" s (fun hh => hn (by simp [hh]))

/-- C14: witness of the accumulation: after releasing session "a" twice the stream 3 has been reset twice and is still there. -/
theorem c14_unknown_accumulates :
    (run [Op.add "UNKNOWN" 3, Op.release "a", Op.release "a"]).resets = [3, 3] ∧
    retained (run [Op.add "UNKNOWN" 3, Op.release "a", Op.release "a"]) "UNKNOWN" = [3] := by decide

/-- C14 (partial): streams filed under a session's own id are forgotten by its release. Missing: the UNKNOWN streams. -/
theorem c14_session_streams_forgotten_partial (h : List (Op S)) (id : String) (h' : List (Op S))
    (hn : ∀ s, Op.add id s ∉ h') : retained (run (h ++ Op.release id :: h')) id = [] := by
  induction h' using List.reverseRecOn with
  | nil => rw [run_snoc]; simp [step, retained_release]
  | append_singleton h2 o ih =>
    have e : h ++ Op.release id :: (h2 ++ [o]) = (h ++ Op.release id :: h2) ++ [o] := by simp
    rw [e, run_snoc]
    have := ih (fun s hs => hn s (by simp [hs]))
    cases o with
    | add id' s' =>
      have hne : id ≠ id' := fun he => hn s' (by simp [he])
      simp only [step, retained_add, hne, if_false]; exact this
    | addNil id' => simpa [step, addStream] using this
    | release id' => simp only [step, retained_release]; split <;> simp [this]

/-! ## C68 concurrent AddStream and ReleaseStream -/

/-- C68 is false: a stream added between the two critical sections of ReleaseStream of the same session is dropped without
ever being reset. -/
theorem c68_racing_stream_lost :
    ∃ (st : State Nat) (id : String) (s : Nat),
      let snap := snapshot st id
      let st1 := addStream st id (some s)
      let st2 := finish st1 id snap
      s ∉ retained st2 id ∧ s ∉ st2.resets :=
  ⟨⟨[("a", [1])], []⟩, "a", 2, by decide⟩

/-- C68 (partial): a stream added during the release of another session is kept. Missing: the same session, where it is
lost. -/
theorem c68_other_session_safe_partial (st : State S) (id id' : String) (s : S) (hne : id' ≠ id) :
    s ∈ retained (finish (addStream st id' (some s)) id (snapshot st id)) id' := by
  have h := retained_add st id' id' s
  simp only [if_true] at h
  unfold finish
  rcases snapshot st id with _ | l
  · simp only; rw [h]; simp
  · unfold retained at h ⊢
    simp only [Map.get_del_ne _ hne]
    rw [h]; simp

end Verif.Props.StreamRelease
