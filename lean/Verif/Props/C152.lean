import Verif.Model.StreamSlices
import Verif.Model.StreamMgr
import Verif.Props.C151

set_option linter.unusedSectionVars false
set_option linter.unusedSimpArgs false

/-!
# C152: what a release closes, whatever runs at the same time
-/
namespace Verif.Props.ReleaseRace
open Verif.Go
open Verif.AcceptSlices (Heap Slice arr content goGrow)
open Verif.StreamSlices
open Verif.Props.AcceptRace (arr_new arr_set Own content_length)

/-! ## Specification -/

/-- The stream was handed over for this session, or for an unknown one. -/
def Handed (h : List StreamSlices.Ev) (id : String) (x : Nat) : Prop := Ev.add id x ∈ h ∨ Ev.add "UNKNOWN" x ∈ h

/-- The event belongs to another call than the release of session `id` by thread `t`, and to no call that touches the session: no stream is handed over for it, and
neither it nor the unknown sessions are released a second time. -/
def Other (t : Nat) (id : String) : StreamSlices.Ev → Prop
  | .add k _ => k ≠ id
  | .look t' k => t' ≠ t ∧ k ≠ id ∧ k ≠ "UNKNOWN"
  | .join t' => t' ≠ t
  | .reset t' => t' ≠ t
  | .finish t' => t' ≠ t

/-- The streams reset so far by releases of the session. -/
def closed (st : StreamSlices.St) (id : String) : List (Option Nat) := (st.resets.filter fun p => p.1 = id).map Prod.snd

/-- The streams retained for a session. -/
def retained (st : StreamSlices.St) (id : String) : List (Option Nat) := (Map.get st.unused id).elim [] (content st.heap)

/-- No other release of the session, or of the unknown ones, is running. -/
def Alone (st : StreamSlices.St) (t : Nat) (id : String) : Prop :=
  ∀ t' r, t' ≠ t → Map.get st.rels t' = some r → r.id ≠ id ∧ r.id ≠ "UNKNOWN"

/-- The events of calls that run one after the other; a release takes as many turns of its loop as it has streams, or more (which change nothing). -/
inductive Calls : List (StreamMgr.Op Nat) → List StreamSlices.Ev → Prop
  | none : Calls [] []
  | add {ops h} (id : String) (x : Nat) : Calls ops h → Calls (ops ++ [.add id x]) (h ++ [.add id x])
  | nil {ops h} (id : String) : Calls ops h → Calls (ops ++ [.addNil id]) h
  | release {ops h} (t : Nat) (id : String) (n : Nat) (hn : ((StreamMgr.snapshot (StreamMgr.run ops) id).getD []).length ≤ n) :
    Calls ops h → Calls (ops ++ [.release id]) (h ++ (Ev.look t id :: Ev.join t :: List.replicate n (Ev.reset t)) ++ [Ev.finish t])

/-! ## every array belongs to one session -/

/-- a stream that may be in an array of the session -/
def Good (h : List StreamSlices.Ev) (id : String) (v : Option Nat) : Prop := ∃ x, v = some x ∧ Handed h id x

/-- the slice lies on an array of the session and holds only its streams and unknown ones -/
structure Fine (hist : List StreamSlices.Ev) (owner : Nat → String) (h : Heap) (s : Slice) (id : String) : Prop where
  own : Own h s
  owner : owner s.arr = id
  good : ∀ v ∈ content h s, Good hist id v

theorem Good.more {hist : List StreamSlices.Ev} {id : String} {v : Option Nat} (hg : Good hist id v) (e : StreamSlices.Ev) : Good (hist ++ [e]) id v := by
  obtain ⟨x, rfl, hx⟩ := hg
  exact ⟨x, rfl, hx.imp (fun m => by simp [m]) fun m => by simp [m]⟩

theorem Fine.more {hist : List StreamSlices.Ev} {owner : Nat → String} {h : Heap} {s : Slice} {id : String} (hf : Fine hist owner h s id) (e : StreamSlices.Ev) :
    Fine (hist ++ [e]) owner h s id := ⟨hf.own, hf.owner, fun v hv => (hf.good v hv).more e⟩

theorem arr_write (h : Heap) {a : Nat} (ha : a < h.length) (k : Nat) (xs : List (Option Nat)) (b : Nat) :
    arr (write h a k xs) b = if b = a then (arr h a).take k ++ xs ++ (arr h a).drop (k + xs.length) else arr h b := arr_set h _ ha b

theorem Fine.write {hist : List StreamSlices.Ev} {owner : Nat → String} {h : Heap} {s : Slice} {id : String} (hf : Fine hist owner h s id) {a : Nat} (ha : a < h.length)
    {k : Nat} {xs : List (Option Nat)} (hk : k + xs.length ≤ (arr h a).length) (hx : ∀ v ∈ xs, Good hist (owner a) v) : Fine hist owner (StreamSlices.write h a k xs) s id := by
  have hlen : ∀ b, (arr (StreamSlices.write h a k xs) b).length = (arr h b).length := by
    intro b
    rw [arr_write h ha]
    split
    · next e =>
      subst e
      simp
      omega
    · rfl
  refine ⟨⟨by simpa [StreamSlices.write] using hf.own.1, by rw [hlen]; exact hf.own.2⟩, hf.owner, fun v hv => ?_⟩
  rw [content, arr_write h ha] at hv
  split at hv
  · next e =>
    obtain ⟨i, hi⟩ := List.mem_iff_getElem?.1 hv
    rw [List.getElem?_take] at hi
    split at hi
    · next hlt =>
      by_cases h1 : i < k
      · refine hf.good v (List.mem_iff_getElem?.2 ⟨i, ?_⟩)
        rw [content, List.getElem?_take, if_pos hlt, e]
        rw [List.append_assoc, List.getElem?_append_left (by simp; omega), List.getElem?_take, if_pos h1] at hi
        exact hi
      · by_cases h2 : i < k + xs.length
        · rw [← hf.owner, e]
          refine hx v (List.mem_iff_getElem?.2 ⟨i - k, ?_⟩)
          rw [List.append_assoc, List.getElem?_append_right (by simp; omega), List.getElem?_append_left (by simp; omega)] at hi
          rw [← hi]
          congr 1
          simp
          omega
        · refine hf.good v (List.mem_iff_getElem?.2 ⟨i, ?_⟩)
          rw [content, List.getElem?_take, if_pos hlt, e]
          rw [List.getElem?_append_right (by simp; omega), List.getElem?_drop] at hi
          rw [← hi]
          congr 1
          simp
          omega
    · cases hi
  · exact hf.good v hv

theorem Fine.new {hist : List StreamSlices.Ev} {owner : Nat → String} {h : Heap} {s : Slice} {id : String} (hf : Fine hist owner h s id) (c : List (Option Nat)) (k : String) :
    Fine hist (Function.update owner h.length k) (h ++ [c]) s id := by
  have hne : s.arr ≠ h.length := by have := hf.own.1; omega
  have ha : arr (h ++ [c]) s.arr = arr h s.arr := by rw [arr_new, if_neg hne]
  refine ⟨⟨by have := hf.own.1; simp; omega, by rw [ha]; exact hf.own.2⟩, ?_, fun v hv => hf.good v ?_⟩
  · rw [Function.update_of_ne hne]
    exact hf.owner
  · rw [content, ha] at hv
    exact hv

/-- an append keeps all slices fine and makes a fine one -/
theorem append_fine {grow : Nat → Nat} {hist : List StreamSlices.Ev} {owner : Nat → String} {h : Heap} {o : Option Slice} {id : String} {xs : List (Option Nat)}
    (ho : ∀ s, o = some s → Fine hist owner h s id) (hx : ∀ v ∈ xs, Good hist id v) :
    ∃ owner', (∀ s k, Fine hist owner h s k → Fine hist owner' (appendAll grow h o xs).1 s k) ∧
      ∀ s, (appendAll grow h o xs).2 = some s → Fine hist owner' (appendAll grow h o xs).1 s id := by
  unfold appendAll
  split
  · exact ⟨owner, fun _ _ hf => hf, ho⟩
  · cases o with
    | none =>
      refine ⟨Function.update owner h.length id, fun s k hf => hf.new _ _, ?_⟩
      rintro _ ⟨⟩
      refine ⟨⟨by simp, ?_⟩, by simp, fun v hv => hx v ?_⟩
      · simp [arr_new]
      · simpa [content, arr_new] using hv
    | some s =>
      have hs := ho s rfl
      by_cases hc : s.len + xs.length ≤ (arr h s.arr).length
      · simp only [if_pos hc]
        have hw : ∀ s' k, Fine hist owner h s' k → Fine hist owner (StreamSlices.write h s.arr s.len xs) s' k := fun s' k hf =>
          hf.write hs.own.1 hc (by rw [hs.owner]; exact hx)
        refine ⟨owner, hw, ?_⟩
        rintro _ ⟨⟩
        have hcon : content (StreamSlices.write h s.arr s.len xs) ⟨s.arr, s.len + xs.length⟩ = content h s ++ xs := by
          simp only [content, arr_write h hs.own.1, if_true]
          rw [List.take_append_of_le_length (by simp; omega), List.take_of_length_le (by simp)]
        refine ⟨⟨(hw s id hs).own.1, ?_⟩, hs.owner, fun v hv => ?_⟩
        · simp only [arr_write h hs.own.1, if_true]
          simp
          omega
        · rw [hcon, List.mem_append] at hv
          exact hv.elim (hs.good v) (hx v)
      · simp only [if_neg hc]
        refine ⟨Function.update owner h.length id, fun s' k hf => hf.new _ _, ?_⟩
        rintro _ ⟨⟩
        have hl := content_length hs.own
        refine ⟨⟨by simp, ?_⟩, by simp, fun v hv => ?_⟩
        · simp [arr_new, hl]
        · have : v ∈ content h s ++ xs := by
            simp only [content, arr_new, if_true] at hv ⊢
            rw [List.take_append_of_le_length (by simp [hs.own.2]), List.take_of_length_le (by simp)] at hv
            exact hv
          rw [List.mem_append] at this
          exact this.elim (hs.good v) (hx v)

/-- what holds at all times -/
structure Inv (hist : List StreamSlices.Ev) (st : StreamSlices.St) : Prop where
  log : ∀ id v, (id, v) ∈ st.resets → Good hist id v
  fine : ∃ owner, (∀ id s, Map.get st.unused id = some s → Fine hist owner st.heap s id) ∧
    ∀ t r, Map.get st.rels t = some r → (∀ s, r.used = some s → Fine hist owner st.heap s r.id) ∧
      (∀ s, r.unknown = some s → Fine hist owner st.heap s "UNKNOWN") ∧ ∀ s, r.streams = some s → Fine hist owner st.heap s r.id

theorem inv_more {hist : List StreamSlices.Ev} {st : StreamSlices.St} (hi : Inv hist st) (e : StreamSlices.Ev) : Inv (hist ++ [e]) st := by
  obtain ⟨hl, owner, h1, h2⟩ := hi
  exact ⟨fun id v hv => (hl id v hv).more e, owner, fun id s hs => (h1 id s hs).more e,
    fun t r hr => ⟨fun s hs => ((h2 t r hr).1 s hs).more e, fun s hs => ((h2 t r hr).2.1 s hs).more e, fun s hs => ((h2 t r hr).2.2 s hs).more e⟩⟩

theorem appendAll_some (grow : Nat → Nat) (h : Heap) (s : Slice) (xs : List (Option Nat)) : ∃ s', (appendAll grow h (some s) xs).2 = some s' := by
  unfold appendAll
  split
  · exact ⟨_, rfl⟩
  · simp only
    split
    · exact ⟨_, rfl⟩
    · exact ⟨_, rfl⟩

theorem add_eq (grow : Nat → Nat) (st : StreamSlices.St) (id : String) (x : Nat) {s : Slice} (hs : Map.get st.unused id = some s) :
    ∃ s', (appendAll grow st.heap (some s) [some x]).2 = some s' ∧
      addStream grow st id x = { st with heap := (appendAll grow st.heap (some s) [some x]).1, unused := Map.set st.unused id s' } := by
  obtain ⟨s', h'⟩ := appendAll_some grow st.heap s [some x]
  refine ⟨s', h', ?_⟩
  unfold addStream
  rw [hs]
  simp only
  generalize appendAll grow st.heap (some s) [some x] = p at *
  obtain ⟨a, b⟩ := p
  simp only at h'
  subst h'
  rfl

theorem inv_step (grow : Nat → Nat) {hist : List StreamSlices.Ev} {st : StreamSlices.St} (hi : Inv hist st) (e : StreamSlices.Ev) :
    Inv (hist ++ [e]) (StreamSlices.step grow st e) := by
  obtain ⟨hl, owner, h1, h2⟩ := inv_more hi e
  cases e with
  | add id x =>
    have hg : Good (hist ++ [Ev.add id x]) id (some x) := ⟨x, rfl, .inl (by simp)⟩
    cases q : Map.get st.unused id with
    | none =>
      simp only [StreamSlices.step, addStream, q]
      refine ⟨hl, Function.update owner st.heap.length id, fun k s hk => ?_, fun t r hr => ?_⟩
      · simp only [Map.get_set] at hk
        split at hk
        · next e =>
          cases hk
          subst e
          refine ⟨⟨by simp, by simp [arr_new]⟩, by simp, fun v hv => ?_⟩
          have : v = some x := by simpa [content, arr_new] using hv
          rw [this]
          exact hg
        · exact (h1 k s hk).new _ _
      · obtain ⟨g1, g2, g3⟩ := h2 t r hr
        exact ⟨fun s hs => (g1 s hs).new _ _, fun s hs => (g2 s hs).new _ _, fun s hs => (g3 s hs).new _ _⟩
    | some s0 =>
      obtain ⟨s', hs', he⟩ := add_eq grow st id x q
      simp only [StreamSlices.step, he]
      obtain ⟨owner', f1, f2⟩ := append_fine (grow := grow) (xs := [some x]) (o := some s0) (id := id) (owner := owner) (h := st.heap) (hist := hist ++ [Ev.add id x])
        (by rintro _ ⟨⟩; exact h1 id s0 q) (by intro v hv; rw [List.mem_singleton.1 hv]; exact hg)
      refine ⟨hl, owner', fun k s hk => ?_, fun t r hr => ?_⟩
      · simp only [Map.get_set] at hk
        split at hk
        · next e =>
          cases hk
          subst e
          exact f2 _ hs'
        · exact f1 _ _ (h1 k s hk)
      · obtain ⟨g1, g2, g3⟩ := h2 t r hr
        exact ⟨fun s hs => f1 _ _ (g1 s hs), fun s hs => f1 _ _ (g2 s hs), fun s hs => f1 _ _ (g3 s hs)⟩
  | look t id =>
    refine ⟨hl, owner, h1, fun t' r hr => ?_⟩
    simp only [StreamSlices.step, StreamSlices.look, Map.get_set] at hr
    split at hr
    · cases hr
      refine ⟨fun s hs => h1 _ _ hs, fun s hs => h1 _ _ hs, fun s hs => ?_⟩
      cases hs
    · exact h2 t' r hr
  | join t =>
    cases q : Map.get st.rels t with
    | none =>
      simp only [StreamSlices.step, StreamSlices.join, q]
      exact ⟨hl, owner, h1, h2⟩
    | some r =>
      simp only [StreamSlices.step, StreamSlices.join, q]
      obtain ⟨g1, g2, g3⟩ := h2 t r q
      obtain ⟨owner', f1, f2⟩ := append_fine (grow := grow) (xs := r.unknown.elim [] (content st.heap)) (o := r.used) (id := r.id) (owner := owner) (h := st.heap)
        (hist := hist ++ [Ev.join t]) g1 (by
          intro v hv
          cases u : r.unknown with
          | none =>
            rw [u] at hv
            cases hv
          | some s =>
            rw [u] at hv
            obtain ⟨x, rfl, hx⟩ := (g2 s u).good v hv
            exact ⟨x, rfl, .inr (hx.elim (fun m => m) fun m => m)⟩)
      refine ⟨hl, owner', fun k s hk => f1 _ _ (h1 k s hk), fun t' r' hr => ?_⟩
      simp only [Map.get_set] at hr
      split at hr
      · cases hr
        exact ⟨fun s hs => f1 _ _ (g1 s hs), fun s hs => f1 _ _ (g2 s hs), f2⟩
      · obtain ⟨k1, k2, k3⟩ := h2 t' r' hr
        exact ⟨fun s hs => f1 _ _ (k1 s hs), fun s hs => f1 _ _ (k2 s hs), fun s hs => f1 _ _ (k3 s hs)⟩
  | reset t =>
    simp only [StreamSlices.step, StreamSlices.reset]
    split
    · exact ⟨hl, owner, h1, h2⟩
    · next r q =>
      split
      · exact ⟨hl, owner, h1, h2⟩
      · next s hs =>
        split
        · next hlt =>
          obtain ⟨g1, g2, g3⟩ := h2 t r q
          refine ⟨fun id v hv => ?_, owner, h1, fun t' r' hr => ?_⟩
          · rw [List.mem_append, List.mem_singleton] at hv
            rcases hv with hv | hv
            · exact hl id v hv
            · cases hv
              have hf := g3 s hs
              have hlt2 : r.pos < (arr st.heap s.arr).length := lt_of_lt_of_le hlt hf.own.2
              rw [List.getElem?_eq_getElem hlt2, Option.getD_some]
              refine hf.good _ (List.mem_iff_getElem?.2 ⟨r.pos, ?_⟩)
              rw [content, List.getElem?_take, if_pos hlt, List.getElem?_eq_getElem hlt2]
          · simp only [Map.get_set] at hr
            split at hr
            · cases hr
              exact ⟨g1, g2, g3⟩
            · exact h2 t' r' hr
        · exact ⟨hl, owner, h1, h2⟩
  | finish t =>
    simp only [StreamSlices.step, StreamSlices.finish]
    split
    · exact ⟨hl, owner, h1, h2⟩
    · next r q =>
      refine ⟨hl, owner, fun k s hk => ?_, fun t' r' hr => ?_⟩
      · simp only at hk
        split at hk
        · rw [Map.get_del] at hk
          split at hk
          · cases hk
          · exact h1 k s hk
        · exact h1 k s hk
      · simp only [Map.get_del] at hr
        split at hr
        · cases hr
        · exact h2 t' r' hr

theorem inv_run (grow : Nat → Nat) (h : List StreamSlices.Ev) : Inv h (StreamSlices.run grow h) := by
  induction h using List.reverseRecOn with
  | nil =>
    refine ⟨?_, fun _ => "", ?_, ?_⟩ <;> simp [StreamSlices.run]
  | append_singleton h e ih =>
    have : StreamSlices.run grow (h ++ [e]) = StreamSlices.step grow (StreamSlices.run grow h) e := by simp [StreamSlices.run]
    rw [this]
    exact inv_step grow ih e

/-- Whatever runs at the same time: a stream that a release resets was handed over before, for the session being released or for an unknown one. So the end of a
session never closes the stream of another, although the release writes into shared arrays without the lock. -/
theorem c152_own_streams (grow : Nat → Nat) (h : List StreamSlices.Ev) (id : String) (v : Option Nat) (hv : (id, v) ∈ (StreamSlices.run grow h).resets) :
    ∃ x, v = some x ∧ Handed h id x := (inv_run grow h).log id v hv

/-- What is retained for a session was handed over for it or for an unknown one. -/
theorem c152_retained (grow : Nat → Nat) (h : List StreamSlices.Ev) (id : String) (s : Slice) (hs : Map.get (StreamSlices.run grow h).unused id = some s) :
    ∀ v ∈ content (StreamSlices.run grow h).heap s, ∃ x, v = some x ∧ Handed h id x := by
  obtain ⟨_, owner, h1, _⟩ := inv_run grow h
  exact (h1 id s hs).good

/-! ## calls that run one after the other -/

/-- what an append does -/
theorem append_content (grow : Nat → Nat) (h : Heap) (o : Option Slice) (xs : List (Option Nat)) (ho : ∀ s, o = some s → Own h s) :
    (match (appendAll grow h o xs).2 with
      | none => xs = [] ∧ o = none
      | some s' => content (appendAll grow h o xs).1 s' = o.elim [] (content h) ++ xs ∧ Own (appendAll grow h o xs).1 s' ∧
          ((∃ t, o = some t ∧ s'.arr = t.arr) ∨ h.length ≤ s'.arr)) ∧
    ∀ s, Own h s → (∀ t, o = some t → s.arr ≠ t.arr) → content (appendAll grow h o xs).1 s = content h s ∧ Own (appendAll grow h o xs).1 s := by
  unfold appendAll
  by_cases hx : xs = []
  · subst hx
    simp only [if_true]
    refine ⟨?_, fun s hs _ => ⟨trivial, hs⟩⟩
    cases o with
    | none => exact ⟨trivial, rfl⟩
    | some s => exact ⟨by simp, ho s rfl, .inl ⟨s, rfl, rfl⟩⟩
  · simp only [if_neg hx]
    have hnew : ∀ c s, Own h s → content (h ++ [c]) s = content h s ∧ Own (h ++ [c]) s := by
      intro c s hs
      have ha : arr (h ++ [c]) s.arr = arr h s.arr := by rw [arr_new, if_neg (by have := hs.1; omega)]
      exact ⟨by rw [content, ha]; rfl, by have := hs.1; simp; omega, by rw [ha]; exact hs.2⟩
    cases o with
    | none =>
      refine ⟨⟨?_, ⟨by simp, by simp [arr_new]⟩, .inr (le_refl _)⟩, fun s hs _ => hnew _ s hs⟩
      simp [content, arr_new]
    | some s =>
      have hs := ho s rfl
      by_cases hc : s.len + xs.length ≤ (arr h s.arr).length
      · simp only [if_pos hc]
        refine ⟨⟨?_, ⟨by simpa [StreamSlices.write] using hs.1, ?_⟩, .inl ⟨s, rfl, rfl⟩⟩, fun s' hs' hne => ?_⟩
        · simp only [content, arr_write h hs.1, if_true, Option.elim_some]
          rw [List.take_append_of_le_length (by simp; omega), List.take_of_length_le (by simp)]
        · simp only [arr_write h hs.1, if_true]
          simp
          omega
        · have ha : arr (StreamSlices.write h s.arr s.len xs) s'.arr = arr h s'.arr := by rw [arr_write h hs.1, if_neg (hne s rfl)]
          exact ⟨by rw [content, ha]; rfl, by simpa [StreamSlices.write] using hs'.1, by rw [ha]; exact hs'.2⟩
      · simp only [if_neg hc]
        have hl := content_length hs
        refine ⟨⟨?_, ⟨by simp, by simp [arr_new, hl]⟩, .inr (le_refl _)⟩, fun s' hs' _ => hnew _ s' hs'⟩
        simp only [content, arr_new, if_true, Option.elim_some]
        rw [List.take_append_of_le_length (by simp [hs.2]), List.take_of_length_le (by simp)]

/-- the two records agree, and every slice has its own array -/
structure Sim (st : StreamSlices.St) (ls : StreamMgr.State Nat) : Prop where
  own : ∀ id s, Map.get st.unused id = some s → Own st.heap s
  sep : ∀ id id' s s', Map.get st.unused id = some s → Map.get st.unused id' = some s' → s.arr = s'.arr → id = id'
  same : ∀ id, (Map.get st.unused id).map (content st.heap) = (Map.get ls.unused id).map (List.map some)
  resets : st.resets.map Prod.snd = ls.resets.map some

theorem sim_add (grow : Nat → Nat) {st : StreamSlices.St} {ls : StreamMgr.State Nat} (hs : Sim st ls) (id : String) (x : Nat) :
    Sim (addStream grow st id x) (StreamMgr.addStream ls id (some x)) := by
  have hsame := hs.same id
  cases q : Map.get st.unused id with
  | none =>
    rw [q] at hsame
    have ql : Map.get ls.unused id = none := by
      cases ql : Map.get ls.unused id with
      | none => rfl
      | some l =>
        rw [ql] at hsame
        cases hsame
    have hnew : ∀ s, Own st.heap s → content (st.heap ++ [[some x]]) s = content st.heap s ∧ Own (st.heap ++ [[some x]]) s := by
      intro s hs
      have ha : arr (st.heap ++ [[some x]]) s.arr = arr st.heap s.arr := by rw [arr_new, if_neg (by have := hs.1; omega)]
      exact ⟨by rw [content, ha]; rfl, by have := hs.1; simp; omega, by rw [ha]; exact hs.2⟩
    simp only [addStream, q, StreamMgr.addStream, ql]
    refine ⟨fun k s hk => ?_, fun k k' s s' hk hk' he => ?_, fun k => ?_, hs.resets⟩
    · simp only [Map.get_set] at hk
      split at hk
      · cases hk
        exact ⟨by simp, by simp [arr_new]⟩
      · exact (hnew s (hs.own k s hk)).2
    · simp only [Map.get_set] at hk hk'
      split at hk <;> split at hk'
      · simp_all
      · cases hk
        have := (hs.own _ _ hk').1
        simp only at he
        omega
      · cases hk'
        have := (hs.own _ _ hk).1
        simp only at he
        omega
      · exact hs.sep _ _ _ _ hk hk' he
    · simp only [Map.get_set]
      by_cases e : k = id
      · simp [e, content, arr_new]
      · rw [if_neg e, if_neg e, ← hs.same k]
        cases qk : Map.get st.unused k with
        | none => rfl
        | some s =>
          simp only [Option.map_some]
          rw [(hnew s (hs.own k s qk)).1]
  | some s0 =>
    rw [q] at hsame
    obtain ⟨l, ql, hl⟩ : ∃ l, Map.get ls.unused id = some l ∧ content st.heap s0 = l.map some := by
      cases ql : Map.get ls.unused id with
      | none =>
        rw [ql] at hsame
        cases hsame
      | some l =>
        rw [ql] at hsame
        exact ⟨l, rfl, Option.some.inj hsame⟩
    obtain ⟨s', hs', he⟩ := add_eq grow st id x q
    obtain ⟨a1, a2⟩ := append_content grow st.heap (some s0) [some x] (by rintro _ ⟨⟩; exact hs.own _ _ q)
    rw [hs'] at a1
    obtain ⟨b1, b2, b3⟩ := a1
    rw [he]
    simp only [StreamMgr.addStream, ql]
    have hnew : ∀ k s, k ≠ id → Map.get st.unused k = some s → content (appendAll grow st.heap (some s0) [some x]).1 s = content st.heap s ∧
        Own (appendAll grow st.heap (some s0) [some x]).1 s := fun k s hk hg =>
      a2 s (hs.own _ _ hg) (by rintro _ ⟨⟩ he; exact hk (hs.sep _ _ _ _ hg q he))
    have hdiff : ∀ k s, k ≠ id → Map.get st.unused k = some s → s.arr ≠ s'.arr := by
      intro k s hk hg he
      obtain ⟨t, ⟨⟩, ht⟩ | hge := b3
      · exact hk (hs.sep _ _ _ _ hg q (he.trans ht))
      · have := (hs.own _ _ hg).1
        omega
    refine ⟨fun k s hk => ?_, fun k k' s t hk hk' he => ?_, fun k => ?_, hs.resets⟩
    · simp only [Map.get_set] at hk
      split at hk
      · cases hk
        exact b2
      · next e => exact (hnew k s e hk).2
    · simp only [Map.get_set] at hk hk'
      split at hk <;> split at hk'
      · simp_all
      · next e1 e2 =>
        cases hk
        exact absurd he.symm (hdiff _ _ e2 hk')
      · next e1 e2 =>
        cases hk'
        exact absurd he (hdiff _ _ e1 hk)
      · exact hs.sep _ _ _ _ hk hk' he
    · simp only [Map.get_set]
      by_cases e : k = id
      · simp [e, b1, hl]
      · rw [if_neg e, if_neg e, ← hs.same k]
        cases qk : Map.get st.unused k with
        | none => rfl
        | some s =>
          simp only [Option.map_some]
          rw [(hnew k s e qk).1]

/-- the loop of a release that nobody disturbs -/
theorem resets_all (grow : Nat → Nat) (t : Nat) (n : Nat) (st : StreamSlices.St) (r : Rel) (hr : Map.get st.rels t = some r) (ho : ∀ s, r.streams = some s → Own st.heap s)
    (hn : (r.streams.elim 0 (·.len)) ≤ r.pos + n) :
    ∃ p rels, (List.replicate n (Ev.reset t)).foldl (StreamSlices.step grow) st =
        { st with rels := rels, resets := st.resets ++ ((r.streams.elim [] (content st.heap)).drop r.pos).map (fun v => (r.id, v)) } ∧
      Map.get rels t = some { r with pos := p } := by
  induction n generalizing st r with
  | zero =>
    refine ⟨r.pos, st.rels, ?_, hr⟩
    have : (r.streams.elim [] (content st.heap)).drop r.pos = [] := by
      rw [List.drop_eq_nil_iff]
      cases q : r.streams with
      | none => simp
      | some s =>
        rw [q] at hn
        have := content_length (ho s q)
        simp only [Option.elim_some] at hn ⊢
        omega
    simp [this]
  | succ n ih =>
    rw [List.replicate_succ, List.foldl_cons]
    have hstep : StreamSlices.step grow st (.reset t) = StreamSlices.reset st t := rfl
    rw [hstep]
    cases q : r.streams with
    | none =>
      have e : StreamSlices.reset st t = st := by
        unfold StreamSlices.reset
        rw [hr]
        simp only [q]
      rw [e]
      have := ih st r hr ho (by rw [q]; simp)
      rw [q] at this
      exact this
    | some s =>
      by_cases hlt : r.pos < s.len
      · have e : StreamSlices.reset st t = { st with resets := st.resets ++ [(r.id, (arr st.heap s.arr)[r.pos]?.getD none)], rels := Map.set st.rels t { r with pos := r.pos + 1 } } := by
          unfold StreamSlices.reset
          rw [hr]
          simp only [q, if_pos hlt]
        rw [e]
        obtain ⟨p, rels, h1, h2⟩ := ih { st with resets := st.resets ++ [(r.id, (arr st.heap s.arr)[r.pos]?.getD none)], rels := Map.set st.rels t { r with pos := r.pos + 1 } }
          { r with pos := r.pos + 1 } (by simp) (by simpa using ho) (by
            rw [q] at hn
            simp only [q, Option.elim_some] at hn ⊢
            omega)
        refine ⟨p, rels, ?_, by rw [← q]; exact h2⟩
        rw [h1]
        have hlt2 : r.pos < (content st.heap s).length := by rw [content_length (ho s q)]; exact hlt
        have hcell : (arr st.heap s.arr)[r.pos]?.getD none = (content st.heap s)[r.pos] := by
          rw [← Option.some_inj, ← List.getElem?_eq_getElem hlt2, content, List.getElem?_take, if_pos hlt,
            List.getElem?_eq_getElem (lt_of_lt_of_le hlt (ho s q).2)]
          rfl
        have hl : (content st.heap s).drop r.pos = (arr st.heap s.arr)[r.pos]?.getD none :: (content st.heap s).drop (r.pos + 1) := by
          rw [List.drop_eq_getElem_cons hlt2, hcell]
        generalize (arr st.heap s.arr)[r.pos]?.getD none = cell at hl ⊢
        simp only [q, Option.elim_some]
        rw [hl, List.map_cons, List.append_assoc, List.singleton_append]
      · have e : StreamSlices.reset st t = st := by
          unfold StreamSlices.reset
          rw [hr]
          simp only [q, if_neg hlt]
        rw [e]
        have := ih st r hr ho (by rw [q]; simp only [Option.elim_some]; omega)
        rw [q] at this
        exact this

theorem sim_release (grow : Nat → Nat) {st : StreamSlices.St} {ls : StreamMgr.State Nat} (hs : Sim st ls) (t : Nat) (id : String) (n : Nat)
    (hn : ((StreamMgr.snapshot ls id).getD []).length ≤ n) :
    Sim (StreamSlices.step grow ((List.replicate n (Ev.reset t)).foldl (StreamSlices.step grow)
      (StreamSlices.step grow (StreamSlices.step grow st (.look t id)) (.join t))) (.finish t)) (StreamMgr.releaseStream ls id) := by
  have elem : ∀ k, (Map.get st.unused k).elim [] (content st.heap) = ((Map.get ls.unused k).getD []).map some := by
    intro k
    have := hs.same k
    cases q : Map.get st.unused k <;> cases ql : Map.get ls.unused k <;> rw [q, ql] at this
    · rfl
    · cases this
    · cases this
    · simpa using this
  have some_iff : ∀ k, (Map.get st.unused k).isSome = (Map.get ls.unused k).isSome := by
    intro k
    have := congrArg Option.isSome (hs.same k)
    simpa using this
  have e1 : StreamSlices.step grow (StreamSlices.step grow st (.look t id)) (.join t) =
      { st with
        heap := (appendAll grow st.heap (Map.get st.unused id) ((Map.get st.unused "UNKNOWN").elim [] (content st.heap))).1
        rels := Map.set (Map.set st.rels t ⟨id, Map.get st.unused id, Map.get st.unused "UNKNOWN", none, 0⟩) t
          ⟨id, Map.get st.unused id, Map.get st.unused "UNKNOWN",
            (appendAll grow st.heap (Map.get st.unused id) ((Map.get st.unused "UNKNOWN").elim [] (content st.heap))).2, 0⟩ } := by
    simp only [StreamSlices.step, StreamSlices.look, StreamSlices.join, Map.get_set_self]
  rw [e1]
  obtain ⟨a1, a2⟩ := append_content grow st.heap (Map.get st.unused id) ((Map.get st.unused "UNKNOWN").elim [] (content st.heap)) (fun s h => hs.own id s h)
  generalize appendAll grow st.heap (Map.get st.unused id) ((Map.get st.unused "UNKNOWN").elim [] (content st.heap)) = ap at a1 a2 ⊢
  obtain ⟨heap', streams⟩ := ap
  simp only at a1 a2 ⊢
  -- what is reset
  have hstr : streams.elim [] (content heap') = (((Map.get ls.unused id).getD []) ++ ((Map.get ls.unused "UNKNOWN").getD [])).map some := by
    rw [List.map_append, ← elem, ← elem]
    cases streams with
    | none =>
      simp only at a1
      rw [a1.1, a1.2]
      rfl
    | some s' => exact a1.1
  have hown : ∀ s, streams = some s → Own heap' s := by
    rintro s rfl
    exact a1.2.1
  have hsnap : ((StreamMgr.snapshot ls id).getD []) = (Map.get ls.unused id).getD [] ++ (Map.get ls.unused "UNKNOWN").getD [] := by
    unfold StreamMgr.snapshot
    simp only
    split
    · rfl
    · next hno =>
      simp only [Bool.or_eq_true, not_or, Bool.not_eq_true, Option.isSome_eq_false_iff, Option.isNone_iff_eq_none] at hno
      rw [hno.1, hno.2]
      rfl
  obtain ⟨p, rels, h1, h2⟩ := resets_all grow t n
    { st with
        heap := heap'
        rels := Map.set (Map.set st.rels t ⟨id, Map.get st.unused id, Map.get st.unused "UNKNOWN", none, 0⟩) t
          ⟨id, Map.get st.unused id, Map.get st.unused "UNKNOWN", streams, 0⟩ }
    ⟨id, Map.get st.unused id, Map.get st.unused "UNKNOWN", streams, 0⟩ (by simp) hown (by
      rw [hsnap] at hn
      have := congrArg List.length hstr
      rw [List.length_map] at this
      cases streams with
      | none => simp
      | some s =>
        rw [Option.elim_some, content_length (hown s rfl)] at this
        simp only [Option.elim_some]
        omega)
  rw [h1]
  simp only [StreamSlices.step, StreamSlices.finish, h2, List.drop_zero]
  unfold StreamMgr.releaseStream StreamMgr.finish
  have hres : (st.resets ++ (streams.elim [] (content heap')).map (fun v => (id, v))).map Prod.snd =
      (ls.resets ++ ((Map.get ls.unused id).getD [] ++ (Map.get ls.unused "UNKNOWN").getD [])).map some := by
    rw [hstr, List.map_append, hs.resets, List.map_map, List.map_append]
    simp [Function.comp_def]
  rw [some_iff, some_iff]
  have hkeep : ∀ k s, k ≠ id → Map.get st.unused k = some s → content heap' s = content st.heap s ∧ Own heap' s := fun k s hk hg =>
    a2 s (hs.own _ _ hg) fun t ht he => hk (hs.sep _ _ _ _ hg ht he)
  cases hb : ((Map.get ls.unused id).isSome || (Map.get ls.unused "UNKNOWN").isSome) with
  | false =>
    have hsn : StreamMgr.snapshot ls id = none := by
      unfold StreamMgr.snapshot
      simp only [hb]
      rfl
    simp only [Bool.or_eq_false_iff, Option.isSome_eq_false_iff, Option.isNone_iff_eq_none] at hb
    rw [hsn]
    simp only [Bool.false_eq_true, if_false]
    have hq : Map.get st.unused id = none := by
      have := some_iff id
      rw [hb.1] at this
      simpa using this
    have hne : ∀ k s, Map.get st.unused k = some s → k ≠ id := by
      rintro k s hk rfl
      rw [hq] at hk
      cases hk
    refine ⟨fun k s hk => (hkeep k s (hne k s hk) hk).2, hs.sep, fun k => ?_, ?_⟩
    · rw [← hs.same k]
      cases qk : Map.get st.unused k with
      | none => rfl
      | some s =>
        simp only [Option.map_some]
        rw [(hkeep k s (hne k s qk) qk).1]
    · rw [hres, hb.1, hb.2]
      simp
  | true =>
    have hsn : StreamMgr.snapshot ls id = some ((Map.get ls.unused id).getD [] ++ (Map.get ls.unused "UNKNOWN").getD []) := by
      unfold StreamMgr.snapshot
      simp only [hb, if_true]
    rw [hsn]
    simp only [if_true]
    refine ⟨fun k s hk => ?_, fun k k' s s' hk hk' he => ?_, fun k => ?_, hres⟩
    · simp only [Map.get_del] at hk
      split at hk
      · cases hk
      · next e => exact (hkeep k s e hk).2
    · simp only [Map.get_del] at hk hk'
      split at hk
      · cases hk
      · split at hk'
        · cases hk'
        · exact hs.sep _ _ _ _ hk hk' he
    · simp only [Map.get_del]
      split
      · rfl
      · next e =>
        rw [← hs.same k]
        cases qk : Map.get st.unused k with
        | none => rfl
        | some s =>
          simp only [Option.map_some]
          rw [(hkeep k s e qk).1]

/-- Calls that run one after the other do what the lists of `Verif.StreamMgr` say: the same streams are reset in the same order, and the same are retained. So the
theorems about those (C13, C14) hold of the arrays. -/
theorem c152_one_after_the_other_partial (grow : Nat → Nat) {ops : List (StreamMgr.Op Nat)} {h : List StreamSlices.Ev} (hc : Calls ops h) :
    (StreamSlices.run grow h).resets.map Prod.snd = (StreamMgr.run ops).resets.map some ∧
    ∀ id, (Map.get (StreamSlices.run grow h).unused id).map (content (StreamSlices.run grow h).heap) = (Map.get (StreamMgr.run ops).unused id).map (List.map some) := by
  have : Sim (StreamSlices.run grow h) (StreamMgr.run ops) := by
    induction hc with
    | none => exact ⟨by simp [StreamSlices.run], by simp [StreamSlices.run], by simp [StreamSlices.run, StreamMgr.run, StreamMgr.init],
        by simp [StreamSlices.run, StreamMgr.run, StreamMgr.init]⟩
    | add id x _ ih =>
      have := sim_add grow ih id x
      simpa [StreamSlices.run, StreamMgr.run, StreamSlices.step, StreamMgr.step, List.foldl_append] using this
    | nil id _ ih => simpa [StreamMgr.run, StreamMgr.step, StreamMgr.addStream, List.foldl_append] using ih
    | release t id n hn _ ih =>
      have := sim_release grow ih t id n hn
      unfold StreamSlices.run StreamMgr.run at *
      rw [List.foldl_append, List.foldl_append, List.foldl_append, List.foldl_cons, List.foldl_cons]
      exact this
  exact ⟨this.resets, this.same⟩

/-! ## a release that only other sessions disturb -/

theorem append_keep (grow : Nat → Nat) (h : Heap) (o : Option Slice) (xs : List (Option Nat)) (ho : ∀ s, o = some s → Own h s) (s : Slice) (hs : Own h s)
    (hd : ∀ t, o = some t → s.arr = t.arr → s.len ≤ t.len) : content (appendAll grow h o xs).1 s = content h s ∧ Own (appendAll grow h o xs).1 s := by
  by_cases hsep : ∀ t, o = some t → s.arr ≠ t.arr
  · exact (append_content grow h o xs ho).2 s hs hsep
  · obtain ⟨t, rfl, he⟩ : ∃ t, o = some t ∧ s.arr = t.arr := by
      by_contra hno
      exact hsep fun t ht he => hno ⟨t, ht, he⟩
    have hle := hd t rfl he
    have ht := ho t rfl
    unfold appendAll
    by_cases hx : xs = []
    · simp only [if_pos hx]
      exact ⟨trivial, hs⟩
    · simp only [if_neg hx]
      by_cases hc : t.len + xs.length ≤ (arr h t.arr).length
      · simp only [if_pos hc]
        constructor
        · rw [content, arr_write h ht.1, if_pos he, List.append_assoc, List.take_append_of_le_length (by simp; omega), List.take_take, Nat.min_eq_left hle, ← he]
          rfl
        · refine ⟨by simpa [StreamSlices.write] using hs.1, ?_⟩
          rw [arr_write h ht.1, if_pos he]
          have := hs.2
          rw [he] at this
          simp
          omega
      · simp only [if_neg hc]
        have ha : ∀ c, arr (h ++ [c]) s.arr = arr h s.arr := by
          intro c
          rw [arr_new, if_neg (by have := hs.1; omega)]
        exact ⟨by rw [content, ha]; rfl, by have := hs.1; simp; omega, by rw [ha]; exact hs.2⟩

/-- before the two lists are joined -/
structure Before (t : Nat) (id : String) (cu cn : List (Option Nat)) (st : StreamSlices.St) : Prop where
  rel : ∃ U N, Map.get st.rels t = some ⟨id, U, N, none, 0⟩ ∧ U.elim [] (content st.heap) = cu ∧ N.elim [] (content st.heap) = cn ∧
    ∀ s, N = some s → ∀ s', Map.get st.unused "UNKNOWN" = some s' → s.arr = s'.arr → s.len ≤ s'.len
  alone : Alone st t id

/-- after they are joined -/
structure After (t : Nat) (id : String) (l : List (Option Nat)) (p : Nat) (st : StreamSlices.St) : Prop where
  rel : ∃ r, Map.get st.rels t = some r ∧ r.id = id ∧ r.pos = p ∧ r.streams.elim [] (content st.heap) = l
  alone : Alone st t id

/-- how a step of another call changes things: arrays of the session are left alone, arrays of the unknown streams are only written behind what is retained -/
structure Apart (t : Nat) (id : String) (st st' : StreamSlices.St) : Prop where
  rels : Map.get st'.rels t = Map.get st.rels t
  alone : Alone st t id → Alone st' t id
  own : ∀ r s, Map.get st.rels t = some r → r.id = id → (r.used = some s ∨ r.streams = some s) → content st'.heap s = content st.heap s
  unknown : ∀ r s, Map.get st.rels t = some r → r.unknown = some s → (∀ s', Map.get st.unused "UNKNOWN" = some s' → s.arr = s'.arr → s.len ≤ s'.len) →
    content st'.heap s = content st.heap s ∧ ∀ s', Map.get st'.unused "UNKNOWN" = some s' → s.arr = s'.arr → s.len ≤ s'.len
  closed : closed st' id = closed st id

theorem apart_step (grow : Nat → Nat) {hist : List StreamSlices.Ev} {st : StreamSlices.St} (hi : Inv hist st) (t : Nat) (id : String) (hal : Alone st t id)
    (e : StreamSlices.Ev) (he : Other t id e) : Apart t id st (StreamSlices.step grow st e) := by
  obtain ⟨_, owner, h1, h2⟩ := hi
  cases e with
  | add k x =>
    have hk : k ≠ id := he
    cases q : Map.get st.unused k with
    | none =>
      have hnew : ∀ s, Own st.heap s → content (st.heap ++ [[some x]]) s = content st.heap s := by
        intro s hs
        rw [content, arr_new, if_neg (by have := hs.1; omega)]
        rfl
      simp only [StreamSlices.step, addStream, q]
      refine ⟨rfl, fun h => h, fun r s hr hrid hs => ?_, fun r s hr hs hle => ⟨?_, ?_⟩, rfl⟩
      · rcases hs with hs | hs
        · exact hnew s ((h2 t r hr).1 s hs).own
        · exact hnew s ((h2 t r hr).2.2 s hs).own
      · exact hnew s ((h2 t r hr).2.1 s hs).own
      · intro s' hs' hse
        simp only [Map.get_set] at hs'
        split at hs'
        · cases hs'
          have := ((h2 t r hr).2.1 s hs).own.1
          simp only at hse
          omega
        · exact hle s' hs' hse
    | some s0 =>
      obtain ⟨s', hs', hadd⟩ := add_eq grow st k x q
      have hown0 : ∀ s, some s0 = some s → Own st.heap s := by
        rintro _ ⟨⟩
        exact (h1 k s0 q).own
      have hfar : ∀ s k', Fine hist owner st.heap s k' → k' ≠ k → content (appendAll grow st.heap (some s0) [some x]).1 s = content st.heap s := by
        intro s k' hf hne
        refine ((append_content grow st.heap (some s0) [some x] hown0).2 s hf.own ?_).1
        rintro _ ⟨⟩ hse
        exact hne (by rw [← hf.owner, ← (h1 k s0 q).owner, hse])
      simp only [StreamSlices.step, hadd]
      refine ⟨rfl, fun h => h, fun r s hr hrid hs => ?_, fun r s hr hs hle => ⟨?_, ?_⟩, rfl⟩
      · rcases hs with hs | hs
        · exact hfar s r.id ((h2 t r hr).1 s hs) (by rw [hrid]; exact hk.symm)
        · exact hfar s r.id ((h2 t r hr).2.2 s hs) (by rw [hrid]; exact hk.symm)
      · have hf := (h2 t r hr).2.1 s hs
        refine (append_keep grow st.heap (some s0) [some x] hown0 s hf.own ?_).1
        rintro _ ⟨⟩ hse
        have hku : k = "UNKNOWN" := by rw [← (h1 k s0 q).owner, ← hse, hf.owner]
        subst hku
        exact hle s0 q hse
      · intro s2 hs2 hse
        simp only [Map.get_set] at hs2
        split at hs2
        · next eu =>
          cases hs2
          have a1 := (append_content grow st.heap (some s0) [some x] hown0).1
          rw [hs'] at a1
          obtain ⟨b1, b2, b3⟩ := a1
          have hl : s'.len = s0.len + 1 := by
            have e1 := content_length b2
            rw [b1] at e1
            have e2 := content_length (h1 k s0 q).own
            simp only [Option.elim_some, List.length_append, List.length_singleton] at e1
            omega
          obtain ⟨t0, ht0, hta⟩ | hge := b3
          · cases ht0
            have := hle s0 (by rw [eu]; exact q) (hse.trans hta)
            omega
          · have := ((h2 t r hr).2.1 s hs).own.1
            omega
        · exact hle s2 hs2 hse
  | look t' k =>
    obtain ⟨g1, g2, g3⟩ : t' ≠ t ∧ k ≠ id ∧ k ≠ "UNKNOWN" := he
    refine ⟨?_, fun h t2 r ht hr => ?_, fun _ _ _ _ _ => rfl, fun r s hr hs hle => ⟨rfl, hle⟩, rfl⟩
    · simp only [StreamSlices.step, StreamSlices.look]
      rw [Map.get_set_ne _ _ (Ne.symm g1)]
    · simp only [StreamSlices.step, StreamSlices.look, Map.get_set] at hr
      split at hr
      · cases hr
        exact ⟨g2, g3⟩
      · exact h t2 r ht hr
  | join t' =>
    have ht' : t' ≠ t := he
    cases q : Map.get st.rels t' with
    | none =>
      have : StreamSlices.step grow st (.join t') = st := by simp [StreamSlices.step, StreamSlices.join, q]
      rw [this]
      exact ⟨rfl, fun h => h, fun _ _ _ _ _ => rfl, fun _ _ _ _ h => ⟨rfl, h⟩, rfl⟩
    | some r' =>
      obtain ⟨k1, k2⟩ := hal t' r' ht' q
      have hfar : ∀ s k', Fine hist owner st.heap s k' → k' ≠ r'.id →
          content (appendAll grow st.heap r'.used (r'.unknown.elim [] (content st.heap))).1 s = content st.heap s := by
        intro s k' hf hne
        refine ((append_content grow st.heap r'.used (r'.unknown.elim [] (content st.heap)) (fun s hs => ((h2 t' r' q).1 s hs).own)).2 s hf.own ?_).1
        intro s2 hs2 hse
        exact hne (by rw [← hf.owner, ← ((h2 t' r' q).1 s2 hs2).owner, hse])
      simp only [StreamSlices.step, StreamSlices.join, q]
      refine ⟨Map.get_set_ne _ _ (Ne.symm ht'), fun h t2 r ht hr => ?_, fun r s hr hrid hs => ?_, fun r s hr hs hle => ⟨?_, hle⟩, rfl⟩
      · simp only [Map.get_set] at hr
        split at hr
        · cases hr
          exact ⟨k1, k2⟩
        · exact h t2 r ht hr
      · rcases hs with hs | hs
        · exact hfar s r.id ((h2 t r hr).1 s hs) (by rw [hrid]; exact k1.symm)
        · exact hfar s r.id ((h2 t r hr).2.2 s hs) (by rw [hrid]; exact k1.symm)
      · exact hfar s _ ((h2 t r hr).2.1 s hs) k2.symm
  | reset t' =>
    have ht' : t' ≠ t := he
    have hsame : StreamSlices.step grow st (.reset t') = st ∨ ∃ r s, Map.get st.rels t' = some r ∧ StreamSlices.step grow st (.reset t') =
        { st with resets := st.resets ++ [(r.id, (arr st.heap s)[r.pos]?.getD none)], rels := Map.set st.rels t' { r with pos := r.pos + 1 } } := by
      simp only [StreamSlices.step, StreamSlices.reset]
      split
      · exact .inl rfl
      · next r q =>
        split
        · exact .inl rfl
        · next s hs =>
          split
          · exact .inr ⟨r, s.arr, q, rfl⟩
          · exact .inl rfl
    obtain hsame | ⟨r', s0, q, hsame⟩ := hsame
    · rw [hsame]
      exact ⟨rfl, fun h => h, fun _ _ _ _ _ => rfl, fun _ _ _ _ h => ⟨rfl, h⟩, rfl⟩
    · rw [hsame]
      obtain ⟨k1, k2⟩ := hal t' r' ht' q
      refine ⟨Map.get_set_ne _ _ (Ne.symm ht'), fun h t2 r ht hr => ?_, fun _ _ _ _ _ => rfl, fun _ _ _ _ h => ⟨rfl, h⟩, ?_⟩
      · simp only [Map.get_set] at hr
        split at hr
        · cases hr
          exact ⟨k1, k2⟩
        · exact h t2 r ht hr
      · simp [ReleaseRace.closed, List.filter_append, k1]
  | finish t' =>
    have ht' : t' ≠ t := he
    cases q : Map.get st.rels t' with
    | none =>
      have : StreamSlices.step grow st (.finish t') = st := by simp [StreamSlices.step, StreamSlices.finish, q]
      rw [this]
      exact ⟨rfl, fun h => h, fun _ _ _ _ _ => rfl, fun _ _ _ _ h => ⟨rfl, h⟩, rfl⟩
    | some r' =>
      simp only [StreamSlices.step, StreamSlices.finish, q]
      refine ⟨Map.get_del_ne _ (Ne.symm ht'), fun h t2 r ht hr => ?_, fun _ _ _ _ _ => rfl, fun r s hr hs hle => ⟨rfl, fun s' hs' => ?_⟩, rfl⟩
      · simp only [Map.get_del] at hr
        split at hr
        · cases hr
        · exact h t2 r ht hr
      · simp only at hs'
        split at hs'
        · rw [Map.get_del] at hs'
          split at hs'
          · cases hs'
          · exact hle s' hs'
        · exact hle s' hs'

theorem run_snoc (grow : Nat → Nat) (h : List StreamSlices.Ev) (e : StreamSlices.Ev) : StreamSlices.run grow (h ++ [e]) = StreamSlices.step grow (StreamSlices.run grow h) e := by
  simp [StreamSlices.run]

theorem before_run (grow : Nat → Nat) (pre : List StreamSlices.Ev) (t : Nat) (id : String) (hal : Alone (StreamSlices.run grow pre) t id)
    (mid : List StreamSlices.Ev) (hm : ∀ e ∈ mid, Other t id e) :
    Before t id (retained (StreamSlices.run grow pre) id) (retained (StreamSlices.run grow pre) "UNKNOWN") (StreamSlices.run grow (pre ++ Ev.look t id :: mid)) ∧
      closed (StreamSlices.run grow (pre ++ Ev.look t id :: mid)) id = closed (StreamSlices.run grow pre) id := by
  induction mid using List.reverseRecOn with
  | nil =>
    rw [run_snoc]
    refine ⟨⟨⟨Map.get (StreamSlices.run grow pre).unused id, Map.get (StreamSlices.run grow pre).unused "UNKNOWN", ?_, rfl, rfl, ?_⟩, ?_⟩, rfl⟩
    · simp [StreamSlices.step, StreamSlices.look]
    · intro s hs s' hs' _
      have : some s = some s' := hs.symm.trans hs'
      cases this
      exact le_refl _
    · intro t2 r ht hr
      simp only [StreamSlices.step, StreamSlices.look] at hr
      rw [Map.get_set_ne _ _ ht] at hr
      exact hal t2 r ht hr
  | append_singleton mid e ih =>
    obtain ⟨⟨⟨U, N, q, hu, hn, hle⟩, hal'⟩, hcl⟩ := ih fun e he => hm e (by simp [he])
    have hcons : pre ++ Ev.look t id :: (mid ++ [e]) = (pre ++ Ev.look t id :: mid) ++ [e] := by simp
    rw [hcons, run_snoc]
    have hap := apart_step grow (inv_run grow (pre ++ Ev.look t id :: mid)) t id hal' e (hm e (by simp))
    generalize StreamSlices.run grow (pre ++ Ev.look t id :: mid) = st at *
    refine ⟨⟨⟨U, N, by rw [hap.rels]; exact q, ?_, ?_, fun s hs s' hs' => ?_⟩, hap.alone hal'⟩, hap.closed.trans hcl⟩
    · rw [← hu]
      cases U with
      | none => rfl
      | some s => exact hap.own _ s q rfl (.inl rfl)
    · rw [← hn]
      cases N with
      | none => rfl
      | some s => exact (hap.unknown _ s q rfl (hle s rfl)).1
    · exact (hap.unknown _ s q hs (hle s hs)).2 s' hs'

/-- A release of which only calls for other sessions run at the same time closes, one after the other, the streams retained for its session when it began, and then
those retained for unknown sessions: no array it uses is written by anyone else. -/
theorem c152_undisturbed_partial (grow : Nat → Nat) (pre mid rest : List StreamSlices.Ev) (t : Nat) (id : String)
    (hal : Alone (StreamSlices.run grow pre) t id) (hm : ∀ e ∈ mid, Other t id e) (hr : ∀ e ∈ rest, Other t id e ∨ e = .reset t) :
    closed (StreamSlices.run grow (pre ++ Ev.look t id :: mid ++ Ev.join t :: rest)) id =
      closed (StreamSlices.run grow pre) id ++
        (retained (StreamSlices.run grow pre) id ++ retained (StreamSlices.run grow pre) "UNKNOWN").take (rest.countP fun e => match e with
          | .reset t' => t' = t
          | _ => false) := by
  obtain ⟨hb, hcl⟩ := before_run grow pre t id hal mid hm
  generalize retained (StreamSlices.run grow pre) id = cu at *
  generalize retained (StreamSlices.run grow pre) "UNKNOWN" = cn at *
  generalize hcp : closed (StreamSlices.run grow pre) id = cp at *
  suffices h : ∃ p, After t id (cu ++ cn) p (StreamSlices.run grow (pre ++ Ev.look t id :: mid ++ Ev.join t :: rest)) ∧
      p = min (rest.countP fun e => match e with
        | .reset t' => t' = t
        | _ => false) (cu ++ cn).length ∧
      closed (StreamSlices.run grow (pre ++ Ev.look t id :: mid ++ Ev.join t :: rest)) id = cp ++ (cu ++ cn).take p by
    obtain ⟨p, _, hp, hc⟩ := h
    rw [hc, hp, ← List.take_eq_take_min]
  induction rest using List.reverseRecOn with
  | nil =>
    rw [run_snoc]
    have hi := inv_run grow (pre ++ Ev.look t id :: mid)
    generalize StreamSlices.run grow (pre ++ Ev.look t id :: mid) = st at *
    obtain ⟨⟨U, N, q, hu, hn, hle⟩, hal'⟩ := hb
    obtain ⟨_, owner, h1, h2⟩ := hi
    have a1 := (append_content grow st.heap U (N.elim [] (content st.heap)) (fun s hs => ((h2 t _ q).1 s hs).own)).1
    refine ⟨0, ⟨⟨⟨id, U, N, (appendAll grow st.heap U (N.elim [] (content st.heap))).2, 0⟩, ?_, rfl, rfl, ?_⟩, ?_⟩, by simp, ?_⟩
    · simp [StreamSlices.step, StreamSlices.join, q]
    · simp only [StreamSlices.step, StreamSlices.join, q]
      cases hs : (appendAll grow st.heap U (N.elim [] (content st.heap))).2 with
      | none =>
        rw [hs] at a1
        obtain ⟨b1, b2⟩ := a1
        rw [← hu, ← hn, b1, b2]
        rfl
      | some s' =>
        rw [hs] at a1
        rw [← hu, ← hn]
        exact a1.1
    · intro t2 r ht hr2
      simp only [StreamSlices.step, StreamSlices.join, q] at hr2
      rw [Map.get_set_ne _ _ ht] at hr2
      exact hal' t2 r ht hr2
    · simp only [StreamSlices.step, StreamSlices.join, q, List.take_zero, List.append_nil]
      exact hcl
  | append_singleton rest e ih =>
    obtain ⟨p, ⟨⟨r, q, hrid, hpos, hstr⟩, hal'⟩, hp, hc⟩ := ih fun e he => hr e (by simp [he])
    have hcons : pre ++ Ev.look t id :: mid ++ Ev.join t :: (rest ++ [e]) = (pre ++ Ev.look t id :: mid ++ Ev.join t :: rest) ++ [e] := by simp
    rw [hcons, run_snoc]
    have hi := inv_run grow (pre ++ Ev.look t id :: mid ++ Ev.join t :: rest)
    generalize StreamSlices.run grow (pre ++ Ev.look t id :: mid ++ Ev.join t :: rest) = st at *
    by_cases hrt : e = .reset t
    · subst hrt
      obtain ⟨_, owner, h1, h2⟩ := hi
      have hlen : r.streams.elim 0 (·.len) = (cu ++ cn).length := by
        rw [← hstr]
        cases hs : r.streams with
        | none => rfl
        | some s => exact (content_length ((h2 t r q).2.2 s hs).own).symm
      rw [List.countP_append]
      simp only [List.countP_singleton, decide_true, if_true]
      generalize rest.countP _ = n at *
      cases hs : r.streams with
      | none =>
        have e : StreamSlices.step grow st (.reset t) = st := by
          simp only [StreamSlices.step, StreamSlices.reset, q, hs]
        rw [e]
        rw [hs, Option.elim_none] at hlen
        refine ⟨p, ⟨⟨r, q, hrid, hpos, hstr⟩, hal'⟩, by omega, hc⟩
      | some s =>
        have hf := (h2 t r q).2.2 s hs
        rw [hs, Option.elim_some] at hlen hstr
        by_cases hlt : r.pos < s.len
        · have e : StreamSlices.step grow st (.reset t) =
              { st with resets := st.resets ++ [(r.id, (arr st.heap s.arr)[r.pos]?.getD none)], rels := Map.set st.rels t { r with pos := r.pos + 1 } } := by
            simp only [StreamSlices.step, StreamSlices.reset, q, hs, if_pos hlt]
          rw [e]
          refine ⟨p + 1, ⟨⟨{ r with pos := r.pos + 1 }, by simp, hrid, by simp [hpos], ?_⟩, fun t2 r2 ht hr2 => ?_⟩, by omega, ?_⟩
          · simp only [hs, Option.elim_some]
            exact hstr
          · simp only at hr2
            rw [Map.get_set_ne _ _ ht] at hr2
            exact hal' t2 r2 ht hr2
          · have hcell : (arr st.heap s.arr)[r.pos]? = (cu ++ cn)[p]? := by
              rw [← hstr, content, List.getElem?_take, if_pos (by omega), hpos]
            have hpl : p < (cu ++ cn).length := by omega
            have hlog : closed { st with resets := st.resets ++ [(r.id, (arr st.heap s.arr)[r.pos]?.getD none)], rels := Map.set st.rels t { r with pos := r.pos + 1 } } id =
                closed st id ++ [(arr st.heap s.arr)[r.pos]?.getD none] := by
              simp [ReleaseRace.closed, List.filter_append, hrid]
            rw [hlog, hc, hcell, List.append_assoc, List.take_add_one, List.getElem?_eq_getElem hpl]
            rfl
        · have e : StreamSlices.step grow st (.reset t) = st := by
            simp only [StreamSlices.step, StreamSlices.reset, q, hs, if_neg hlt]
          rw [e]
          refine ⟨p, ⟨⟨r, q, hrid, hpos, by rw [hs]; exact hstr⟩, hal'⟩, by omega, hc⟩
    · have ho : Other t id e := (hr e (by simp)).resolve_right hrt
      have hap := apart_step grow hi t id hal' e ho
      have hcount : (rest ++ [e]).countP (fun e => match e with
          | .reset t' => decide (t' = t)
          | _ => false) = rest.countP (fun e => match e with
          | .reset t' => decide (t' = t)
          | _ => false) := by
        rw [List.countP_append]
        cases e with
        | reset t' =>
          have : t' ≠ t := ho
          simp [this]
        | _ => simp
      rw [hcount]
      refine ⟨p, ⟨⟨r, by rw [hap.rels]; exact q, hrid, hpos, ?_⟩, hap.alone hal'⟩, hp, by rw [hap.closed]; exact hc⟩
      rw [← hstr]
      cases hs : r.streams with
      | none => rfl
      | some s => exact hap.own r s q hrid (.inr hs)

/-! ## what is retained for the other sessions -/

/-- The session a step is about: the one a stream is handed over for, or the one the thread is releasing. -/
def about (st : StreamSlices.St) : StreamSlices.Ev → Option String
  | .add k _ => some k
  | .look _ k => some k
  | .join t => (Map.get st.rels t).map Rel.id
  | .reset t => (Map.get st.rels t).map Rel.id
  | .finish t => (Map.get st.rels t).map Rel.id

/-- Whatever has run and is running, no step of a call for one session changes what is retained for another. -/
theorem c152_others_kept (grow : Nat → Nat) (h : List StreamSlices.Ev) (e : StreamSlices.Ev) (k : String) (hk : about (StreamSlices.run grow h) e ≠ some k) :
    retained (StreamSlices.run grow (h ++ [e])) k = retained (StreamSlices.run grow h) k := by
  rw [run_snoc]
  have hi := inv_run grow h
  generalize StreamSlices.run grow h = st at *
  obtain ⟨_, owner, h1, h2⟩ := hi
  have hfar : ∀ (o : Option Slice) (xs : List (Option Nat)) (k' : String), (∀ s, o = some s → Fine h owner st.heap s k') → k' ≠ k →
      (Map.get st.unused k).elim [] (content (appendAll grow st.heap o xs).1) = retained st k := by
    intro o xs k' ho hne
    unfold retained
    cases q : Map.get st.unused k with
    | none => rfl
    | some s =>
      refine ((append_content grow st.heap o xs fun s hs => (ho s hs).own).2 s (h1 k s q).own ?_).1
      intro s2 hs2 hse
      exact hne (by rw [← (ho s2 hs2).owner, ← (h1 k s q).owner, hse])
  cases e with
  | add k' x =>
    have hne : k' ≠ k := fun h => hk (by rw [← h]; rfl)
    cases q : Map.get st.unused k' with
    | none =>
      simp only [StreamSlices.step, addStream, q, retained]
      rw [Map.get_set_ne _ _ hne.symm]
      cases q2 : Map.get st.unused k with
      | none => rfl
      | some s =>
        simp only [Option.elim_some]
        rw [content, arr_new, if_neg (by have := (h1 k s q2).own.1; omega)]
        rfl
    | some s0 =>
      obtain ⟨s', hs', hadd⟩ := add_eq grow st k' x q
      simp only [StreamSlices.step, hadd]
      have := hfar (some s0) [some x] k' (by rintro _ ⟨⟩; exact h1 k' s0 q) hne
      rw [← this]
      simp only [retained]
      rw [Map.get_set_ne _ _ hne.symm]
  | look t k' => rfl
  | join t =>
    cases q : Map.get st.rels t with
    | none => simp only [StreamSlices.step, StreamSlices.join, q]
    | some r =>
      have hne : r.id ≠ k := fun h => hk (by simp [about, q, h])
      have := hfar r.used (r.unknown.elim [] (content st.heap)) r.id (h2 t r q).1 hne
      rw [← this]
      simp only [StreamSlices.step, StreamSlices.join, q, retained]
  | reset t =>
    simp only [StreamSlices.step, StreamSlices.reset]
    split
    · rfl
    · split
      · rfl
      · split <;> rfl
  | finish t =>
    cases q : Map.get st.rels t with
    | none => simp only [StreamSlices.step, StreamSlices.finish, q]
    | some r =>
      have hne : r.id ≠ k := fun h => hk (by simp [about, q, h])
      simp only [StreamSlices.step, StreamSlices.finish, q, retained]
      split
      · rw [Map.get_del_ne _ hne.symm]
      · rfl

/-- Whatever has run and is running, a stream handed over is retained behind those retained for the session so far. -/
theorem c152_added (grow : Nat → Nat) (h : List StreamSlices.Ev) (k : String) (x : Nat) :
    retained (StreamSlices.run grow (h ++ [.add k x])) k = retained (StreamSlices.run grow h) k ++ [some x] := by
  rw [run_snoc]
  have hi := inv_run grow h
  generalize StreamSlices.run grow h = st at *
  obtain ⟨_, owner, h1, h2⟩ := hi
  cases q : Map.get st.unused k with
  | none =>
    simp only [StreamSlices.step, addStream, q, retained, Map.get_set_self, Option.elim_some, Option.elim_none, content, List.nil_append]
    rw [arr_new]
    simp
  | some s0 =>
    obtain ⟨s', hs', hadd⟩ := add_eq grow st k x q
    have a1 := (append_content grow st.heap (some s0) [some x] (by rintro _ ⟨⟩; exact (h1 k s0 q).own)).1
    rw [hs'] at a1
    simp only [StreamSlices.step, hadd, retained, Map.get_set_self, q, Option.elim_some]
    exact a1.1

/-- The end of a release forgets the streams of its session if there were any when it began. -/
theorem c152_forgotten (grow : Nat → Nat) (h : List StreamSlices.Ev) (t : Nat) (r : Rel) (hr : Map.get (StreamSlices.run grow h).rels t = some r) (hu : r.used.isSome) :
    retained (StreamSlices.run grow (h ++ [.finish t])) r.id = [] ∧ Map.get (StreamSlices.run grow (h ++ [.finish t])).rels t = none := by
  rw [run_snoc]
  generalize StreamSlices.run grow h = st at *
  simp [StreamSlices.step, StreamSlices.finish, hr, retained, hu, Map.get_del]

/-! ## what goes wrong -/

/-- A release does not reset all streams of unknown sessions that were retained when it began: one handed over meanwhile for the session takes the place of the
unknown one in the list being worked off. The session's own streams are closed, the late one among them; the unknown one is not, and stays retained. -/
theorem c152_left_out (a b c u x : Nat) (hu : u ≠ a ∧ u ≠ b ∧ u ≠ c ∧ u ≠ x) (id : String) (hid : id ≠ "UNKNOWN") :
    ∃ h, h = [Ev.add id a, .add id b, .add id c, .add "UNKNOWN" u, .look 0 id, .join 0, .add id x, .reset 0, .reset 0, .reset 0, .reset 0, .finish 0] ∧
      (StreamSlices.run goGrow h).resets = [(id, some a), (id, some b), (id, some c), (id, some x)] ∧ (∀ k, (k, some u) ∉ (StreamSlices.run goGrow h).resets) ∧
      (Map.get (StreamSlices.run goGrow h).unused "UNKNOWN").map (content (StreamSlices.run goGrow h).heap) = some [some u] := by
  have hid' : "UNKNOWN" ≠ id := hid.symm
  have hr : (StreamSlices.run goGrow [.add id a, .add id b, .add id c, .add "UNKNOWN" u, .look 0 id, .join 0, .add id x, .reset 0, .reset 0, .reset 0, .reset 0,
      .finish 0]).resets = [(id, some a), (id, some b), (id, some c), (id, some x)] := by
    simp [StreamSlices.run, StreamSlices.step, addStream, StreamSlices.look, StreamSlices.join, StreamSlices.reset, StreamSlices.finish, appendAll, StreamSlices.write,
      goGrow, arr, content, Map.get, Map.set, Map.del, hid, hid']
  refine ⟨_, rfl, hr, fun k hk => ?_, ?_⟩
  · rw [hr] at hk
    simp at hk
    omega
  · simp [StreamSlices.run, StreamSlices.step, addStream, StreamSlices.look, StreamSlices.join, StreamSlices.reset, StreamSlices.finish, appendAll, StreamSlices.write,
      goGrow, arr, content, Map.get, Map.set, Map.del, hid, hid']

/-- And a stream handed over before the two lists are joined is overwritten by the unknown one: it is neither closed nor retained, and the unknown one is closed in
its place. -/
theorem c152_lost (a b c u x : Nat) (hx : x ≠ a ∧ x ≠ b ∧ x ≠ c ∧ x ≠ u) (id : String) (hid : id ≠ "UNKNOWN") :
    ∃ h, h = [Ev.add id a, .add id b, .add id c, .add "UNKNOWN" u, .look 0 id, .add id x, .join 0, .reset 0, .reset 0, .reset 0, .reset 0] ∧
      (∀ k, (k, some x) ∉ (StreamSlices.run goGrow h).resets) ∧
      ∀ s, Map.get (StreamSlices.run goGrow h).unused id = some s → some x ∉ content (StreamSlices.run goGrow h).heap s := by
  have hid' : "UNKNOWN" ≠ id := hid.symm
  have hr : (StreamSlices.run goGrow [.add id a, .add id b, .add id c, .add "UNKNOWN" u, .look 0 id, .add id x, .join 0, .reset 0, .reset 0, .reset 0, .reset 0]).resets =
      [(id, some a), (id, some b), (id, some c), (id, some u)] := by
    simp [StreamSlices.run, StreamSlices.step, addStream, StreamSlices.look, StreamSlices.join, StreamSlices.reset, StreamSlices.finish, appendAll, StreamSlices.write,
      goGrow, arr, content, Map.get, Map.set, Map.del, hid, hid']
  have hg : (Map.get (StreamSlices.run goGrow [.add id a, .add id b, .add id c, .add "UNKNOWN" u, .look 0 id, .add id x, .join 0, .reset 0, .reset 0, .reset 0,
      .reset 0]).unused id).map (content (StreamSlices.run goGrow [.add id a, .add id b, .add id c, .add "UNKNOWN" u, .look 0 id, .add id x, .join 0, .reset 0, .reset 0,
      .reset 0, .reset 0]).heap) = some [some a, some b, some c, some u] := by
    simp [StreamSlices.run, StreamSlices.step, addStream, StreamSlices.look, StreamSlices.join, StreamSlices.reset, StreamSlices.finish, appendAll, StreamSlices.write,
      goGrow, arr, content, Map.get, Map.set, Map.del, hid, hid']
  refine ⟨_, rfl, fun k hk => ?_, fun s hs hm => ?_⟩
  · rw [hr] at hk
    simp at hk
    omega
  · rw [hs, Option.map_some, Option.some.injEq] at hg
    rw [hg] at hm
    simp at hm
    omega

/-! ## the hypotheses are met -/

/-- three calls, one after the other -/
example : Calls [.add "m" 1, .add "UNKNOWN" 2, .release "m"] [.add "m" 1, .add "UNKNOWN" 2, .look 7 "m", .join 7, .reset 7, .reset 7, .finish 7] :=
  .release (ops := [.add "m" 1, .add "UNKNOWN" 2]) (h := [.add "m" 1, .add "UNKNOWN" 2]) 7 "m" 2 (by decide) (.add (ops := [.add "m" 1]) (h := [.add "m" 1]) _ _ (.add (ops := []) (h := []) _ _ .none))

/-- a stream is reset while two releases run at the same time and a stream is handed over -/
example : closed (StreamSlices.run goGrow ([.add "m" 1, .add "m" 2, .add "m" 3, .add "UNKNOWN" 4, .look 8 "n"] ++ Ev.look 7 "m" :: [.add "n" 5, .join 8, .add "UNKNOWN" 6] ++
    Ev.join 7 :: [.reset 8, .reset 7, .add "UNKNOWN" 7, .reset 7, .finish 8, .reset 7, .reset 7])) "m" = [some 1, some 2, some 3, some 4] := by
  rw [c152_undisturbed_partial]
  · decide +kernel
  · intro t' r ht hr
    have : (StreamSlices.run goGrow [.add "m" 1, .add "m" 2, .add "m" 3, .add "UNKNOWN" 4, .look 8 "n"]).rels =
        Map.set [] 8 (StreamSlices.Rel.mk "n" none (some ⟨3, 1⟩) none 0) := by rfl
    rw [this] at hr
    simp only [Map.get_set] at hr
    split at hr
    · cases hr
      decide
    · cases hr
  · simp [Other]
  · simp [Other]

example : let st := StreamSlices.run goGrow [.add "m" 1, .add "m" 2, .add "m" 3, .add "UNKNOWN" 4, .add "n" 5, .look 7 "m"]
    about st (.join 7) = some "m" ∧ retained st "n" = [some 5] ∧ retained (StreamSlices.step goGrow st (.join 7)) "n" = [some 5] := by decide +kernel

example : ("m", some 1) ∈ (StreamSlices.run goGrow [.add "m" 1, .add "n" 2, .look 7 "m", .look 8 "m", .join 7, .add "m" 3, .join 8, .reset 8, .reset 7]).resets := by decide +kernel

end Verif.Props.ReleaseRace
