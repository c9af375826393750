import Verif.Spec.Accepts
import Verif.Props.C38_C41
import Mathlib.Data.List.Induction

set_option linter.unusedSectionVars false

/-!
# C151: a share that arrives while a timeout is being blamed
-/
namespace Verif.Props.AcceptRace
open Verif.Go Verif.Blame Verif.AcceptSlices Verif.Spec.Accepts

/-! ## arrays -/

theorem arr_new (h : Heap) (c : List (Option Nat)) (a : Nat) : arr (h ++ [c]) a = if a = h.length then c else arr h a := by
  unfold arr
  rcases lt_trichotomy a h.length with hl | rfl | hl
  · rw [List.getElem?_append_left hl, if_neg (by omega)]
  · simp
  · rw [if_neg (by omega), List.getElem?_eq_none (by simp; omega), List.getElem?_eq_none (by omega)]

theorem arr_set (h : Heap) (c : List (Option Nat)) {b : Nat} (hb : b < h.length) (a : Nat) : arr (h.set b c) a = if a = b then c else arr h a := by
  unfold arr
  by_cases e : a = b
  · subst e
    simp [hb]
  · rw [if_neg e, List.getElem?_set_ne (Ne.symm e)]

/-- the slice lies on an array that was made -/
def Own (h : Heap) (s : Slice) : Prop := s.arr < h.length ∧ s.len ≤ (arr h s.arr).length

/-- what an append does to the arrays: it writes one cell behind the slice, or makes a new array -/
structure Appended (h : Heap) (s : Option Slice) (x : Nat) (h' : Heap) (s' : Slice) : Prop where
  grows : h.length ≤ h'.length
  own : Own h' s'
  len : s'.len = (s.elim 0 (·.len)) + 1
  content : content h' s' = (s.elim [] (content h)) ++ [some x]
  place : (∃ t, s = some t ∧ s'.arr = t.arr ∧ (∀ a, (arr h' a).length = (arr h a).length) ∧
      ∀ a i, (a ≠ t.arr ∨ i ≠ t.len) → (arr h' a)[i]? = (arr h a)[i]?) ∨
    (s'.arr = h.length ∧ ∀ a, a ≠ h.length → arr h' a = arr h a)

theorem append_spec (grow : Nat → Nat) (h : Heap) (s : Option Slice) (x : Nat) (ho : ∀ t ∈ s, Own h t) :
    Appended h s x (append grow h s x).1 (append grow h s x).2 := by
  cases s with
  | none =>
    simp only [append]
    refine ⟨by simp, ⟨by simp, ?_⟩, rfl, ?_, .inr ⟨rfl, fun a ha => ?_⟩⟩
    · simp [arr_new]
    · simp [AcceptSlices.content, arr_new]
    · rw [arr_new, if_neg ha]
  | some t =>
    obtain ⟨h1, h2⟩ := ho t rfl
    by_cases hc : t.len < (arr h t.arr).length
    · simp only [append, if_pos hc]
      refine ⟨by simp, ⟨by simpa using h1, ?_⟩, rfl, ?_, .inl ⟨t, rfl, rfl, fun a => ?_, fun a i hi => ?_⟩⟩
      · simp only [arr_set _ _ h1, if_true, List.length_set]
        omega
      · simp only [AcceptSlices.content, arr_set _ _ h1, if_true, Option.elim_some]
        rw [List.take_add_one, List.take_set_of_le (le_refl _)]
        simp [hc]
      · rw [arr_set _ _ h1]
        split
        · next e => simp [e]
        · rfl
      · rw [arr_set _ _ h1]
        split
        · next e =>
          subst e
          rcases hi with hi | hi
          · exact absurd rfl hi
          · rw [List.getElem?_set_ne (Ne.symm hi)]
        · rfl
    · simp only [append, if_neg hc]
      have hl : (AcceptSlices.content h t).length = t.len := by
        simp [AcceptSlices.content, h2]
      refine ⟨by simp, ⟨by simp, ?_⟩, rfl, ?_, .inr ⟨rfl, fun a ha => ?_⟩⟩
      · simp [arr_new, hl]
      · have e : ∀ (l k : List (Option Nat)) (y : Option Nat), (l ++ y :: k).take (l.length + 1) = l ++ [y] := by
          intro l k y
          rw [List.take_append, List.take_of_length_le (by omega)]
          simp
        simp only [Option.elim_some]
        conv_lhs => simp only [AcceptSlices.content, arr_new, if_true]
        have := e (AcceptSlices.content h t) (List.replicate (grow (arr h t.arr).length - (t.len + 1)) none) (some x)
        rw [hl] at this
        exact this
      · rw [arr_new, if_neg ha]

/-- a slice that ends before the written cell keeps its elements -/
theorem content_keep {h h' : Heap} {s' : Slice} {o : Option Slice} {x : Nat} (ha : Appended h o x h' s') {s : Slice} (hs : Own h s)
    (hd : ∀ t, o = some t → s.arr = t.arr → s.len ≤ t.len) : content h' s = content h s ∧ Own h' s := by
  obtain ⟨t, e1, _, e3, e4⟩ | ⟨_, e2⟩ := ha.place
  · refine ⟨?_, ⟨lt_of_lt_of_le hs.1 ha.grows, by rw [e3]; exact hs.2⟩⟩
    unfold AcceptSlices.content
    apply List.ext_getElem?
    intro i
    rw [List.getElem?_take, List.getElem?_take]
    split
    · next hi =>
      apply e4
      by_cases e : s.arr = t.arr
      · have := hd t e1 e
        right
        omega
      · exact .inl e
    · rfl
  · have : arr h' s.arr = arr h s.arr := e2 _ (by have := hs.1; omega)
    exact ⟨by simp only [AcceptSlices.content, this], ⟨lt_of_lt_of_le hs.1 ha.grows, by rw [this]; exact hs.2⟩⟩

/-- no room: a slice on the array keeps its elements wherever it ends -/
theorem own_keep {h h' : Heap} {s' : Slice} {o : Option Slice} {x : Nat} (ha : Appended h o x h' s') {s : Slice} (hs : Own h s) : Own h' s := by
  obtain ⟨t, e1, _, e3, e4⟩ | ⟨_, e2⟩ := ha.place
  · exact ⟨lt_of_lt_of_le hs.1 ha.grows, by rw [e3]; exact hs.2⟩
  · have : arr h' s.arr = arr h s.arr := e2 _ (by have := hs.1; omega)
    exact ⟨lt_of_lt_of_le hs.1 ha.grows, by rw [this]; exact hs.2⟩

theorem first_spec (h : Heap) (x : Nat) : Appended h none x (h ++ [[some x]]) ⟨h.length, 1⟩ := by
  refine ⟨by simp, ⟨by simp, ?_⟩, rfl, ?_, .inr ⟨rfl, fun a ha => ?_⟩⟩
  · simp [arr_new]
  · simp [AcceptSlices.content, arr_new]
  · rw [arr_new, if_neg ha]

/-! ## what holds at all times -/

/-- every slice lies on an array of its own round; a copied slice is not longer than the recorded one on the same array -/
structure Inv (st : St) : Prop where
  own : ∀ r s, Map.get st.shares r = some s → Own st.heap s
  sep : ∀ r r' s s', Map.get st.shares r = some s → Map.get st.shares r' = some s' → s.arr = s'.arr → r = r'
  snapOwn : ∀ m r s, st.snap = some m → Map.get m r = some s → Own st.heap s
  snapSep : ∀ m r r' s s', st.snap = some m → Map.get m r = some s → Map.get m r' = some s' → s.arr = s'.arr → r = r'
  cross : ∀ m r r' s s', st.snap = some m → Map.get m r = some s → Map.get st.shares r' = some s' → s.arr = s'.arr → r = r' ∧ s.len ≤ s'.len

theorem accept_spec (grow : Nat → Nat) {st : St} (hi : Inv st) (r : RoundInfo) (id : Nat) :
    ∃ h' s', Appended st.heap (Map.get st.shares r) id h' s' ∧
      updateAcceptShare grow st r id = { st with heap := h', shares := Map.set st.shares r s' } := by
  unfold updateAcceptShare
  cases e : Map.get st.shares r with
  | none => exact ⟨_, _, first_spec _ _, rfl⟩
  | some t => exact ⟨_, _, append_spec grow _ (some t) id (by rintro _ ⟨⟩; exact hi.own _ _ e), rfl⟩

theorem add_spec (grow : Nat → Nat) (self : Nat) {st : St} (hi : Inv st) {m : Map RoundInfo Slice} (hm : st.snap = some m) (r : RoundInfo) :
    ∃ h' s', Appended st.heap (Map.get m r) self h' s' ∧ add grow self st r = { st with heap := h', cur := some ⟨r, s', []⟩ } := by
  unfold add
  rw [hm]
  exact ⟨_, _, append_spec grow _ (Map.get m r) self (fun t ht => hi.snapOwn m r t hm ht), rfl⟩

theorem read_frame (st : St) : (AcceptSlices.read st).heap = st.heap ∧ (AcceptSlices.read st).shares = st.shares ∧ (AcceptSlices.read st).snap = st.snap := by
  unfold AcceptSlices.read
  split
  · exact ⟨rfl, rfl, rfl⟩
  · split <;> exact ⟨rfl, rfl, rfl⟩

theorem inv_step (grow : Nat → Nat) (self : Nat) {st : St} (hi : Inv st) (e : Ev) : Inv (step grow self st e) := by
  cases e with
  | accept r id =>
    obtain ⟨h', s', ha, he⟩ := accept_spec grow hi r id
    simp only [step, he]
    -- the new slice lies on the old array of the round, or on a new one
    have hnew : ∀ s, Own st.heap s → s.arr = s'.arr → ∃ t, Map.get st.shares r = some t ∧ s.arr = t.arr ∧ s'.len = t.len + 1 := by
      intro s hs es
      obtain ⟨t, e1, e2, _⟩ | ⟨e2, _⟩ := ha.place
      · refine ⟨t, e1, es.trans e2, ?_⟩
        have := ha.len
        rw [e1] at this
        exact this
      · have := hs.1
        omega
    refine ⟨fun k s hk => ?_, fun k k' s t hk hk' hst => ?_, fun m k s hm hk => own_keep ha (hi.snapOwn m k s hm hk), hi.snapSep, fun m k k' s t hm hk hk' hst => ?_⟩
    · simp only [Map.get_set] at hk
      split at hk
      · cases hk
        exact ha.own
      · exact own_keep ha (hi.own _ _ hk)
    · simp only [Map.get_set] at hk hk'
      split at hk <;> split at hk'
      · simp_all
      · next e1 e2 =>
        cases hk
        obtain ⟨t', g1, g2, _⟩ := hnew t (hi.own _ _ hk') hst.symm
        exact e1.trans (hi.sep _ _ _ _ g1 hk' g2.symm)
      · next e1 e2 =>
        cases hk'
        obtain ⟨t', g1, g2, _⟩ := hnew s (hi.own _ _ hk) hst
        exact (hi.sep _ _ _ _ hk g1 g2).trans e2.symm
      · exact hi.sep _ _ _ _ hk hk' hst
    · simp only [Map.get_set] at hk'
      split at hk'
      · next e2 =>
        cases hk'
        obtain ⟨t', g1, g2, g3⟩ := hnew s (hi.snapOwn _ _ _ hm hk) hst
        obtain ⟨q1, q2⟩ := hi.cross m k r s t' hm hk g1 g2
        exact ⟨q1.trans e2.symm, by omega⟩
      · exact hi.cross m k k' s t hm hk hk' hst
  | look =>
    refine ⟨hi.own, hi.sep, fun m r s hm hk => ?_, fun m r r' s s' hm hk hk' hs => ?_, fun m r r' s s' hm hk hk' hs => ?_⟩
    · cases hm
      exact hi.own _ _ hk
    · cases hm
      exact hi.sep _ _ _ _ hk hk' hs
    · cases hm
      have := hi.sep _ _ _ _ hk hk' hs
      subst this
      have : some s = some s' := hk.symm.trans hk'
      cases this
      exact ⟨rfl, le_refl _⟩
  | add r =>
    cases hm : st.snap with
    | none =>
      have : step grow self st (.add r) = st := by simp [step, add, hm]
      rw [this]
      exact hi
    | some m =>
      obtain ⟨h', s', ha, he⟩ := add_spec grow self hi hm r
      simp only [step, he]
      exact ⟨fun k s hk => own_keep ha (hi.own _ _ hk), hi.sep, fun m k s hm hk => own_keep ha (hi.snapOwn m k s hm hk), hi.snapSep, hi.cross⟩
  | read =>
    obtain ⟨h1, h2, h3⟩ := read_frame st
    refine ⟨?_, ?_, ?_, ?_, ?_⟩ <;> simp only [step, h1, h2, h3]
    exacts [hi.own, hi.sep, hi.snapOwn, hi.snapSep, hi.cross]

theorem inv_nil : Inv {} := by
  refine ⟨?_, ?_, ?_, ?_, ?_⟩ <;> simp

theorem run_snoc (grow : Nat → Nat) (self : Nat) (h : List Ev) (e : Ev) : run grow self (h ++ [e]) = step grow self (run grow self h) e := by
  simp [run]

theorem inv_run (grow : Nat → Nat) (self : Nat) (h : List Ev) : Inv (run grow self h) := by
  induction h using List.reverseRecOn with
  | nil => exact inv_nil
  | append_singleton h e ih =>
    rw [run_snoc]
    exact inv_step grow self ih e

/-! ## the record -/

/-- the record of a round holds the ids `l` -/
def Holds (st : St) (r : RoundInfo) (l : List Nat) : Prop :=
  match Map.get st.shares r with
  | none => l = []
  | some s => content st.heap s = l.map some

theorem ids_snoc (h : List Ev) (e : Ev) (r : RoundInfo) : ids (h ++ [e]) r = ids h r ++ ids [e] r := by
  simp [ids]

theorem holds_accept (grow : Nat → Nat) {st : St} (hi : Inv st) (r k : RoundInfo) (id : Nat) (l : List Nat) (hl : Holds st k l) :
    Holds (updateAcceptShare grow st r id) k (l ++ if r = k then [id] else []) := by
  obtain ⟨h', s', ha, he⟩ := accept_spec grow hi r id
  rw [he]
  unfold Holds at hl ⊢
  simp only [Map.get_set]
  by_cases e : k = r
  · subst e
    simp only [if_true]
    rw [ha.content, List.map_append]
    cases g : Map.get st.shares k with
    | none =>
      rw [g] at hl
      simp only at hl
      subst hl
      rfl
    | some s =>
      rw [g] at hl
      simp only at hl
      rw [← hl]
      rfl
  · rw [if_neg e, if_neg (Ne.symm e), List.append_nil]
    cases g : Map.get st.shares k with
    | none =>
      rw [g] at hl
      exact hl
    | some s =>
      rw [g] at hl
      simp only at hl ⊢
      rw [← hl]
      refine (content_keep ha (hi.own _ _ g) fun t ht est => ?_).1
      exact absurd (hi.sep _ _ _ _ g ht est) e

theorem holds_check {st : St} {r : RoundInfo} {l : List Nat} (hl : Holds st r l) (id : Nat) : checkMsgDuplication st r id = true ↔ id ∈ l := by
  unfold Holds at hl
  unfold checkMsgDuplication
  split at hl
  · next e => simp [e, hl]
  · next s e => simp [e, hl]

theorem still_snoc {h : List Ev} {e : Ev} {r : RoundInfo} (hs : Still (h ++ [e]) r) : e = .look ∨ (Still h r ∧ ∀ id, e ≠ .accept r id) := by
  obtain ⟨pre, mid, h1, h2, h3⟩ := hs
  rcases List.eq_nil_or_concat mid with rfl | ⟨mid', x, rfl⟩
  · have := List.append_inj' (s₁ := h) (s₂ := pre) (t₁ := [e]) (t₂ := [Ev.look]) (by simpa using h1) rfl
    left
    simpa using this.2
  · rw [List.concat_eq_append] at h1 h2 h3
    have := List.append_inj' (s₁ := h) (s₂ := pre ++ Ev.look :: mid') (t₁ := [e]) (t₂ := [x]) (by simpa using h1) rfl
    obtain ⟨g1, g2⟩ := this
    cases g2
    refine .inr ⟨⟨pre, mid', g1, fun hc => h2 (by simp [hc]), fun id hc => h3 id (by simp [hc])⟩, fun id hc => h3 id (by simp [hc])⟩

theorem quiet_prefix {h t : List Ev} (hq : Quiet (h ++ t)) : Quiet h := fun pre r post e => hq pre r (post ++ t) (by simp [e])

/-- an append of the blame leaves the record of every round alone, as long as its copy of the slice is the recorded one -/
theorem holds_add (grow : Nat → Nat) (self : Nat) {st : St} (hi : Inv st) (r k : RoundInfo) (l : List Nat) (hl : Holds st k l)
    {m : Map RoundInfo Slice} (hm : st.snap = some m) (he : Map.get m r = Map.get st.shares r) : Holds (add grow self st r) k l := by
  obtain ⟨h', s', ha, hadd⟩ := add_spec grow self hi hm r
  rw [hadd]
  unfold Holds at hl ⊢
  simp only
  cases g : Map.get st.shares k with
  | none =>
    rw [g] at hl
    exact hl
  | some s =>
    rw [g] at hl
    simp only at hl ⊢
    rw [← hl]
    refine (content_keep ha (hi.own _ _ g) fun t ht est => ?_).1
    rw [he] at ht
    have := hi.sep _ _ _ _ g ht est
    subst this
    rw [g] at ht
    cases ht
    exact le_refl _

theorem quiet_run (grow : Nat → Nat) (self : Nat) (h : List Ev) (hq : Quiet h) :
    (∀ k, Holds (run grow self h) k (ids h k)) ∧
    (∀ k, Still h k → ∃ m, (run grow self h).snap = some m ∧ Map.get m k = Map.get (run grow self h).shares k) := by
  induction h using List.reverseRecOn with
  | nil =>
    refine ⟨fun k => rfl, fun k ⟨pre, mid, e, _⟩ => ?_⟩
    simp at e
  | append_singleton h e ih =>
    obtain ⟨ih1, ih2⟩ := ih (quiet_prefix hq)
    have hi := inv_run grow self h
    rw [run_snoc]
    refine ⟨fun k => ?_, fun k hk => ?_⟩
    · rw [ids_snoc]
      cases e with
      | accept r id =>
        have := holds_accept grow hi r k id _ (ih1 k)
        have e2 : ids [Ev.accept r id] k = if r = k then [id] else [] := by
          unfold ids
          by_cases g : r = k <;> simp [g]
        rw [e2]
        exact this
      | look =>
        have := ih1 k
        simpa [ids, step, look, Holds] using this
      | add r =>
        obtain ⟨m, hm, hg⟩ := ih2 r (hq h r [] rfl)
        have := holds_add grow self hi r k _ (ih1 k) hm hg
        simpa [ids, step] using this
      | read =>
        obtain ⟨h1, h2, h3⟩ := read_frame (run grow self h)
        have := ih1 k
        simpa [ids, step, Holds, h1, h2] using this
    · rcases still_snoc hk with rfl | ⟨hs, hne⟩
      · exact ⟨_, rfl, rfl⟩
      · obtain ⟨m, hm, hg⟩ := ih2 k hs
        cases e with
        | accept r id =>
          obtain ⟨h', s', ha, he⟩ := accept_spec grow hi r id
          refine ⟨m, by simpa [step, he] using hm, ?_⟩
          have : k ≠ r := fun e => hne id (by rw [e])
          simp only [step, he]
          rw [Map.get_set_ne _ _ this]
          exact hg
        | look => exact ⟨_, rfl, rfl⟩
        | add r =>
          obtain ⟨h', s', ha, he⟩ := add_spec grow self hi hm r
          exact ⟨m, by simpa [step, he] using hm, by simpa [step, he] using hg⟩
        | read =>
          obtain ⟨h1, h2, h3⟩ := read_frame (run grow self h)
          exact ⟨m, by simpa [step, h3] using hm, by simpa [step, h2] using hg⟩

theorem mem_ids (h : List Ev) (r : RoundInfo) (id : Nat) : id ∈ ids h r ↔ Ev.accept r id ∈ h := by
  unfold ids
  rw [List.mem_filterMap]
  constructor
  · rintro ⟨e, he, hx⟩
    cases e with
    | accept r' id' =>
      simp only at hx
      split at hx
      · next g =>
        cases hx
        subst g
        exact he
      · cases hx
    | _ => cases hx
  · intro hm
    exact ⟨_, hm, by simp⟩

/-- If no share of a round is accepted between the copying of the lists and the moment the blame adds its own id, then a share counts as a duplicate exactly
if it was accepted before: the blame leaves no trace. -/
theorem c151_records_partial (grow : Nat → Nat) (self : Nat) (h : List Ev) (hq : Quiet h) (r : RoundInfo) (id : Nat) :
    checkMsgDuplication (run grow self h) r id = true ↔ Ev.accept r id ∈ h := by
  rw [holds_check ((quiet_run grow self h hq).1 r), mem_ids]

/-! ### the record as lists -/

/-- the record of `Verif.Blame`, whose slices are lists, after the same history -/
def listRecord {K P : Type} (m : Manager K P) (h : List Ev) : Manager K P :=
  h.foldl (fun m e => match e with
    | .accept r id => m.updateAcceptShare r id
    | _ => m) m

theorem listRecord_snoc {K P : Type} (m : Manager K P) (h : List Ev) (e : Ev) :
    listRecord m (h ++ [e]) = match e with
      | .accept r id => (listRecord m h).updateAcceptShare r id
      | _ => listRecord m h := by
  simp [listRecord]

theorem listRecord_get {K P : Type} (m : Manager K P) (hm : m.acceptedShares = []) (h : List Ev) (k : RoundInfo) :
    (Map.get (listRecord m h).acceptedShares k).getD [] = ids h k := by
  induction h using List.reverseRecOn with
  | nil => simp [listRecord, hm, ids]
  | append_singleton h e ih =>
    rw [listRecord_snoc, ids_snoc]
    cases e with
    | accept r id =>
      simp only [Manager.updateAcceptShare]
      have e2 : ids [Ev.accept r id] k = if r = k then [id] else [] := by
        unfold ids
        by_cases g : r = k <;> simp [g]
      rw [e2, ← ih]
      by_cases g : k = r
      · subst g
        cases q : Map.get (listRecord m h).acceptedShares k <;> simp
      · have g' : r ≠ k := fun e => g e.symm
        cases q : Map.get (listRecord m h).acceptedShares r <;> simp [Map.get_set_ne _ _ g, g']
    | look => simpa [ids] using ih
    | add r => simpa [ids] using ih
    | read => simpa [ids] using ih

/-- On such histories the slices behave like lists: the answer to "was this share accepted before?" is that of the model of the other properties. -/
theorem c151_lists_partial {K P : Type} (grow : Nat → Nat) (self : Nat) (m : Manager K P) (hm : m.acceptedShares = []) (h : List Ev) (hq : Quiet h)
    (r : RoundInfo) (id : Nat) : checkMsgDuplication (run grow self h) r id = (listRecord m h).checkMsgDuplication r id := by
  have h1 := holds_check ((quiet_run grow self h hq).1 r) id
  have h2 : (listRecord m h).checkMsgDuplication r id = true ↔ id ∈ ids h r := by
    rw [← listRecord_get m hm h r]
    unfold Manager.checkMsgDuplication
    cases Map.get (listRecord m h).acceptedShares r <;> simp
  rw [Bool.eq_iff_iff, h1, h2]

/-! ## what the blame reads -/

/-- what holds after the lists were copied: the copied slices keep their elements -/
structure Copied (l : RoundInfo → List Nat) (m : Map RoundInfo Slice) (st : St) : Prop where
  inv : Inv st
  snap : st.snap = some m
  kept : ∀ r, (match Map.get m r with
    | none => l r = []
    | some s => content st.heap s = (l r).map some ∧ s.len = (l r).length)

theorem content_length {h : Heap} {s : Slice} (hs : Own h s) : (content h s).length = s.len := by
  simp [AcceptSlices.content, hs.2]

theorem copied_look {st : St} (hi : Inv st) {l : RoundInfo → List Nat} (hl : ∀ k, Holds st k (l k)) (grow : Nat → Nat) (self : Nat) :
    Copied l st.shares (step grow self st .look) := by
  refine ⟨inv_step grow self hi .look, rfl, fun r => ?_⟩
  have := hl r
  unfold Holds at this
  split
  · next e =>
    rw [e] at this
    exact this
  · next s e =>
    rw [e] at this
    simp only at this
    refine ⟨this, ?_⟩
    have q := congrArg List.length this
    rw [content_length (hi.own _ _ e), List.length_map] at q
    exact q

theorem copied_step (grow : Nat → Nat) (self : Nat) {st : St} {l : RoundInfo → List Nat} {m : Map RoundInfo Slice} (hc : Copied l m st) (e : Ev) (he : e ≠ .look) :
    Copied l m (step grow self st e) := by
  have hi := hc.inv
  cases e with
  | look => exact absurd rfl he
  | accept r id =>
    refine ⟨inv_step grow self hi _, ?_, fun k => ?_⟩
    · obtain ⟨h', s', ha, hq⟩ := accept_spec grow hi r id
      simpa [step, hq] using hc.snap
    · obtain ⟨h', s', ha, hq⟩ := accept_spec grow hi r id
      have := hc.kept k
      split
      · next g =>
        rw [g] at this
        exact this
      · next s g =>
        rw [g] at this
        simp only [step, hq]
        refine ⟨?_, this.2⟩
        rw [← this.1]
        exact (content_keep ha (hi.snapOwn m k s hc.snap g) fun t ht est => (hi.cross m k r s t hc.snap g ht est).2).1
  | add r =>
    refine ⟨inv_step grow self hi _, ?_, fun k => ?_⟩
    · obtain ⟨h', s', ha, hq⟩ := add_spec grow self hi hc.snap r
      simpa [step, hq] using hc.snap
    · obtain ⟨h', s', ha, hq⟩ := add_spec grow self hi hc.snap r
      have := hc.kept k
      split
      · next g =>
        rw [g] at this
        exact this
      · next s g =>
        rw [g] at this
        simp only [step, hq]
        refine ⟨?_, this.2⟩
        rw [← this.1]
        refine (content_keep ha (hi.snapOwn m k s hc.snap g) fun t ht est => ?_).1
        have := hi.snapSep m k r s t hc.snap g ht est
        subst this
        rw [g] at ht
        cases ht
        exact le_refl _
  | read =>
    obtain ⟨h1, h2, h3⟩ := read_frame st
    exact ⟨inv_step grow self hi _, by simpa [step, h3] using hc.snap, fun k => by simpa [step, h1] using hc.kept k⟩

/-- what holds while the blame reads the list of round `r`: it lies on the array of its copy, or on one nobody else uses; the cell behind the copied ids is one of `ok` -/
structure Reading (l : RoundInfo → List Nat) (m : Map RoundInfo Slice) (r : RoundInfo) (ok : Nat → Prop) (st : St) : Prop where
  copied : Copied l m st
  cur : ∃ c, st.cur = some c ∧ c.round = r ∧ Own st.heap c.el ∧ c.el.len = (l r).length + 1 ∧
    (∃ y, ok y ∧ content st.heap c.el = (l r ++ [y]).map some) ∧
    (∀ k s, Map.get st.shares k = some s → s.arr = c.el.arr → k = r ∧ c.el.len ≤ s.len + 1) ∧
    (∃ y, ok y ∧ c.got <+: (l r ++ [y]).map some)

theorem reading_add (grow : Nat → Nat) (self : Nat) {st : St} {l : RoundInfo → List Nat} {m : Map RoundInfo Slice} (hc : Copied l m st) (r : RoundInfo)
    {ok : Nat → Prop} (hok : ok self) : Reading l m r ok (step grow self st (.add r)) := by
  refine ⟨copied_step grow self hc _ (by simp), ?_⟩
  have hi := hc.inv
  obtain ⟨h', s', ha, hq⟩ := add_spec grow self hi hc.snap r
  have hk := hc.kept r
  simp only [step, hq]
  refine ⟨_, rfl, rfl, ha.own, ?_, ⟨self, hok, ?_⟩, fun k s hks hs => ?_, ⟨self, hok, List.nil_prefix⟩⟩
  · have := ha.len
    cases g : Map.get m r with
    | none =>
      rw [g] at hk this
      simp only at hk
      rw [hk]
      simpa using this
    | some t =>
      rw [g] at hk this
      rw [← hk.2]
      simpa using this
  · have := ha.content
    rw [this, List.map_append]
    cases g : Map.get m r with
    | none =>
      rw [g] at hk
      simp only at hk
      rw [hk]
      rfl
    | some t =>
      rw [g] at hk
      rw [← hk.1]
      rfl
  · obtain ⟨t, e1, e2, _⟩ | ⟨e2, _⟩ := ha.place
    · obtain ⟨q1, q2⟩ := hi.cross m r k t s hc.snap e1 hks (e2.symm.trans hs.symm)
      have := ha.len
      rw [e1] at this
      simp only [Option.elim_some] at this
      exact ⟨q1.symm, by show s'.len ≤ _; omega⟩
    · have := (hi.own _ _ hks).1
      simp only at hs
      omega

theorem content_prefix {h : Heap} {s t : Slice} (ha : s.arr = t.arr) (hl : s.len ≤ t.len) : content h s = (content h t).take s.len := by
  simp [AcceptSlices.content, List.take_take, ha, hl]

theorem reading_step (grow : Nat → Nat) (self : Nat) {st : St} {l : RoundInfo → List Nat} {m : Map RoundInfo Slice} {r : RoundInfo} {ok : Nat → Prop}
    (hr : Reading l m r ok st) (e : Ev) (he : e ≠ .look) (ha : ∀ k, e ≠ .add k) (hid : ∀ id, e = .accept r id → ok id) :
    Reading l m r ok (step grow self st e) := by
  refine ⟨copied_step grow self hr.copied e he, ?_⟩
  have hi := hr.copied.inv
  obtain ⟨c, hc, hcr, hown, hlen, ⟨y, hy, hcon⟩, hsep, ⟨z, hz, hgot⟩⟩ := hr.cur
  cases e with
  | look => exact absurd rfl he
  | add k => exact absurd rfl (ha k)
  | accept k id =>
    obtain ⟨h', s', hap, hq⟩ := accept_spec grow hi k id
    simp only [step, hq]
    refine ⟨c, hc, hcr, own_keep hap hown, hlen, ?_, fun k' s hs hsa => ?_, ⟨z, hz, hgot⟩⟩
    · by_cases hw : ∃ t, Map.get st.shares k = some t ∧ t.arr = c.el.arr ∧ t.len < c.el.len
      · obtain ⟨t, g1, g2, g3⟩ := hw
        obtain ⟨q1, q2⟩ := hsep k t g1 g2
        subst q1
        obtain ⟨t', e1, e2, _⟩ | ⟨e2, e3⟩ := hap.place
        · rw [g1] at e1
          cases e1
          have hs' : s' = c.el := by
            have := hap.len
            rw [g1] at this
            simp only [Option.elim_some] at this
            cases hs : s'
            cases hce : c.el
            simp only [hs, hce] at *
            congr 1
            · omega
            · omega
          refine ⟨id, hid id rfl, ?_⟩
          rw [← hs', hap.content, g1, Option.elim_some, content_prefix g2 (by omega), hcon]
          have : t.len = (l k).length := by omega
          rw [this]
          simp
        · refine ⟨y, hy, ?_⟩
          rw [← hcon]
          have : arr h' c.el.arr = arr st.heap c.el.arr := e3 _ (by have := hown.1; omega)
          simp only [AcceptSlices.content, this]
      · refine ⟨y, hy, ?_⟩
        rw [← hcon]
        refine (content_keep hap hown fun t ht est => ?_).1
        by_contra hlt
        exact hw ⟨t, ht, est.symm, by omega⟩
    · simp only [Map.get_set] at hs
      split at hs
      · next g =>
        cases hs
        obtain ⟨t, e1, e2, _⟩ | ⟨e2, _⟩ := hap.place
        · obtain ⟨q1, q2⟩ := hsep k t e1 (e2.symm.trans hsa)
          have := hap.len
          rw [e1] at this
          simp only [Option.elim_some] at this
          exact ⟨g.trans q1, by omega⟩
        · have := hown.1
          omega
      · exact hsep k' s hs hsa
  | read =>
    obtain ⟨h1, h2, h3⟩ := read_frame st
    by_cases hlt : c.got.length < c.el.len
    · have hrd : AcceptSlices.read st = { st with cur := some { c with got := c.got ++ [(arr st.heap c.el.arr)[c.got.length]?.getD none] } } := by
        unfold AcceptSlices.read
        rw [hc]
        simp only [if_pos hlt]
      simp only [step, hrd]
      refine ⟨_, rfl, hcr, hown, hlen, ⟨y, hy, hcon⟩, hsep, ⟨y, hy, ?_⟩⟩
      have hcell : (arr st.heap c.el.arr)[c.got.length]? = ((l r ++ [y]).map some)[c.got.length]? := by
        rw [← hcon, AcceptSlices.content, List.getElem?_take, if_pos hlt]
      have hle : c.got.length ≤ (l r).length := by omega
      have hg : c.got = ((l r).map some).take c.got.length := by
        have := List.prefix_iff_eq_take.mp hgot
        rw [List.map_append, List.take_append_of_le_length (by simpa using hle)] at this
        exact this
      have hlt2 : c.got.length < ((l r ++ [y]).map some).length := by
        simp
        omega
      have h5 : c.got ++ [(arr st.heap c.el.arr)[c.got.length]?.getD none] = ((l r ++ [y]).map some).take (c.got.length + 1) := by
        rw [List.take_add_one, hcell, List.getElem?_eq_getElem hlt2]
        simp only [Option.getD_some, Option.toList_some]
        congr 1
        rw [List.map_append, List.take_append_of_le_length (by simpa using hle)]
        exact hg
      rw [h5]
      exact List.take_prefix _ _
    · have hrd : AcceptSlices.read st = st := by
        unfold AcceptSlices.read
        rw [hc]
        simp only [if_neg hlt]
      simp only [step, hrd]
      exact ⟨c, hc, hcr, hown, hlen, ⟨y, hy, hcon⟩, hsep, ⟨z, hz, hgot⟩⟩

/-- Whatever arrives meanwhile: the blame reads the ids that were recorded when it copied the lists, and one more, which is its own or that of a share of the
same round accepted while it was reading. -/
theorem c151_reads (grow : Nat → Nat) (self : Nat) (pre mid tail : List Ev) (r : RoundInfo) (hq : Quiet pre) (hm : Ev.look ∉ mid) (ht : Ev.look ∉ tail)
    (hta : ∀ k, Ev.add k ∉ tail) :
    ∃ c, (run grow self (pre ++ Ev.look :: mid ++ Ev.add r :: tail)).cur = some c ∧ c.el.len = (ids pre r).length + 1 ∧
      ∃ y, (y = self ∨ Ev.accept r y ∈ tail) ∧ c.got <+: (ids pre r ++ [y]).map some := by
  have hcop : ∀ (mid : List Ev) (st : St) (l : RoundInfo → List Nat) (m : Map RoundInfo Slice), Ev.look ∉ mid → Copied l m st → Copied l m (mid.foldl (step grow self) st) := by
    intro mid
    induction mid with
    | nil => exact fun _ _ _ _ h => h
    | cons e mid ih =>
      intro st l m hn hc
      simp only [List.mem_cons, not_or] at hn
      exact ih _ l m hn.2 (copied_step grow self hc e (Ne.symm hn.1))
  have hrd : ∀ (t : List Ev) (st : St) (l : RoundInfo → List Nat) (m : Map RoundInfo Slice), (∀ e ∈ t, e ∈ tail) →
      Reading l m r (fun y => y = self ∨ Ev.accept r y ∈ tail) st → Reading l m r (fun y => y = self ∨ Ev.accept r y ∈ tail) (t.foldl (step grow self) st) := by
    intro t
    induction t with
    | nil => exact fun _ _ _ _ h => h
    | cons e t ih =>
      intro st l m hs hc
      have hin := hs e (by simp)
      exact ih _ l m (fun x hx => hs x (by simp [hx])) (reading_step grow self hc e (fun h => ht (h ▸ hin)) (fun k h => hta k (h ▸ hin))
        fun id h => .inr (h ▸ hin))
  have h0 := copied_look (inv_run grow self pre) (quiet_run grow self pre hq).1 grow self
  have h1 := hrd tail _ _ _ (fun _ h => h) (reading_add grow self (hcop mid _ _ _ hm h0) r (.inl rfl))
  obtain ⟨c, hc, _, _, hlen, _, _, y, hy, hg⟩ := h1.cur
  refine ⟨c, ?_, hlen, y, hy, hg⟩
  rw [← hc]
  simp [run, List.foldl_append]

/-- If no share of the round is accepted while the blame reads, it reads, once it is through, the recorded ids and its own. -/
theorem c151_reads_partial (grow : Nat → Nat) (self : Nat) (pre mid tail : List Ev) (r : RoundInfo) (hq : Quiet pre) (hm : Ev.look ∉ mid) (ht : Ev.look ∉ tail)
    (hta : ∀ k, Ev.add k ∉ tail) (hno : ∀ id, Ev.accept r id ∉ tail) :
    ∃ c, (run grow self (pre ++ Ev.look :: mid ++ Ev.add r :: tail)).cur = some c ∧
      (c.got.length = c.el.len → c.got = (ids pre r ++ [self]).map some) := by
  obtain ⟨c, hc, hl, y, hy, hg⟩ := c151_reads grow self pre mid tail r hq hm ht hta
  refine ⟨c, hc, fun hf => ?_⟩
  have hy' : y = self := hy.resolve_right (hno y)
  rw [hy'] at hg
  exact hg.eq_of_length (by simp [hf, hl])

/-! ## what holds whatever arrives -/

/-- an append changes no cell but the one behind the slice, where it writes its value -/
theorem appended_mem {h h' : Heap} {s' : Slice} {o : Option Slice} {x : Nat} (ha : Appended h o x h' s') {s : Slice} (hs : Own h s) {v : Option Nat}
    (hv : v ∈ content h' s) : v ∈ content h s ∨ v = some x := by
  obtain ⟨t, e1, e2, e3, e4⟩ | ⟨_, e2⟩ := ha.place
  · obtain ⟨i, hi⟩ := List.mem_iff_getElem?.1 hv
    rw [AcceptSlices.content, List.getElem?_take] at hi
    split at hi
    · next hlt =>
      by_cases hw : s.arr ≠ t.arr ∨ i ≠ t.len
      · rw [e4 _ _ hw] at hi
        left
        refine List.mem_iff_getElem?.2 ⟨i, ?_⟩
        rw [AcceptSlices.content, List.getElem?_take, if_pos hlt]
        exact hi
      · have hw1 : s.arr = t.arr := by
          by_contra hne
          exact hw (.inl hne)
        have hw2 : i = t.len := by
          by_contra hne
          exact hw (.inr hne)
        have hl := ha.len
        rw [e1, Option.elim_some] at hl
        have hc := ha.content
        have hlast : (AcceptSlices.content h' s').getLast? = some (some x) := by
          rw [hc]
          simp
        have hlen : (AcceptSlices.content h' s').length = t.len + 1 := by rw [content_length ha.own, hl]
        rw [List.getLast?_eq_getElem?, hlen, AcceptSlices.content, List.getElem?_take, if_pos (by omega), e2] at hlast
        rw [hw1, hw2] at hi
        right
        simp only [Nat.add_sub_cancel] at hlast
        rw [hi] at hlast
        exact Option.some.inj hlast
    · cases hi
  · have : arr h' s.arr = arr h s.arr := e2 _ (by have := hs.1; omega)
    left
    rw [AcceptSlices.content, this] at hv
    exact hv

theorem kept_run (grow : Nat → Nat) (self : Nat) (h : List Ev) (r : RoundInfo) :
    (match Map.get (run grow self h).shares r with
      | none => ids h r = []
      | some s => s.len = (ids h r).length ∧ ∀ v ∈ content (run grow self h).heap s, ∃ id, v = some id ∧ (id ∈ ids h r ∨ id = self)) := by
  induction h using List.reverseRecOn with
  | nil => rfl
  | append_singleton h e ih =>
    have hi := inv_run grow self h
    rw [run_snoc, ids_snoc]
    cases e with
    | accept k id =>
      obtain ⟨h', s', ha, he⟩ := accept_spec grow hi k id
      have e2 : ids [Ev.accept k id] r = if k = r then [id] else [] := by
        unfold ids
        by_cases g : k = r <;> simp [g]
      rw [e2]
      simp only [step, he, Map.get_set]
      by_cases g : r = k
      · subst g
        simp only [if_true]
        refine ⟨?_, fun v hv => ?_⟩
        · rw [ha.len]
          cases q : Map.get (run grow self h).shares r with
          | none =>
            rw [q] at ih
            simp only at ih
            rw [ih]
            rfl
          | some s =>
            rw [q] at ih
            rw [Option.elim_some, ih.1]
            simp
        · rw [ha.content] at hv
          cases q : Map.get (run grow self h).shares r with
          | none =>
            rw [q] at hv
            have : v = some id := by simpa using hv
            exact ⟨id, this, .inl (by simp)⟩
          | some s =>
            rw [q] at hv ih
            simp only [Option.elim_some, List.mem_append, List.mem_singleton] at hv
            rcases hv with hv | rfl
            · obtain ⟨i, rfl, hh⟩ := ih.2 v hv
              exact ⟨i, rfl, hh.imp (fun m => by simp [m]) fun q => q⟩
            · exact ⟨id, rfl, .inl (by simp)⟩
      · rw [if_neg g, if_neg (Ne.symm g), List.append_nil]
        cases q : Map.get (run grow self h).shares r with
        | none =>
          rw [q] at ih
          exact ih
        | some s =>
          rw [q] at ih
          simp only at ih ⊢
          have := (content_keep ha (hi.own _ _ q) fun t ht est => absurd (hi.sep _ _ _ _ q ht est) g).1
          rw [this]
          exact ih
    | look => simpa [ids, step, look] using ih
    | add k =>
      cases hm : (run grow self h).snap with
      | none =>
        have : step grow self (run grow self h) (.add k) = run grow self h := by simp [step, add, hm]
        rw [this]
        simpa [ids] using ih
      | some m =>
        obtain ⟨h', s', ha, he⟩ := add_spec grow self hi hm k
        have e2 : ids [Ev.add k] r = [] := rfl
        rw [e2, List.append_nil]
        simp only [step, he]
        cases q : Map.get (run grow self h).shares r with
        | none =>
          rw [q] at ih
          exact ih
        | some s =>
          rw [q] at ih
          simp only at ih ⊢
          refine ⟨ih.1, fun v hv => ?_⟩
          rcases appended_mem ha (hi.own _ _ q) hv with hv | rfl
          · exact ih.2 v hv
          · exact ⟨self, rfl, .inr rfl⟩
    | read =>
      obtain ⟨h1, h2, h3⟩ := read_frame (run grow self h)
      simpa [ids, step, h1, h2] using ih

/-- Whatever the order of events: a share counts as a duplicate only if one of that sender was accepted in that round before, or its sender is the node itself. So no
other node's share is ever dropped as a duplicate without having been accepted. -/
theorem c151_never_invented (grow : Nat → Nat) (self : Nat) (h : List Ev) (r : RoundInfo) (id : Nat) (hid : id ≠ self)
    (hd : checkMsgDuplication (run grow self h) r id = true) : Ev.accept r id ∈ h := by
  have hk := kept_run grow self h r
  unfold checkMsgDuplication at hd
  split at hd
  · cases hd
  · next s e =>
    rw [e] at hk
    obtain ⟨v, hv, hx⟩ := List.any_eq_true.1 hd
    obtain ⟨i, rfl, hh⟩ := hk.2 v hv
    have : i = id := by simpa using hx
    subst this
    exact (mem_ids h r i).1 (hh.resolve_right hid)

/-- Whatever the order of events: the record of a round counts as many shares as were accepted, so that the number by which a round is found complete is right. -/
theorem c151_counts (grow : Nat → Nat) (self : Nat) (h : List Ev) (r : RoundInfo) :
    ((Map.get (run grow self h).shares r).elim 0 (·.len)) = (ids h r).length := by
  have hk := kept_run grow self h r
  cases q : Map.get (run grow self h).shares r with
  | none =>
    rw [q] at hk
    simp only at hk
    simp [hk]
  | some s =>
    rw [q] at hk
    exact hk.1

/-! ## what goes wrong -/

theorem append_room (grow : Nat → Nat) (h : Heap) (s : Slice) (x : Nat) (hs : s.len < (arr h s.arr).length) :
    append grow h (some s) x = (h.set s.arr ((arr h s.arr).set s.len (some x)), ⟨s.arr, s.len + 1⟩) := by
  simp only [append, if_pos hs]

/-- If there is room behind the list of a round, a share accepted between the copying and the adding is overwritten by the local id: the record then holds the
local id in its place. -/
theorem c151_overwritten (grow : Nat → Nat) (self : Nat) (pre : List Ev) (r : RoundInfo) (x : Nat) (hq : Quiet pre) {s : Slice}
    (hs : Map.get (run grow self pre).shares r = some s) (hroom : s.len < (arr (run grow self pre).heap s.arr).length) (id : Nat) :
    checkMsgDuplication (run grow self (pre ++ [.look, .accept r x, .add r])) r id = true ↔ id ∈ ids pre r ∨ id = self := by
  have hi := inv_run grow self pre
  have h0 := copied_look hi (quiet_run grow self pre hq).1 grow self
  have h1 := copied_step grow self h0 (.accept r x) (by simp)
  have h2 := reading_add grow self h1 r (ok := fun y => y = self) rfl
  have e1 : run grow self (pre ++ [.look, .accept r x, .add r]) = step grow self (step grow self (step grow self (run grow self pre) .look) (.accept r x)) (.add r) := by
    simp [run]
  rw [e1]
  generalize run grow self pre = st at *
  have hown := hi.own _ _ hs
  -- the record and the copy lie on the same array, and the adding takes place there
  have g1 : (step grow self (step grow self st .look) (.accept r x)).shares = Map.set st.shares r ⟨s.arr, s.len + 1⟩ ∧
      (step grow self (step grow self st .look) (.accept r x)).heap = st.heap.set s.arr ((arr st.heap s.arr).set s.len (some x)) := by
    simp only [step, look, updateAcceptShare, hs, append_room grow _ _ _ hroom]
    exact ⟨trivial, trivial⟩
  generalize step grow self (step grow self st .look) (.accept r x) = st2 at *
  have hroom2 : s.len < (arr st2.heap s.arr).length := by
    rw [g1.2, arr_set _ _ hown.1, if_pos rfl, List.length_set]
    exact hroom
  have g2 : (step grow self st2 (.add r)).shares = Map.set st.shares r ⟨s.arr, s.len + 1⟩ ∧ (step grow self st2 (.add r)).cur = some ⟨r, ⟨s.arr, s.len + 1⟩, []⟩ := by
    simp only [step, add, h1.snap, hs, append_room grow _ _ _ hroom2]
    exact ⟨g1.1, trivial⟩
  obtain ⟨c, hc, _, _, _, ⟨y, rfl, hcon⟩, _⟩ := h2.cur
  rw [g2.2] at hc
  cases hc
  have hh : Holds (step grow y st2 (.add r)) r (ids pre r ++ [y]) := by
    unfold Holds
    rw [g2.1, Map.get_set_self]
    exact hcon
  rw [holds_check hh]
  simp

/-- The property is false: three shares of a round are recorded, the time is up, the share of a fourth member arrives while the blame is being worked out, and
the record forgets it: the share no longer counts as accepted. -/
theorem c151_forgotten (self a b c x : Nat) (r : RoundInfo) (hx : x ≠ self ∧ x ≠ a ∧ x ≠ b ∧ x ≠ c) :
    checkMsgDuplication (run goGrow self [.accept r a, .accept r b, .accept r c, .look, .accept r x]) r x = true ∧
    checkMsgDuplication (run goGrow self [.accept r a, .accept r b, .accept r c, .look, .accept r x, .add r]) r x = false := by
  have hq : Quiet [Ev.accept r a, .accept r b, .accept r c] := by
    intro pre k post e
    have : Ev.add k ∈ [Ev.accept r a, .accept r b, .accept r c] := by rw [e]; simp
    simp at this
  constructor
  · have hq2 : Quiet [Ev.accept r a, .accept r b, .accept r c, .look, .accept r x] := by
      intro pre k post e
      have : Ev.add k ∈ [Ev.accept r a, .accept r b, .accept r c, .look, .accept r x] := by rw [e]; simp
      simp at this
    rw [c151_records_partial goGrow self _ hq2]
    simp
  · have := c151_overwritten goGrow self [.accept r a, .accept r b, .accept r c] r x hq (s := ⟨2, 3⟩)
      (by simp [run, step, updateAcceptShare, append, goGrow, arr, Map.get, Map.set, AcceptSlices.content])
      (by simp [run, step, updateAcceptShare, append, goGrow, arr, Map.get, Map.set, AcceptSlices.content]) x
    rw [Bool.eq_false_iff]
    intro hc
    have := this.mp hc
    simp [ids] at this
    tauto

/-- And a blame that is worked out later no longer finds it: it reads the three ids and twice its own, so that it names the fourth member although their share was
accepted. -/
theorem c151_named (self a b c x : Nat) (r : RoundInfo) :
    ((run goGrow self [.accept r a, .accept r b, .accept r c, .look, .accept r x, .add r, .look, .add r, .read, .read, .read, .read, .read]).cur.map (·.got)) =
      some [some a, some b, some c, some self, some self] := by
  simp [run, step, updateAcceptShare, add, look, AcceptSlices.read, append, goGrow, arr, Map.get, Map.set, AcceptSlices.content, List.replicate]

/-- Who is named for those ids (blame/policy.go:179-187): in a pool of six or more the round still counts as incomplete, and the fourth member is named, in every
order of the peers. -/
theorem c151_blamed {K P : Type} [DecidableEq K] [DecidableEq P] (cd : Conversion.Codec K P) (m : Manager K P) (hc : Spec.Committee cd m) (σ : Shuffle (Nat × P))
    (a b c x : Nat) (r : RoundInfo) (hx : x ≠ m.localPartyID ∧ x ≠ a ∧ x ≠ b ∧ x ≠ c) (hmem : x ∈ Map.keys m.partyIDMap) :
    ∃ got ks k, ((run goGrow m.localPartyID [.accept r a, .accept r b, .accept r c, .look, .accept r x, .add r, .look, .add r, .read, .read, .read, .read,
        .read]).cur.map (·.got)) = some got ∧
      getBlamePubKeysNotInList cd m.partyIDMap m.localPartyID (σ.f m.partyIDtoP2PID) (got.map fun id => id.bind (Map.get m.partyIDtoP2PID)) = .ok ks ∧
      k ∈ ks ∧ Spec.Named cd m.partyIDMap x k := by
  obtain ⟨is, ks, h1, _, h2, h3⟩ := Timeouts.notInList_spec cd m hc σ
    (([some a, some b, some c, some m.localPartyID, some m.localPartyID] : List (Option Nat)).map fun id => id.bind (Map.get m.partyIDtoP2PID))
  obtain ⟨p, hp⟩ := Option.isSome_iff_exists.1 ((Map.get_isSome_iff _ _).2 ((hc.same x).2 hmem))
  have hin : x ∈ is := by
    refine (h3 x).2 ⟨hx.1, p, hp, fun hl => ?_⟩
    have hne : ∀ y, x ≠ y → some p ≠ Map.get m.partyIDtoP2PID y := fun y hy he => hy (hc.inj _ _ p hp he.symm)
    simp only [List.map_cons, List.map_nil, Option.bind_some, List.mem_cons, List.not_mem_nil, or_false] at hl
    rcases hl with hl | hl | hl | hl | hl
    · exact hne a hx.2.1 hl
    · exact hne b hx.2.2.1 hl
    · exact hne c hx.2.2.2 hl
    · exact hne _ hx.1 hl
    · exact hne _ hx.1 hl
  obtain ⟨k, hk, hkn⟩ := (names_mem h2).1 x hin
  exact ⟨_, ks, k, c151_named _ a b c x r, h1, hk, hkn⟩

/-- The blame can also be damaged itself: a share that arrives between the adding and the reading takes the place of the local id. -/
theorem c151_replaced (self a b c x : Nat) (r : RoundInfo) :
    ((run goGrow self [.accept r a, .accept r b, .accept r c, .look, .add r, .accept r x, .read, .read, .read, .read]).cur.map (·.got)) =
      some [some a, some b, some c, some x] := by
  simp [run, step, updateAcceptShare, add, look, AcceptSlices.read, append, goGrow, arr, Map.get, Map.set, AcceptSlices.content]

/-! ## the hypotheses are met -/

/-- the fourth member of the example committee -/
example : Spec.Committee Spec.demoCodec (Spec.demoManager (K := Nat) 0) ∧ 3 ∈ Map.keys (Spec.demoManager (K := Nat) 0).partyIDMap :=
  ⟨Spec.demoCommittee 0 (by decide), by decide⟩

/-- a share arrives between the copying and the adding, but of another round -/
example (r k : RoundInfo) (hk : k ≠ r) : Quiet [Ev.accept r 1, .look, .accept k 2, .add r, .read, .read, .accept r 3] := by
  intro pre q post e
  have hq : q = r := by
    have : Ev.add q ∈ [Ev.accept r 1, .look, .accept k 2, .add r, .read, .read, .accept r 3] := by rw [e]; simp
    simpa using this
  subst hq
  have hp : pre = [Ev.accept q 1, .look, .accept k 2] := by
    rcases pre with _ | ⟨p1, _ | ⟨p2, _ | ⟨p3, _ | ⟨p4, _ | ⟨p5, _ | ⟨p6, _ | ⟨p7, _ | ⟨p8, pre⟩⟩⟩⟩⟩⟩⟩⟩ <;> simp at e
    simp [e]
  rw [hp]
  exact ⟨[Ev.accept q 1], [.accept k 2], rfl, by simp, by simp [Ne.symm hk]⟩

end Verif.Props.AcceptRace
