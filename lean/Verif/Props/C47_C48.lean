import Verif.Model.Notifier
import Mathlib.Data.List.Induction

/-!
# C47, C48, C74, C75: receiving signatures from others
-/
set_option linter.unusedSectionVars false
namespace Verif.Props.Notified
open Verif.Go Verif.Session Verif.SigNotifier

/-- Specification: the waits started in a history: message id, messages and pool key -/
def waitsOf (h : List Event) : List (String × List Bytes × String) :=
  h.filterMap fun e => match e with
    | .wait id msgs key => some (id, msgs, key)
    | _ => none

/-- Specification: `sig` is a signature of `m` that verifies under the pool key -/
def Valid (env : Env) (key : String) (m : Bytes) (sig : Sig) : Prop :=
  sig.signature ≠ none ∧ env.verify key m (Bytes.toNat sig.r) (Bytes.toNat sig.s) = some true

/-- Specification: the payload is a notification of success for message id `id` with the signatures `d`, at least one -/
def Carries (env : Env) (payload : Bytes) (id : String) (d : List Sig) : Prop :=
  ∃ m, env.decMsg payload = some m ∧ m.id = id ∧ m.success = true ∧ m.signatures ≠ [] ∧ List.Forall₂ (fun b s => env.decSig b = some s) m.signatures d

/-- Specification: the signatures `d` are valid for the messages in order; there are no more of them than messages -/
def AllValid (env : Env) (key : String) (msgs : List Bytes) (d : List Sig) : Prop :=
  d ≠ [] ∧ d.length ≤ msgs.length ∧ ∀ (i : Nat) (sig : Sig), d[i]? = some sig → ∃ m, msgs[i]? = some m ∧ Valid env key m sig

theorem verifyLoop_true (env : Env) (key : String) (d : List Sig) (msgs : List Bytes) :
    verifyLoop env key d msgs = some true ↔
      d.length ≤ msgs.length ∧ ∀ (i : Nat) (sig : Sig), d[i]? = some sig → ∃ m, msgs[i]? = some m ∧ Valid env key m sig := by
  induction d generalizing msgs with
  | nil => simp [verifyLoop]
  | cons s d ih =>
    rcases msgs with _ | ⟨m, ms⟩
    · simp [verifyLoop]
    · have split0 : (∀ (i : Nat) (sig : Sig), (s :: d)[i]? = some sig → ∃ m', (m :: ms)[i]? = some m' ∧ Valid env key m' sig) ↔
          Valid env key m s ∧ ∀ (i : Nat) (sig : Sig), d[i]? = some sig → ∃ m', ms[i]? = some m' ∧ Valid env key m' sig := by
        constructor
        · intro h
          refine ⟨?_, fun i sig hi => ?_⟩
          · obtain ⟨m', h1, h2⟩ := h 0 s rfl
            cases h1; exact h2
          · exact h (i + 1) sig (by simpa using hi)
        · rintro ⟨h0, h⟩ i sig hi
          rcases i with _ | i
          · cases hi; exact ⟨m, rfl, h0⟩
          · exact h i sig (by simpa using hi)
      rw [split0]
      simp only [List.length_cons, Nat.add_le_add_iff_right]
      unfold verifyLoop
      split
      · rename_i hs
        have hs' : s.signature ≠ none := by intro hn; rw [hn] at hs; cases hs
        split
        · rename_i hv
          rw [ih]
          simp only [Valid, hv, hs', ne_eq, not_false_eq_true, and_true, true_and]
        · rename_i hv
          constructor
          · intro h; cases h
          · rintro ⟨_, ⟨_, h1⟩, _⟩; exact absurd h1 (by intro h2; exact hv h2)
      · rename_i hs
        constructor
        · intro h; cases h
        · rintro ⟨_, ⟨h1, _⟩, _⟩
          exact absurd (Option.isSome_iff_ne_none.2 h1) hs

theorem verifyLoop_none (env : Env) (key : String) (d : List Sig) (msgs : List Bytes) :
    verifyLoop env key d msgs = none ↔ msgs.length < d.length ∧
      ∀ (i : Nat) (m : Bytes), msgs[i]? = some m → ∃ sig, d[i]? = some sig ∧ Valid env key m sig := by
  induction d generalizing msgs with
  | nil => simp [verifyLoop]
  | cons s d ih =>
    rcases msgs with _ | ⟨m, ms⟩
    · simp [verifyLoop]
    · have split0 : (∀ (i : Nat) (m' : Bytes), (m :: ms)[i]? = some m' → ∃ sig, (s :: d)[i]? = some sig ∧ Valid env key m' sig) ↔
          Valid env key m s ∧ ∀ (i : Nat) (m' : Bytes), ms[i]? = some m' → ∃ sig, d[i]? = some sig ∧ Valid env key m' sig := by
        constructor
        · intro h
          refine ⟨?_, fun i m' hi => ?_⟩
          · obtain ⟨s', h1, h2⟩ := h 0 m rfl
            cases h1; exact h2
          · exact h (i + 1) m' (by simpa using hi)
        · rintro ⟨h0, h⟩ i m' hi
          rcases i with _ | i
          · cases hi; exact ⟨s, rfl, h0⟩
          · exact h i m' (by simpa using hi)
      rw [split0]
      simp only [List.length_cons, Nat.add_lt_add_iff_right]
      unfold verifyLoop
      split
      · rename_i hs
        have hs' : s.signature ≠ none := by intro hn; rw [hn] at hs; cases hs
        split
        · rename_i hv
          rw [ih]
          simp only [Valid, hv, hs', ne_eq, not_false_eq_true, and_true, true_and]
        · rename_i hv
          constructor
          · intro h; cases h
          · rintro ⟨_, ⟨_, h1⟩, _⟩; exact absurd h1 (by intro h2; exact hv h2)
      · rename_i hs
        constructor
        · intro h; cases h
        · rintro ⟨_, ⟨h1, _⟩, _⟩
          exact absurd (Option.isSome_iff_ne_none.2 h1) hs

/-- Specification: the answers a wait for `(id, msgs, key)` may get in history `h` -/
def GoodAnswer (env : Env) (h : List Event) (wt : String × List Bytes × String) (d : List Sig) : Prop :=
  AllValid env wt.2.2 wt.2.1 d ∧ ∃ payload, Event.notify payload ∈ h ∧ Carries env payload wt.1 d

/-- the invariant -/
structure Inv (env : Env) (h : List Event) (s : St) : Prop where
  unblocked : s.blocked = false
  len : s.crashed = false → s.waits.length = (waitsOf h).length
  le : s.waits.length ≤ (waitsOf h).length
  fields : ∀ (w : Nat) (n : Notifier) (ph : Phase), s.waits[w]? = some (n, ph) → (waitsOf h)[w]? = some (n.messageID, n.messages, n.poolPubKey)
  resp : ∀ (w : Nat) (n : Notifier) (ph : Phase), s.waits[w]? = some (n, ph) → n.resp.length ≤ 1 ∧ ∀ d ∈ n.resp, GoodAnswer env h (n.messageID, n.messages, n.poolPubKey) d
  ok : ∀ (w : Nat) (n : Notifier) (ph : Phase), s.waits[w]? = some (n, ph) → ∀ d, ph = .decided (.ok d) ∨ ph = .ended (.ok d) →
    GoodAnswer env h (n.messageID, n.messages, n.poolPubKey) d
  reg : ∀ (id : String) (w : Nat), Map.get s.table id = some w → ∃ (n : Notifier) (ph : Phase), s.waits[w]? = some (n, ph) ∧ n.messageID = id ∧ n.resp = [] ∧
    (∀ r, ph ≠ .ended r)

theorem GoodAnswer.mono {env : Env} {h : List Event} {wt : String × List Bytes × String} {d : List Sig} (e : Event)
    (hg : GoodAnswer env h wt d) : GoodAnswer env (h ++ [e]) wt d := by
  obtain ⟨h1, p, h2, h3⟩ := hg
  exact ⟨h1, p, by simp [h2], h3⟩

theorem waitsOf_append (h : List Event) (e : Event) :
    waitsOf (h ++ [e]) = waitsOf h ++ (match e with | .wait id msgs key => [(id, msgs, key)] | _ => []) := by
  unfold waitsOf
  rw [List.filterMap_append]
  congr 1
  cases e <;> rfl

/-- an event that starts no wait and leaves the state alone keeps the invariant -/
theorem Inv.mono {env : Env} {h : List Event} {s : St} (hi : Inv env h s) (e : Event) (hc : s.crashed = true ∨ ∀ id m k, e ≠ .wait id m k) :
    Inv env (h ++ [e]) s := by
  have hle : (waitsOf h).length ≤ (waitsOf (h ++ [e])).length := by rw [waitsOf_append]; simp
  refine ⟨hi.unblocked, ?_, Nat.le_trans hi.le hle, ?_, ?_, ?_, hi.reg⟩
  · intro hcr
    rcases hc with hc | hc
    · rw [hcr] at hc; cases hc
    · rw [waitsOf_append, hi.len hcr]
      cases e <;> first | (exact absurd rfl (hc _ _ _)) | rfl | simp
  · intro w n ph hw
    rw [waitsOf_append, List.getElem?_append_left]
    · exact hi.fields w n ph hw
    · have := (List.getElem?_eq_some_iff.1 hw).1
      exact Nat.lt_of_lt_of_le this hi.le
  · intro w n ph hw
    exact ⟨(hi.resp w n ph hw).1, fun d hd => ((hi.resp w n ph hw).2 d hd).mono e⟩
  · intro w n ph hw d hd
    exact (hi.ok w n ph hw d hd).mono e

theorem forall2_of_mapM {α β : Type} (f : α → Option β) (l : List α) (r : List β) (h : l.mapM f = some r) :
    List.Forall₂ (fun a b => f a = some b) l r := by
  induction l generalizing r with
  | nil => simp at h; subst h; exact .nil
  | cons a l ih =>
    simp only [List.mapM_cons, Option.pure_def, Option.bind_eq_bind, Option.bind_eq_some_iff, Option.some.injEq] at h
    obtain ⟨b, hb, r', hr, rfl⟩ := h
    exact .cons hb (ih r' hr)

/-- the invariant after a change of the phase and channel of wait `w` -/
theorem Inv.change {env : Env} {h : List Event} {s : St} (hi : Inv env h s) (w : Nat) (n n' : Notifier) (ph ph' : Phase) (table : Map String Nat)
    (hw : s.waits[w]? = some (n, ph)) (hn : n'.messageID = n.messageID ∧ n'.messages = n.messages ∧ n'.poolPubKey = n.poolPubKey)
    (hresp : n'.resp.length ≤ 1 ∧ ∀ d ∈ n'.resp, GoodAnswer env h (n.messageID, n.messages, n.poolPubKey) d)
    (hok : ∀ d, ph' = .decided (.ok d) ∨ ph' = .ended (.ok d) → GoodAnswer env h (n.messageID, n.messages, n.poolPubKey) d)
    (htab : ∀ id w', Map.get table id = some w' → Map.get s.table id = some w')
    (hreg : (∃ id, Map.get table id = some w) → n'.resp = [] ∧ ∀ r, ph' ≠ .ended r) :
    Inv env h { s with waits := s.waits.set w (n', ph'), table := table } := by
  have hlt := (List.getElem?_eq_some_iff.1 hw).1
  have get : ∀ w' x, (s.waits.set w (n', ph'))[w']? = some x → (w' = w ∧ x = (n', ph')) ∨ (w' ≠ w ∧ s.waits[w']? = some x) := by
    intro w' x hx
    by_cases hww : w = w'
    · subst hww
      rw [List.getElem?_set_self hlt] at hx
      cases hx; exact Or.inl ⟨rfl, rfl⟩
    · rw [List.getElem?_set_ne hww] at hx
      exact Or.inr ⟨fun h => hww h.symm, hx⟩
  refine ⟨hi.unblocked, ?_, ?_, ?_, ?_, ?_, ?_⟩
  · intro hc; simpa using hi.len hc
  · simpa using hi.le
  · intro w' m p hx
    rcases get w' _ hx with ⟨rfl, hx'⟩ | ⟨_, hx⟩
    · cases hx'
      rw [hn.1, hn.2.1, hn.2.2]; exact hi.fields _ _ _ hw
    · exact hi.fields _ _ _ hx
  · intro w' m p hx
    rcases get w' _ hx with ⟨rfl, hx'⟩ | ⟨_, hx⟩
    · cases hx'
      rw [hn.1, hn.2.1, hn.2.2]; exact hresp
    · exact hi.resp _ _ _ hx
  · intro w' m p hx d hd
    rcases get w' _ hx with ⟨rfl, hx'⟩ | ⟨_, hx⟩
    · cases hx'
      rw [hn.1, hn.2.1, hn.2.2]; exact hok d hd
    · exact hi.ok _ _ _ hx d hd
  · intro id w' hid
    obtain ⟨m, p, h1, h2, h3, h4⟩ := hi.reg id w' (htab id w' hid)
    by_cases hww : w' = w
    · subst hww
      rw [hw] at h1; cases h1
      obtain ⟨g1, g2⟩ := hreg ⟨id, hid⟩
      exact ⟨n', ph', List.getElem?_set_self hlt, by rw [hn.1]; exact h2, g1, g2⟩
    · exact ⟨m, p, by dsimp only; rw [List.getElem?_set_ne (fun h => hww h.symm)]; exact h1, h2, h3, h4⟩

theorem inv_run (env : Env) (h : List Event) : Inv env h (run env h) := by
  induction h using List.reverseRecOn with
  | nil =>
    refine ⟨rfl, fun _ => rfl, Nat.le_refl _, ?_, ?_, ?_, ?_⟩ <;> simp [run, init]
  | append_singleton h e ih =>
    have hrun : run env (h ++ [e]) = step env (run env h) e := by simp [run]
    rw [hrun]
    set s := run env h with hs
    unfold step
    split
    · rename_i hc
      rcases hc with hc | hc
      · exact ih.mono e (Or.inl hc)
      · rw [ih.unblocked] at hc; cases hc
    · rename_i hcb
      have hc : s.crashed = false := by
        rcases hh : s.crashed
        · rfl
        · exact absurd (Or.inl hh) hcb
      cases e with
      | wait id msgs key =>
        dsimp only
        have hlen := ih.len hc
        have happ : ∀ (n : Notifier) (ph : Phase) (table : Map String Nat), n.messageID = id → n.messages = msgs → n.poolPubKey = key →
            n.resp = [] → (∀ d, ph ≠ .decided (.ok d) ∧ ph ≠ .ended (.ok d)) →
            (∀ id' w, Map.get table id' = some w → Map.get s.table id' = some w ∨
              (id' = id ∧ w = s.waits.length ∧ ∀ r, ph ≠ .ended r)) →
            Inv env (h ++ [.wait id msgs key]) { s with table := table, waits := s.waits ++ [(n, ph)] } := by
          intro n ph table h1 h2 h3 h4 h5 h6
          have get : ∀ w x, (s.waits ++ [(n, ph)])[w]? = some x → s.waits[w]? = some x ∨ (w = s.waits.length ∧ x = (n, ph)) := by
            intro w x hx
            rcases Nat.lt_trichotomy w s.waits.length with hw | hw | hw
            · rw [List.getElem?_append_left hw] at hx; exact Or.inl hx
            · subst hw; simp at hx; exact Or.inr ⟨rfl, hx.symm⟩
            · rw [List.getElem?_eq_none (by simp; omega)] at hx; cases hx
          have old := fun w n' ph' (hx : s.waits[w]? = some (n', ph')) => (List.getElem?_eq_some_iff.1 hx).1
          refine ⟨ih.unblocked, ?_, ?_, ?_, ?_, ?_, ?_⟩
          · intro _; rw [waitsOf_append]; simp [hlen]
          · rw [waitsOf_append]; simp [hlen]
          · intro w n' ph' hx
            rw [waitsOf_append]
            rcases get w _ hx with hx | ⟨rfl, hx'⟩
            · rw [List.getElem?_append_left (by rw [← hlen]; exact old _ _ _ hx)]
              exact ih.fields _ _ _ hx
            · cases hx'
              rw [hlen]; simp [h1, h2, h3]
          · intro w n' ph' hx
            rcases get w _ hx with hx | ⟨rfl, hx'⟩
            · exact ⟨(ih.resp _ _ _ hx).1, fun d hd => ((ih.resp _ _ _ hx).2 d hd).mono _⟩
            · cases hx'; rw [h4]; simp
          · intro w n' ph' hx d hd
            rcases get w _ hx with hx | ⟨rfl, hx'⟩
            · exact (ih.ok _ _ _ hx d hd).mono _
            · cases hx'
              rcases hd with hd | hd
              · exact absurd hd (h5 d).1
              · exact absurd hd (h5 d).2
          · intro id' w hw
            rcases h6 id' w hw with hw | ⟨rfl, rfl, hw'⟩
            · obtain ⟨n', ph', g1, g2, g3, g4⟩ := ih.reg id' w hw
              exact ⟨n', ph', by dsimp only; rw [List.getElem?_append_left (old _ _ _ g1)]; exact g1, g2, g3, g4⟩
            · exact ⟨n, ph, by simp, h1, h4, hw'⟩
        have hnew : ∀ n, NewNotifier id msgs key = .ok n → n = ⟨id, msgs, key, []⟩ := by
          intro n hn
          unfold NewNotifier at hn
          split at hn
          · cases hn
          · split at hn
            · cases hn
            · split at hn
              · cases hn
              · cases hn; rfl
        split
        · rename_i n hn
          have := hnew n hn
          subst this
          refine happ _ _ _ rfl rfl rfl rfl (fun d => ⟨by simp, by simp⟩) ?_
          intro id' w hw
          rw [Map.get_set] at hw
          split at hw
          · rename_i he; cases hw; exact Or.inr ⟨he, rfl, by simp⟩
          · exact Or.inl hw
        · refine happ _ _ _ rfl rfl rfl rfl (fun d => ⟨by simp, by simp⟩) ?_
          intro id' w hw
          exact Or.inl hw
      | notify payload =>
        have same := ih.mono (.notify payload) (Or.inr (by simp))
        dsimp only
        split
        · exact same
        · rename_i m hm
          split
          · exact same
          · rename_i data hdata
            unfold deliver
            split
            · exact same
            · rename_i w hw
              obtain ⟨n, ph, h1, h2, h3, h4⟩ := ih.reg _ _ hw
              rw [h1]
              dsimp only
              unfold ProcessSignature
              by_cases hd0 : data.length = 0
              · rw [if_pos hd0]; exact same
              · rw [if_neg hd0]
                rcases hv : verifyLoop env n.poolPubKey data n.messages with _ | b
                · exact ⟨same.unblocked, (by intro h; cases h), same.le, same.fields, same.resp, same.ok, same.reg⟩
                · cases b
                  · exact same
                  · have hlt : n.resp.length < 1 := by rw [h3]; exact Nat.one_pos
                    dsimp only
                    rw [if_pos hlt]
                    dsimp only
                    have hvl := (verifyLoop_true env n.poolPubKey data n.messages).1 hv
                    have hne : data ≠ [] := by intro h; rw [h] at hd0; exact hd0 rfl
                    have hgood : GoodAnswer env (h ++ [.notify payload]) (n.messageID, n.messages, n.poolPubKey) data := by
                      refine ⟨⟨hne, hvl.1, hvl.2⟩, payload, by simp, m, hm, h2.symm, ?_⟩
                      unfold decodeSigs at hdata
                      split at hdata
                      · rename_i hcond
                        exact ⟨hcond.2, List.ne_nil_of_length_pos hcond.1, forall2_of_mapM _ _ _ hdata⟩
                      · cases hdata; exact absurd rfl hne
                    apply same.change w n { n with resp := n.resp ++ [data] } ph ph _ h1 ⟨rfl, rfl, rfl⟩
                    · rw [h3]; exact ⟨Nat.le_refl _, by simpa using hgood⟩
                    · intro d hd
                      exact same.ok w n ph h1 d hd
                    · intro id' w' hw'
                      rw [Map.get_del] at hw'
                      split at hw'
                      · cases hw'
                      · exact hw'
                    · rintro ⟨id', hid'⟩
                      exfalso
                      rw [Map.get_del] at hid'
                      split at hid'
                      · cases hid'
                      · rename_i hne'
                        obtain ⟨n', ph', g1, g2, _⟩ := ih.reg _ _ hid'
                        rw [h1] at g1; cases g1
                        exact hne' (g2.symm.trans h2)
      | receive w =>
        have same := ih.mono (.receive w) (Or.inr (by simp))
        dsimp only
        split
        · rename_i n hn
          split
          · rename_i d rest hr
            obtain ⟨g1, g2⟩ := same.resp w n _ hn
            have hrest : rest = [] := by
              rw [hr] at g1
              exact List.length_eq_zero_iff.1 (by simpa using g1)
            have := same.change w n { n with resp := rest } .waiting (.decided (.ok d)) s.table hn ⟨rfl, rfl, rfl⟩
              (by rw [hrest]; exact ⟨Nat.zero_le _, by simp⟩)
              (by
                intro d' hd'
                have : d' = d := by rcases hd' with hd' | hd' <;> cases hd'; rfl
                subst this
                exact g2 _ (by rw [hr]; simp))
              (fun _ _ h => h) (fun _ => ⟨hrest, by simp⟩)
            exact this
          · exact same
        · exact same
      | timeout w =>
        have same := ih.mono (.timeout w) (Or.inr (by simp))
        dsimp only
        split
        · rename_i n hn
          exact same.change w n n .waiting _ s.table hn ⟨rfl, rfl, rfl⟩ (same.resp w n _ hn) (by rintro d (hd | hd) <;> cases hd)
            (fun _ _ h => h) (by
              rintro ⟨id, hid⟩
              obtain ⟨n', ph', g1, g2, g3, g4⟩ := ih.reg _ _ hid
              rw [hn] at g1; cases g1
              exact ⟨g3, by simp⟩)
        · exact same
      | cancel w =>
        have same := ih.mono (.cancel w) (Or.inr (by simp))
        dsimp only
        split
        · rename_i n hn
          exact same.change w n n .waiting _ s.table hn ⟨rfl, rfl, rfl⟩ (same.resp w n _ hn) (by rintro d (hd | hd) <;> cases hd)
            (fun _ _ h => h) (by
              rintro ⟨id, hid⟩
              obtain ⟨n', ph', g1, g2, g3, g4⟩ := ih.reg _ _ hid
              rw [hn] at g1; cases g1
              exact ⟨g3, by simp⟩)
        · exact same
      | remove w =>
        have same := ih.mono (.remove w) (Or.inr (by simp))
        dsimp only
        split
        · rename_i n r hn
          have := same.change w n n (.decided r) (.ended r) (Map.del s.table n.messageID) hn ⟨rfl, rfl, rfl⟩ (same.resp w n _ hn)
            (by
              rintro d (hd | hd)
              · cases hd
              · cases hd; exact same.ok w n _ hn d (Or.inl rfl))
            (by
              intro id' w' hw'
              rw [Map.get_del] at hw'
              split at hw'
              · cases hw'
              · exact hw')
            (by
              rintro ⟨id', hid'⟩
              exfalso
              rw [Map.get_del] at hid'
              split at hid'
              · cases hid'
              · rename_i hne
                obtain ⟨n', ph', g1, g2, _⟩ := ih.reg _ _ hid'
                rw [hn] at g1; cases g1
                exact hne g2.symm)
          exact this
        · exact same

/-! ## C47 -/

/-- C47, the part that holds: signatures delivered to wait number `w` are at least one and at most as many as messages; each has a
signature part and verifies against its own message (in order) under the pool key the wait was started with; and they were in a
notification of success for the message id of the wait.
Missing: that every message received one (`c47_fewer_signatures`). -/
theorem c47_verified_partial (env : Env) (h : List Event) (w : Nat) (d : List Sig) (hr : (run env h).result w = some (.ok d)) :
    ∃ id msgs key, (waitsOf h)[w]? = some (id, msgs, key) ∧ d ≠ [] ∧ d.length ≤ msgs.length ∧
      (∀ (i : Nat) (sig : Sig), d[i]? = some sig → ∃ m, msgs[i]? = some m ∧ Valid env key m sig) ∧
      ∃ payload, Event.notify payload ∈ h ∧ Carries env payload id d := by
  have hi := inv_run env h
  unfold St.result at hr
  rcases hw : (run env h).waits[w]? with _ | ⟨n, ph⟩
  · rw [hw] at hr; cases hr
  · rw [hw] at hr
    have hph : ph = .decided (.ok d) ∨ ph = .ended (.ok d) := by
      rcases ph with _ | r | r
      · cases hr
      · cases hr; exact Or.inl rfl
      · cases hr; exact Or.inr rfl
    obtain ⟨⟨g1, g2, g3⟩, g4⟩ := hi.ok w n ph hw d hph
    exact ⟨_, _, _, hi.fields w n ph hw, g1, g2, g3, g4⟩

/-! A small world for the examples: a payload `[id, status, sig, ...]`; the signature `[x]` has r = s = x and verifies for the message
`[x]`; `[0]` has no signature part. -/

/-- the codecs and the verification of the examples -/
def demo : Env where
  verify key m r s := if key = "" then none else some (decide (Bytes.toNat m = r ∧ r = s))
  decMsg b := match b with
    | i :: st :: rest => some ⟨if i = 1 then "a" else "b", rest.map fun x => [x], decide (st = 1)⟩
    | _ => none
  decSig b := match b with
    | [x] => if x = 99 then none else some ⟨if x = 0 then none else some [x], [], [x], [x], [x]⟩
    | _ => none

/-- the signature of the message `[x]` -/
def good (x : UInt8) : Sig := ⟨some [x], [], [x], [x], [x]⟩

/-- a wait for two messages gets both signatures -/
example : (run demo [.wait "a" [[5], [6]] "k", .notify [1, 1, 5, 6], .receive 0]).result 0 = some (.ok [good 5, good 6]) := by
  decide +kernel

/-- The full statement of C47 is false: a notification with the first of two signatures is accepted as the result. -/
theorem c47_fewer_signatures : ∃ (env : Env) (h : List Event) (d : List Sig), waitsOf h = [("a", [[5], [6]], "k")] ∧
    (run env h).result 0 = some (.ok d) ∧ d.length = 1 :=
  ⟨demo, [.wait "a" [[5], [6]] "k", .notify [1, 1, 5], .receive 0], [good 5], rfl, by decide +kernel, rfl⟩

/-- Only r and s of a signature are checked: with another recovery id, the signature is accepted just the same. -/
theorem c47_recovery_unchecked (env : Env) (n : Notifier) (d : List Sig) (f : Sig → Bytes) :
    (ProcessSignature env n (d.map fun s => { s with recovery := f s })).2 = (ProcessSignature env n d).2 := by
  have hv : ∀ (l : List Sig) (ms : List Bytes), verifyLoop env n.poolPubKey (l.map fun s => { s with recovery := f s }) ms =
      verifyLoop env n.poolPubKey l ms := by
    intro l
    induction l with
    | nil => intro ms; rfl
    | cons a l ih =>
      intro ms
      rcases ms with _ | ⟨m, ms⟩
      · rfl
      · simp only [List.map_cons, verifyLoop, ih]
  unfold ProcessSignature
  rw [hv, List.length_map]
  by_cases h0 : d.length = 0
  · simp [h0]
  · rw [if_neg h0, if_neg h0]
    rcases verifyLoop env n.poolPubKey d n.messages with _ | _ | _
    · rfl
    · rfl
    · dsimp only
      split <;> rfl

/-- C75 (no notification of another node crashes this node) is false (`c75_crash`). The exact condition: a notification crashes the node exactly if it is a notification of success, with a wait registered
for its id, with valid signatures for all the messages and at least one more. -/
theorem c75_crash_iff_partial (env : Env) (h : List Event) (payload : Bytes) (hc : (run env h).crashed = false) :
    (run env (h ++ [.notify payload])).crashed = true ↔
      ∃ id d w msgs key, Carries env payload id d ∧ Map.get (run env h).table id = some w ∧ (waitsOf h)[w]? = some (id, msgs, key) ∧
        msgs.length < d.length ∧ ∀ (i : Nat) (m : Bytes), msgs[i]? = some m → ∃ sig, d[i]? = some sig ∧ Valid env key m sig := by
  have hi := inv_run env h
  have hrun : run env (h ++ [.notify payload]) = step env (run env h) (.notify payload) := by simp [run]
  rw [hrun]
  unfold step
  rw [if_neg (by rw [hc, hi.unblocked]; simp)]
  dsimp only
  rcases hm : env.decMsg payload with _ | m
  · dsimp only
    rw [hc]
    constructor
    · intro h; cases h
    · rintro ⟨id, d, w, msgs, key, ⟨m, h1, _⟩, _⟩
      rw [hm] at h1; cases h1
  dsimp only
  have hdec : ∀ id d, Carries env payload id d → decodeSigs env m = some d ∧ id = m.id := by
    rintro id d ⟨m', h1, h2, h3, h4, h5⟩
    rw [hm] at h1; cases h1
    refine ⟨?_, h2.symm⟩
    unfold decodeSigs
    rw [if_pos ⟨List.length_pos_iff.2 h4, h3⟩]
    clear h4 hm
    generalize m.signatures = l at h5 ⊢
    clear h2 h3
    induction h5 with
    | nil => rfl
    | cons h _ ih => simp [List.mapM_cons, h, ih]
  rcases hd : decodeSigs env m with _ | data
  · dsimp only
    rw [hc]
    constructor
    · intro h; cases h
    · rintro ⟨id, d, w, msgs, key, h1, _⟩
      rw [(hdec _ _ h1).1] at hd; cases hd
  dsimp only
  unfold deliver
  rcases hw : Map.get (run env h).table m.id with _ | w
  · dsimp only
    rw [hc]
    constructor
    · intro h; cases h
    · rintro ⟨id, d, w, msgs, key, h1, h2, _⟩
      rw [(hdec _ _ h1).2, hw] at h2; cases h2
  dsimp only
  obtain ⟨n, ph, h1, h2, h3, h4⟩ := hi.reg _ _ hw
  have hf := hi.fields _ _ _ h1
  rw [h1]
  dsimp only
  unfold ProcessSignature
  have key : (∃ id d w' msgs key, Carries env payload id d ∧ Map.get (run env h).table id = some w' ∧
      (waitsOf h)[w']? = some (id, msgs, key) ∧
      msgs.length < d.length ∧ ∀ (i : Nat) (m : Bytes), msgs[i]? = some m → ∃ sig, d[i]? = some sig ∧ Valid env key m sig) ↔
      data ≠ [] ∧ verifyLoop env n.poolPubKey data n.messages = none := by
    rw [verifyLoop_none]
    constructor
    · rintro ⟨id, d, w', msgs, key, g1, g2, g3, g4, g5⟩
      obtain ⟨e1, e2⟩ := hdec _ _ g1
      rw [hd] at e1; cases e1
      subst e2
      rw [hw] at g2; cases g2
      rw [hf, h2] at g3; cases g3
      exact ⟨by intro h; rw [h] at g4; exact Nat.not_lt_zero _ g4, g4, g5⟩
    · rintro ⟨g1, g2, g3⟩
      refine ⟨m.id, data, w, n.messages, n.poolPubKey, ?_, hw, by rw [hf, h2], g2, g3⟩
      unfold decodeSigs at hd
      split at hd
      · rename_i hcond
        exact ⟨m, hm, rfl, hcond.2, List.ne_nil_of_length_pos hcond.1, forall2_of_mapM _ _ _ hd⟩
      · cases hd; exact absurd rfl g1
  rw [key]
  by_cases hd0 : data.length = 0
  · rw [if_pos hd0]
    have : data = [] := List.length_eq_zero_iff.1 hd0
    simp [this, hc]
  · rw [if_neg hd0]
    have hne : data ≠ [] := by intro h; rw [h] at hd0; exact hd0 rfl
    have hlt : n.resp.length < 1 := by rw [h3]; exact Nat.one_pos
    rcases hv : verifyLoop env n.poolPubKey data n.messages with _ | _ | _
    · simp [hne]
    · simp [hc]
    · dsimp only
      rw [if_pos hlt]
      simp [hc]

/-- C75 is false: a notification with a valid signature and one more crashes a node that waits for one signature. -/
theorem c75_crash : ∃ (env : Env) (h : List Event) (payload : Bytes), (run env h).crashed = false ∧
    (run env (h ++ [.notify payload])).crashed = true :=
  ⟨demo, [.wait "a" [[5]] "k"], [1, 1, 5, 6], by decide +kernel, by decide +kernel⟩

/-! ## C48 -/

theorem step_result (env : Env) (s : St) (e : Event) (w : Nat) (r : Except WaitErr (List Sig)) (hr : s.result w = some r) :
    (step env s e).result w = some r := by
  have hset : ∀ (w' : Nat) (x : Notifier × Phase) (t : Map String Nat), w' ≠ w →
      St.result { s with table := t, waits := s.waits.set w' x } w = some r := by
    intro w' x t hne
    unfold St.result at hr ⊢
    dsimp only
    rw [List.getElem?_set_ne hne]; exact hr
  have happ : ∀ (x : Notifier × Phase) (t : Map String Nat), St.result { s with table := t, waits := s.waits ++ [x] } w = some r := by
    intro x t
    have hlt : w < s.waits.length := by
      by_contra hge
      unfold St.result at hr
      rw [List.getElem?_eq_none (Nat.le_of_not_lt hge)] at hr
      cases hr
    unfold St.result at hr ⊢
    dsimp only
    rw [List.getElem?_append_left hlt]; exact hr
  have hnw : ∀ n, s.waits[w]? ≠ some (n, .waiting) := by
    intro n hn
    unfold St.result at hr
    rw [hn] at hr
    cases hr
  unfold step
  split
  · exact hr
  · cases e with
    | wait id msgs key => dsimp only; split <;> exact happ _ _
    | notify payload =>
      dsimp only
      split
      · exact hr
      · split
        · exact hr
        · unfold deliver
          split
          · exact hr
          · rename_i w' _
            split
            · exact hr
            · rename_i n ph hn
              split
              · rename_i n' _
                by_cases hww : w' = w
                · subst hww
                  unfold St.result at hr ⊢
                  dsimp only
                  rw [List.getElem?_set_self (List.getElem?_eq_some_iff.1 hn).1]
                  rw [hn] at hr
                  cases ph <;> exact hr
                · exact hset _ _ _ hww
              · exact hr
              · exact hr
              · exact hr
    | receive w' =>
      dsimp only
      split
      · rename_i n hn
        have hww : w' ≠ w := by rintro rfl; exact hnw _ hn
        split
        · exact hset _ _ s.table hww
        · exact hr
      · exact hr
    | timeout w' =>
      dsimp only
      split
      · rename_i n hn
        exact hset _ _ s.table (by rintro rfl; exact hnw _ hn)
      · exact hr
    | cancel w' =>
      dsimp only
      split
      · rename_i n hn
        exact hset _ _ s.table (by rintro rfl; exact hnw _ hn)
      · exact hr
    | remove w' =>
      dsimp only
      split
      · rename_i n r' hn
        by_cases hww : w' = w
        · subst hww
          unfold St.result at hr ⊢
          dsimp only
          rw [List.getElem?_set_self (List.getElem?_eq_some_iff.1 hn).1]
          rw [hn] at hr
          exact hr
        · exact hset _ _ _ hww
      · exact hr

/-- C48: a wait gets at most one result: once it has one, nothing changes it, whatever happens later. -/
theorem c48_once (env : Env) (h h' : List Event) (w : Nat) (r : Except WaitErr (List Sig)) (hr : (run env h).result w = some r) :
    (run env (h ++ h')).result w = some r := by
  induction h' using List.reverseRecOn with
  | nil => simpa using hr
  | append_singleton h' e ih =>
    have : run env (h ++ (h' ++ [e])) = step env (run env (h ++ h')) e := by simp [run]
    rw [this]
    exact step_result env _ e w r ih

/-- Specification: notifications that must not deliver anything after the history `h`: malformed ones; ones with a signature that is
malformed; ones that report failure or carry no signature; ones for an id nobody ever waited for; and ones where the signature for one of
the messages is not valid, for all waits for the id -/
def Useless (env : Env) (h : List Event) (payload : Bytes) : Prop :=
  env.decMsg payload = none ∨
  ∃ m, env.decMsg payload = some m ∧
    ((∃ b ∈ m.signatures, env.decSig b = none) ∨ m.success = false ∨ m.signatures = [] ∨ (∀ wt ∈ waitsOf h, wt.1 ≠ m.id) ∨
      ∀ wt ∈ waitsOf h, wt.1 = m.id →
        ∃ (i : Nat) (b : Bytes) (msg : Bytes), m.signatures[i]? = some b ∧ wt.2.1[i]? = some msg ∧
          ∀ sig, env.decSig b = some sig → ¬ Valid env wt.2.2 msg sig)

/-- C48: a malformed, failed, foreign or invalid notification changes nothing at all: no wait gets a result, none is unregistered and
nothing crashes. -/
theorem c48_useless (env : Env) (h : List Event) (payload : Bytes) (hu : Useless env h payload) :
    run env (h ++ [.notify payload]) = run env h := by
  have hi := inv_run env h
  have hrun : run env (h ++ [.notify payload]) = step env (run env h) (.notify payload) := by simp [run]
  rw [hrun]
  unfold step
  split
  · rfl
  · dsimp only
    rcases hu with hu | ⟨m, hm, hu⟩
    · rw [hu]
    · rw [hm]
      dsimp only
      rcases hd : decodeSigs env m with _ | data
      · rfl
      dsimp only
      unfold deliver
      rcases hw : Map.get (run env h).table m.id with _ | w
      · rfl
      dsimp only
      obtain ⟨n, ph, h1, h2, h3, h4⟩ := hi.reg _ _ hw
      have hf := hi.fields _ _ _ h1
      rw [h1]
      dsimp only
      unfold ProcessSignature
      by_cases hd0 : data.length = 0
      · rw [if_pos hd0]
      rw [if_neg hd0]
      have hmem := List.mem_of_getElem? hf
      have hcond : (m.signatures.length > 0 ∧ m.success = true) ∧ m.signatures.mapM env.decSig = some data := by
        unfold decodeSigs at hd
        split at hd
        · rename_i hc; exact ⟨hc, hd⟩
        · cases hd; exact absurd rfl hd0
      have hall := forall2_of_mapM _ _ _ hcond.2
      rcases hu with ⟨b, hb, hbn⟩ | hu | hu | hu | hu
      · exfalso
        obtain ⟨i, hi'⟩ := List.mem_iff_getElem?.1 hb
        have hlt := (List.getElem?_eq_some_iff.1 hi').1
        have := hall.get hlt (by rw [← hall.length_eq]; exact hlt)
        have e : m.signatures.get ⟨i, hlt⟩ = b := by
          rw [List.get_eq_getElem]; exact (List.getElem?_eq_some_iff.1 hi').2
        rw [e, hbn] at this; cases this
      · rw [hu] at hcond; simp at hcond
      · rw [hu] at hcond; simp at hcond
      · exact absurd h2 (hu _ hmem)
      · obtain ⟨i, b, msg, g1, g2, g3⟩ := hu _ hmem h2
        have hlt := (List.getElem?_eq_some_iff.1 g1).1
        have hlt' : i < data.length := by rw [← hall.length_eq]; exact hlt
        have hb := hall.get hlt hlt'
        have e : m.signatures.get ⟨i, hlt⟩ = b := by
          rw [List.get_eq_getElem]; exact (List.getElem?_eq_some_iff.1 g1).2
        rw [e] at hb
        have hbad := g3 _ hb
        have hdi : data[i]? = some (data.get ⟨i, hlt'⟩) := by simp
        rcases hv : verifyLoop env n.poolPubKey data n.messages with _ | _ | _
        · exfalso
          obtain ⟨_, g⟩ := (verifyLoop_none _ _ _ _).1 hv
          obtain ⟨sig, e1, e2⟩ := g i msg g2
          rw [hdi] at e1; cases e1
          exact hbad e2
        · rfl
        · exfalso
          obtain ⟨_, g⟩ := (verifyLoop_true _ _ _ _).1 hv
          obtain ⟨m', e1, e2⟩ := g i _ hdi
          have g2' : n.messages[i]? = some msg := g2
          rw [g2'] at e1; cases e1
          exact hbad e2

/-- a failed, a foreign, a malformed and an invalid notification -/
example : Useless demo [.wait "a" [[5], [6]] "k"] [1, 0, 5] ∧ Useless demo [.wait "a" [[5], [6]] "k"] [2, 1, 5] ∧
    Useless demo [.wait "a" [[5], [6]] "k"] [] ∧ Useless demo [.wait "a" [[5], [6]] "k"] [1, 1, 5, 7] ∧
    Useless demo [.wait "a" [[5], [6]] "k"] [1, 1, 5, 99] := by
  refine ⟨Or.inr ⟨_, rfl, Or.inr (Or.inl rfl)⟩, Or.inr ⟨_, rfl, Or.inr (Or.inr (Or.inr (Or.inl ?_)))⟩, Or.inl rfl,
    Or.inr ⟨_, rfl, Or.inr (Or.inr (Or.inr (Or.inr ?_)))⟩, Or.inr ⟨_, rfl, Or.inl ⟨[99], by decide, rfl⟩⟩⟩
  · simp [waitsOf]
  · intro wt hwt _
    simp only [waitsOf, List.filterMap_cons, List.filterMap_nil, List.mem_singleton] at hwt
    subst hwt
    refine ⟨1, [7], [6], rfl, rfl, ?_⟩
    intro sig hs hv
    cases hs
    exact absurd hv.2 (by decide)

/-- C48: when a wait has ended, whichever way, no message id is registered for it any more. -/
theorem c48_unregistered (env : Env) (h : List Event) (w : Nat) (n : Notifier) (r : Except WaitErr (List Sig))
    (hw : (run env h).waits[w]? = some (n, .ended r)) (id : String) : Map.get (run env h).table id ≠ some w := by
  intro hid
  obtain ⟨n', ph, h1, _, _, h4⟩ := (inv_run env h).reg id w hid
  rw [hw] at h1; cases h1
  exact h4 r rfl

/-- a wait that times out ends -/
example : ∃ n, (run demo [.wait "a" [[5]] "k", .timeout 0, .remove 0]).waits[0]? = some (n, .ended (.error .timeout)) := ⟨_, rfl⟩

/-- C48: the handler of notifications never blocks on the channel of a wait (it would block while it holds the lock, and with it every
later wait and notification). -/
theorem c48_never_blocks (env : Env) (h : List Event) : (run env h).blocked = false := (inv_run env h).unblocked

/-- the number of the newest wait for an id -/
theorem reg_of_nodup (env : Env) (h : List Event) (hc : (run env h).crashed = false) (hnd : ((waitsOf h).map (·.1)).Nodup)
    (w : Nat) (n : Notifier) (hw : (run env h).waits[w]? = some (n, .waiting)) (hr : n.resp = []) :
    Map.get (run env h).table n.messageID = some w := by
  induction h using List.reverseRecOn with
  | nil => simp [run, init] at hw
  | append_singleton h e ih =>
    have hi := inv_run env h
    have hi' := inv_run env (h ++ [e])
    have hrun : run env (h ++ [e]) = step env (run env h) e := by simp [run]
    have hc0 : (run env h).crashed = false := by
      rcases hcc : (run env h).crashed
      · rfl
      · rw [hrun] at hc; unfold step at hc; rw [if_pos (Or.inl hcc), hcc] at hc; cases hc
    have hnd0 : ((waitsOf h).map (·.1)).Nodup := by
      rw [waitsOf_append, List.map_append] at hnd
      exact (List.nodup_append.1 hnd).1
    have ih := ih hc0 hnd0
    have hf' := hi'.fields w n _ hw
    have inj : ∀ (w1 w2 : Nat) x y, (waitsOf (h ++ [e]))[w1]? = some x → (waitsOf (h ++ [e]))[w2]? = some y → x.1 = y.1 → w1 = w2 := by
      intro w1 w2 x y hx hy hxy
      have hx' : ((waitsOf (h ++ [e])).map (·.1))[w1]? = some x.1 := by rw [List.getElem?_map, hx]; rfl
      have hy' : ((waitsOf (h ++ [e])).map (·.1))[w2]? = some y.1 := by rw [List.getElem?_map, hy]; rfl
      have l1 := (List.getElem?_eq_some_iff.1 hx').1
      have l2 := (List.getElem?_eq_some_iff.1 hy').1
      exact (List.Nodup.getElem_inj_iff hnd).1 (by
        have a := (List.getElem?_eq_some_iff.1 hx').2
        have b := (List.getElem?_eq_some_iff.1 hy').2
        show ((waitsOf (h ++ [e])).map (·.1))[w1] = ((waitsOf (h ++ [e])).map (·.1))[w2]
        rw [a, b, hxy])
    have hext : ∀ (w' : Nat) x, (waitsOf h)[w']? = some x → (waitsOf (h ++ [e]))[w']? = some x := by
      intro w' x hx
      rw [waitsOf_append, List.getElem?_append_left (List.getElem?_eq_some_iff.1 hx).1]
      exact hx
    rw [hrun] at hw ⊢
    have hcb : ¬ ((run env h).crashed = true ∨ (run env h).blocked = true) := by rw [hc0, hi.unblocked]; simp
    unfold step at hw ⊢
    rw [if_neg hcb] at hw ⊢
    -- a change of another wait
    have other : ∀ (w' : Nat) (x : Notifier × Phase), (∀ m, x ≠ (m, .waiting)) →
        ((run env h).waits.set w' x)[w]? = some (n, .waiting) → w' ≠ w ∧ (run env h).waits[w]? = some (n, .waiting) := by
      intro w' x hx hg
      by_cases hww : w' = w
      · subst hww
        rcases hlt : (run env h).waits[w']? with _ | y
        · rw [List.getElem?_eq_none (by simpa using List.getElem?_eq_none_iff.1 hlt)] at hg; cases hg
        · rw [List.getElem?_set_self (List.getElem?_eq_some_iff.1 hlt).1] at hg
          cases hg
          exact absurd rfl (hx n)
      · rw [List.getElem?_set_ne hww] at hg
        exact ⟨hww, hg⟩
    cases e with
    | wait id msgs key =>
      dsimp only at hw ⊢
      have hlen := hi.len hc0
      split at hw
      · rename_i n0 hn0
        dsimp only at hw ⊢
        rcases Nat.lt_trichotomy w (run env h).waits.length with hlt | heq | hgt
        · rw [List.getElem?_append_left hlt] at hw
          have hw0 := ih hw
          have hfo := hext _ _ (hi.fields w n _ hw)
          have hfn : (waitsOf (h ++ [.wait id msgs key]))[(waitsOf h).length]? = some (id, msgs, key) := by
            rw [waitsOf_append]; simp
          have hne : n.messageID ≠ id := by
            intro he
            have := inj _ _ _ _ hfo hfn he
            omega
          rw [Map.get_set_ne _ _ hne]
          exact hw0
        · subst heq
          rw [List.getElem?_append_right (Nat.le_refl _)] at hw
          simp at hw
          subst hw
          have : n0.messageID = id := by
            rw [waitsOf_append, hlen] at hf'
            simp at hf'
            exact hf'.1.symm
          rw [this, Map.get_set_self]
        · rw [List.getElem?_eq_none (by simp; omega)] at hw; cases hw
      · rename_i hn0
        dsimp only at hw
        have hlt : w < (run env h).waits.length := by
          rcases Nat.lt_trichotomy w (run env h).waits.length with hlt | heq | hgt
          · exact hlt
          · subst heq
            rw [List.getElem?_append_right (Nat.le_refl _)] at hw
            simp at hw
          · rw [List.getElem?_eq_none (by simp; omega)] at hw; cases hw
        rw [List.getElem?_append_left hlt] at hw
        exact ih hw
    | notify payload =>
      dsimp only at hw ⊢
      rcases hm : env.decMsg payload with _ | m
      · rw [hm] at hw; exact ih hw
      rw [hm] at hw
      dsimp only at hw ⊢
      rcases hd : decodeSigs env m with _ | data
      · rw [hd] at hw; exact ih hw
      rw [hd] at hw
      dsimp only at hw ⊢
      unfold deliver at hw ⊢
      rcases hg : Map.get (run env h).table m.id with _ | w'
      · rw [hg] at hw; exact ih hw
      rw [hg] at hw
      dsimp only at hw ⊢
      obtain ⟨n0, ph, h1, h2, h3, h4⟩ := hi.reg _ _ hg
      rw [h1] at hw ⊢
      dsimp only at hw ⊢
      rcases hp : ProcessSignature env n0 data with ⟨n1, o⟩
      rw [hp] at hw
      rcases o
      · dsimp only at hw ⊢
        have hn1 : n1.resp ≠ [] := by
          unfold ProcessSignature at hp
          split at hp
          · cases hp
          · split at hp
            · cases hp
            · cases hp
            · split at hp
              · cases hp; simp
              · cases hp
        by_cases hww : w' = w
        · subst hww
          rw [List.getElem?_set_self (List.getElem?_eq_some_iff.1 h1).1] at hw
          cases hw
          exact absurd hr hn1
        · rw [List.getElem?_set_ne hww] at hw
          have hne : n.messageID ≠ m.id := by
            intro he
            have := inj _ _ _ _ (hext _ _ (hi.fields _ _ _ hw)) (hext _ _ (hi.fields _ _ _ h1)) (he.trans h2.symm)
            exact hww this.symm
          rw [Map.get_del_ne _ hne]
          exact ih hw
      all_goals exact ih hw
    | receive w' =>
      dsimp only at hw ⊢
      rcases hx : (run env h).waits[w']? with _ | ⟨n0, ph⟩
      · rw [hx] at hw; exact ih hw
      · rw [hx] at hw
        rcases ph with _ | r | r
        · dsimp only at hw ⊢
          rcases hresp : n0.resp with _ | ⟨d, rest⟩
          · rw [hresp] at hw; exact ih hw
          · rw [hresp] at hw
            dsimp only at hw ⊢
            exact ih (other _ _ (by simp) hw).2
        · exact ih hw
        · exact ih hw
    | timeout w' =>
      dsimp only at hw ⊢
      rcases hx : (run env h).waits[w']? with _ | ⟨n0, ph⟩
      · rw [hx] at hw; exact ih hw
      · rw [hx] at hw
        rcases ph with _ | r | r
        · dsimp only at hw ⊢
          exact ih (other _ _ (by simp) hw).2
        · exact ih hw
        · exact ih hw
    | cancel w' =>
      dsimp only at hw ⊢
      rcases hx : (run env h).waits[w']? with _ | ⟨n0, ph⟩
      · rw [hx] at hw; exact ih hw
      · rw [hx] at hw
        rcases ph with _ | r | r
        · dsimp only at hw ⊢
          exact ih (other _ _ (by simp) hw).2
        · exact ih hw
        · exact ih hw
    | remove w' =>
      dsimp only at hw ⊢
      rcases hx : (run env h).waits[w']? with _ | ⟨n0, ph⟩
      · rw [hx] at hw; exact ih hw
      · rw [hx] at hw
        rcases ph with _ | r | r
        · exact ih hw
        · dsimp only at hw ⊢
          obtain ⟨hww, hw⟩ := other _ _ (by simp) hw
          have hne : n.messageID ≠ n0.messageID := by
            intro he
            have := inj _ _ _ _ (hext _ _ (hi.fields _ _ _ hw)) (hext _ _ (hi.fields _ _ _ hx)) he
            exact hww this.symm
          rw [Map.get_del_ne _ hne]
          exact ih hw
        · exact ih hw

/-- C74, the part that holds: if all waits so far were for different message ids, wait `w` has no result yet and a notification with valid
signatures for it comes, then its `select` gets signatures.
Missing: waits for the same message id (`c74_lost_registration`). -/
theorem c74_served_partial (env : Env) (h : List Event) (hnd : ((waitsOf h).map (·.1)).Nodup) (w : Nat) (n : Notifier)
    (hc : (run env h).crashed = false) (hw : (run env h).waits[w]? = some (n, .waiting)) (payload : Bytes) (d : List Sig)
    (hp : Carries env payload n.messageID d) (hv : AllValid env n.poolPubKey n.messages d) :
    ∃ d', (run env (h ++ [.notify payload, .receive w])).result w = some (.ok d') ∧ (n.resp = [] → d' = d) := by
  have hi := inv_run env h
  have hrun : run env (h ++ [.notify payload, .receive w]) = step env (step env (run env h) (.notify payload)) (.receive w) := by
    simp [run]
  have hcb : ¬ ((run env h).crashed = true ∨ (run env h).blocked = true) := by rw [hc, hi.unblocked]; simp
  obtain ⟨m, g1, g2, g3, g4, g5⟩ := hp
  have hdec : decodeSigs env m = some d := by
    unfold decodeSigs
    rw [if_pos ⟨List.length_pos_iff.2 g4, g3⟩]
    clear g4 g1
    generalize m.signatures = l at g5 ⊢
    clear hv g2 g3
    induction g5 with
    | nil => rfl
    | cons h _ ih => simp [List.mapM_cons, h, ih]
  have hlt := (List.getElem?_eq_some_iff.1 hw).1
  have hstep : step env (run env h) (.notify payload) = deliver env (run env h) n.messageID d := by
    unfold step
    rw [if_neg hcb]
    dsimp only
    rw [g1]
    dsimp only
    rw [hdec]
    dsimp only
    rw [g2]
  have hrecv : ∀ (s : St) (n' : Notifier) (d' : List Sig) (rest : List (List Sig)), s.crashed = false → s.blocked = false →
      s.waits[w]? = some (n', .waiting) → n'.resp = d' :: rest → (step env s (.receive w)).result w = some (.ok d') := by
    intro s n' d' rest e1 e2 e3 e4
    unfold step
    rw [if_neg (by rw [e1, e2]; simp)]
    dsimp only
    rw [e3]
    dsimp only
    rw [e4]
    dsimp only
    unfold St.result
    dsimp only
    rw [List.getElem?_set_self (List.getElem?_eq_some_iff.1 e3).1]
  rw [hrun, hstep]
  rcases hresp : n.resp with _ | ⟨d0, rest⟩
  · refine ⟨d, ?_, fun _ => rfl⟩
    have hreg := reg_of_nodup env h hc hnd w n hw hresp
    have hps : ProcessSignature env n d = ({ n with resp := n.resp ++ [d] }, .finished) := by
      unfold ProcessSignature
      rw [if_neg (fun h => hv.1 (List.length_eq_zero_iff.1 h)), (verifyLoop_true _ _ _ _).2 hv.2]
      dsimp only
      rw [if_pos (by rw [hresp]; exact Nat.one_pos)]
    have hdel : deliver env (run env h) n.messageID d =
        { run env h with waits := (run env h).waits.set w ({ n with resp := n.resp ++ [d] }, .waiting),
                         table := Map.del (run env h).table n.messageID } := by
      unfold deliver
      rw [hreg]
      dsimp only
      rw [hw]
      dsimp only
      rw [hps]
    rw [hdel]
    exact hrecv _ { n with resp := n.resp ++ [d] } d [] hc hi.unblocked (List.getElem?_set_self hlt) (by rw [hresp]; rfl)
  · refine ⟨d0, ?_, by simp⟩
    -- the signatures that were there already stay
    have hnr : Map.get (run env h).table n.messageID = none := by
      rcases hg : Map.get (run env h).table n.messageID with _ | w'
      · rfl
      · exfalso
        obtain ⟨n', ph, e1, e2, e3, _⟩ := hi.reg _ _ hg
        have f1 := hi.fields _ _ _ e1
        have f2 := hi.fields _ _ _ hw
        have : w' = w := by
          have hx' : ((waitsOf h).map (·.1))[w']? = some n.messageID := by rw [List.getElem?_map, f1, ← e2]; rfl
          have hy' : ((waitsOf h).map (·.1))[w]? = some n.messageID := by rw [List.getElem?_map, f2]; rfl
          have l1 := (List.getElem?_eq_some_iff.1 hx').1
          have l2 := (List.getElem?_eq_some_iff.1 hy').1
          exact (List.Nodup.getElem_inj_iff hnd).1 (by
            have a := (List.getElem?_eq_some_iff.1 hx').2
            have b := (List.getElem?_eq_some_iff.1 hy').2
            show ((waitsOf h).map (·.1))[w'] = ((waitsOf h).map (·.1))[w]
            rw [a, b])
        subst this
        rw [hw] at e1; cases e1
        rw [hresp] at e3; cases e3
    have hdel : deliver env (run env h) n.messageID d = run env h := by
      unfold deliver
      rw [hnr]
    rw [hdel]
    exact hrecv _ n d0 rest hc hi.unblocked hw hresp

/-- a state that meets the hypotheses: two waits for different ids, the first of them waiting -/
example : ((waitsOf [.wait "a" [[5], [6]] "k", .wait "b" [[7]] "k"]).map (·.1)).Nodup ∧
    (run demo [.wait "a" [[5], [6]] "k", .wait "b" [[7]] "k"]).waits[0]? = some (⟨"a", [[5], [6]], "k", []⟩, .waiting) ∧
    Carries demo [1, 1, 5, 6] "a" [good 5, good 6] ∧ AllValid demo "k" [[5], [6]] [good 5, good 6] := by
  refine ⟨by decide, rfl, ⟨_, rfl, rfl, rfl, by decide, .cons rfl (.cons rfl .nil)⟩, ?_⟩
  have : verifyLoop demo "k" [good 5, good 6] [[5], [6]] = some true := by decide +kernel
  exact ⟨by decide, (verifyLoop_true _ _ _ _).1 this⟩

/-- With two waits for the same message id (two calls of KeySign with the same request), the end of one takes the registration of the
other with it: the second wait is still waiting, and a notification with valid signatures for it is thrown away. -/
theorem c74_lost_registration : ∃ (env : Env) (h : List Event) (payload : Bytes) (d : List Sig) (n : Notifier),
    (run env h).waits[1]? = some (n, .waiting) ∧ n.messageID = "a" ∧ Carries env payload "a" d ∧ AllValid env n.poolPubKey n.messages d ∧
    (run env (h ++ [.notify payload, .receive 1])).result 1 = none := by
  refine ⟨demo, [.wait "a" [[5]] "k", .wait "a" [[5]] "k", .timeout 0, .remove 0], [1, 1, 5], [good 5], ⟨"a", [[5]], "k", []⟩, rfl, rfl,
    ⟨_, rfl, rfl, rfl, by decide, .cons rfl .nil⟩, ?_, by decide +kernel⟩
  have : verifyLoop demo "k" [good 5] [[5]] = some true := by decide +kernel
  exact ⟨by decide, (verifyLoop_true _ _ _ _).1 this⟩

end Verif.Props.Notified
