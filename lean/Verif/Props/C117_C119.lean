import Mathlib.Data.List.Induction
import Mathlib.Data.Fintype.BigOperators
import Mathlib.Tactic.FinCases
import Mathlib.Algebra.Order.BigOperators.Group.Finset
import Verif.Spec.Locks

set_option linter.unusedSectionVars false
set_option linter.unusedSimpArgs false

/-!
# C117 - C119: the locks of a node

C117: they cannot block each other for ever. C118: no map is accessed while somebody writes it. C119: which of the other state is protected, and
which is not.

The proof: every call keeps to an order of the locks (`rank`), gives back what it takes, and touches a piece of state only under its lock, or, for
the state of `ProcessInboundMessages`, in that goroutine. `check` follows a program and checks this; `check_body` says that every call passes.
-/
namespace Verif.Props.Locking
open Verif.Locks Verif.Spec.Locks Op

/-- the order of the locks -/
def rank : Lock → Nat
  | .keygen => 0
  | .subscribers => 1
  | _ => 2

/-- what protects a piece of state: a lock, or the goroutine of a session, or nothing -/
inductive Guard
  | lock (l : Lock)
  | session (s : Nat)
  | none

/-- the protection of each piece of state -/
def guard : Var → Guard
  | .subscribers => .lock .subscribers
  | .topicSubs t => .lock (.topic t)
  | .unused m => .lock (.streams m)
  | .streamSpare _ => .none
  | .peersGroup => .lock .groups
  | .response g => .lock (.peerStatus g)
  | .leaderResponse g => .lock (.leaderResponse g)
  | .leader _ => .none
  | .notifiers => .lock .notifiers
  | .partyInfo s => .lock (.party s)
  | .unconfirmed s => .lock (.unconfirmed s)
  | .p2pPeers s => .lock (.peers s)
  | .culprits s => .lock (.culprits s)
  | .finished s => .session s
  | .confirmed s _ => .session s
  | .content s _ => .session s
  | .blame _ => .none
  | .lastMsg s => .lock (.lastMsg s)
  | .lastUnicast s => .lock (.lastMsg s)
  | .accepted s => .lock (.accepted s)
  | .acceptedSpare _ => .none
  | .stored s => .lock (.stored s)
  | .requested s => .lock (.requested s)
  | .addressBook => .lock .addressBook

/-- is the access covered by the locks that are held, or by the kind of goroutine? -/
def covered (r : Role) (held : List (Lock × Mode)) (v : Var) (w : Bool) : Prop :=
  match guard v with
  | .lock l => (l, .excl) ∈ held ∨ (w = false ∧ (l, .shared) ∈ held)
  | .session s => r = .inbound s
  | .none => True

instance (r : Role) (held : List (Lock × Mode)) (v : Var) (w : Bool) : Decidable (covered r held v w) := by
  unfold covered; split <;> infer_instance

/-- follow a program: the locks held at its end, if it is disciplined -/
def check (r : Role) : List (Lock × Mode) → Prog → Option (List (Lock × Mode))
  | H, [] => some H
  | H, acc v w :: p => if covered r H v w then check r H p else none
  | H, acq l m :: p => if ∀ h ∈ H, rank h.1 < rank l then check r ((l, m) :: H) p else none
  | H, rel l m :: p => if (l, m) ∈ H then check r (H.erase (l, m)) p else none

theorem check_append (r : Role) (H : List (Lock × Mode)) (p q : Prog) :
    check r H (p ++ q) = (check r H p).bind (fun H' => check r H' q) := by
  induction p generalizing H with
  | nil => rfl
  | cons o p ih =>
    cases o <;> simp only [List.cons_append, check] <;> split <;> simp [ih]

/-- a program that passes and ends with the locks it started with -/
def Good (r : Role) (H : List (Lock × Mode)) (p : Prog) : Prop := check r H p = some H

theorem good_nil (r H) : Good r H [] := rfl

theorem good_append {r H p q} (hp : Good r H p) (hq : Good r H q) : Good r H (p ++ q) := by
  unfold Good at *; rw [check_append, hp]; exact hq

theorem good_ite {r H p q} {b : Prop} [Decidable b] (hp : b → Good r H p) (hq : ¬ b → Good r H q) : Good r H (if b then p else q) := by
  split
  · exact hp ‹_›
  · exact hq ‹_›

theorem good_acc {r H v w p} (h : covered r H v w) (hp : Good r H p) : Good r H (acc v w :: p) := by
  unfold Good at *; simp [check, h, hp]

theorem good_locked {r H l p} (hr : ∀ h ∈ H, rank h.1 < rank l) (hp : Good r ((l, .excl) :: H) p) : Good r H (locked l p) := by
  unfold Good at *
  show check r H (acq l .excl :: (p ++ [rel l .excl])) = _
  rw [check, if_pos hr, check_append, hp]
  simp [check]

theorem good_rlocked {r H l p} (hr : ∀ h ∈ H, rank h.1 < rank l) (hp : Good r ((l, .shared) :: H) p) : Good r H (rlocked l p) := by
  unfold Good at *
  show check r H (acq l .shared :: (p ++ [rel l .shared])) = _
  rw [check, if_pos hr, check_append, hp]
  simp [check]

theorem good_flatMap {α : Type} {r H} (l : List α) (f : α → Prog) (h : ∀ a ∈ l, Good r H (f a)) : Good r H (l.flatMap f) := by
  induction l with
  | nil => rfl
  | cons a l ih =>
    rw [List.flatMap_cons]
    exact good_append (h a (by simp)) (ih (fun b hb => h b (by simp [hb])))

theorem good_replicate {r H} (n : Nat) (p : Prog) (h : Good r H p) : Good r H (List.replicate n p).flatten := by
  induction n with
  | zero => rfl
  | succ n ih => rw [List.replicate_succ, List.flatten_cons]; exact good_append h ih

/-- the locks a call may find taken by its own goroutine: none, or the one of `Keygen` -/
def Base (H : List (Lock × Mode)) : Prop := H = [] ∨ H = [(.keygen, .excl)]

section
variable {r : Role} {H : List (Lock × Mode)}

theorem base_rank (hH : Base H) {l : Lock} (hl : 0 < rank l) : ∀ h ∈ H, rank h.1 < rank l := by
  rcases hH with rfl | rfl
  · simp
  · simpa [rank] using hl

/-- solves the goals about single accesses and locks -/
macro "disc" : tactic => `(tactic|
  repeat' first
    | exact good_nil _ _
    | assumption
    | (refine good_replicate _ _ ?_)
    | (refine good_flatMap _ _ (fun _ _ => ?_))
    | (refine good_locked (base_rank (by assumption) (by simp [rank])) ?_)
    | (refine good_rlocked (base_rank (by assumption) (by simp [rank])) ?_)
    | (refine good_acc (by simp [covered, guard, *]) ?_)
    | (refine good_append ?_ ?_)
    | (refine good_ite (fun _ => ?_) (fun _ => ?_)))

theorem nested_rank (hH : Base H) (t : Nat) : ∀ h ∈ (Lock.subscribers, Mode.excl) :: H, rank h.1 < rank (.topic t) := by
  rcases hH with rfl | rfl <;> simp [rank]

theorem good_AddStream (hH : Base H) (m b) : Good r H (AddStream m b) := by unfold AddStream; disc
theorem good_ReleaseStream (hH : Base H) (m b) : Good r H (ReleaseStream m b) := by unfold ReleaseStream; disc

theorem good_topic (hH : Base H) (t : Nat) (w : Bool) :
    Good r ((Lock.subscribers, Mode.excl) :: H) (locked (.topic t) [acc (.topicSubs t) w]) :=
  good_locked (nested_rank hH t) (good_acc (by simp [covered, guard]) (good_nil _ _))

theorem good_SetSubscribe (hH : Base H) (t b) : Good r H (SetSubscribe t b) := by
  have := good_topic (r := r) hH t true
  unfold SetSubscribe Subscribe; disc

theorem good_getSubscriber (hH : Base H) (t b) : Good r H (getSubscriber t b) := by
  have := good_topic (r := r) hH t false
  unfold getSubscriber GetSubscriber; disc

theorem good_CancelSubscribe (hH : Base H) (t b e) : Good r H (CancelSubscribe t b e) := by
  have := good_topic (r := r) hH t true
  have := good_topic (r := r) hH t false
  unfold CancelSubscribe UnSubscribe Verif.Locks.IsEmpty; disc

theorem good_readFromStream (hH : Base H) (t a b) : Good r H (readFromStream t a b) := by
  have := good_AddStream (r := r) hH 0 false
  have := good_getSubscriber (r := r) hH t b
  unfold readFromStream; disc

theorem good_processRespMsg (hH : Base H) (g f l) : Good r H (processRespMsg g f l) := by
  have := good_AddStream (r := r) hH 1 false
  unfold processRespMsg findGroup setLeaderResponse; disc

theorem good_processReqMsg (hH : Base H) (g a f k c) : Good r H (processReqMsg g a f k c) := by
  have := good_AddStream (r := r) hH 1 false
  unfold processReqMsg findGroup updatePeer; disc

theorem good_joinPartyMember (hH : Base H) (g d n) : Good r H (joinPartyMember g d n) := by
  unfold joinPartyMember createJoinPartyGroups getLeaderResponse; disc

theorem good_joinPartyLeader (hH : Base H) (g e) : Good r H (joinPartyLeader g e) := by
  unfold joinPartyLeader createJoinPartyGroups getPeersStatus; disc

theorem good_JoinPartyWithRetry (hH : Base H) (g n) : Good r H (JoinPartyWithRetry g n) := by
  unfold JoinPartyWithRetry createJoinPartyGroups getPeersStatus removePeerGroup; disc

theorem good_sigHandleStream (hH : Base H) (v f d) : Good r H (sigHandleStream v f d) := by
  have := good_AddStream (r := r) hH 2 false
  unfold sigHandleStream; disc

theorem good_WaitForSignature (hH : Base H) : Good r H WaitForSignature := by
  unfold WaitForSignature addToNotifiers removeNotifier; disc

theorem good_SetBlame (hH : Base H) (s) : Good r H (SetBlame s) := by unfold SetBlame; disc

theorem good_doTssJob (hH : Base H) (s c) : Good r H (doTssJob s c) := by
  have := good_SetBlame (r := r) hH s
  cases c
  · unfold doTssJob UpdateAcceptShare; disc
  · unfold doTssJob processInvalidMsgBlame roundGet; disc

theorem good_updateLocal (hH : Base H) (s u l) : Good r H (updateLocal s u l) := by
  unfold updateLocal getPartyInfo SetLastUnicastPeer oneShare CheckMsgDuplication; disc

theorem good_requestShareFromPeer (hH : Base H) {s} (hr : r = .inbound s) (i t) : Good r H (requestShareFromPeer s i t) := by
  unfold requestShareFromPeer shareSet; disc

theorem good_applyShare (hH : Base H) {s} (hr : r = .inbound s) (i c a) : Good r H (applyShare s i c a) := by
  have := good_SetBlame (r := r) hH s
  cases a with
  | wait => unfold applyShare hashCheck TotalConfirmParty; disc
  | request t =>
    have := good_requestShareFromPeer hH hr i t
    unfold applyShare hashCheck TotalConfirmParty; disc
  | blame => unfold applyShare hashCheck TotalConfirmParty; disc
  | apply l d =>
    have := good_updateLocal (r := r) hH s false l
    unfold applyShare hashCheck TotalConfirmParty roundSet setUnconfirmed; disc

theorem good_processVerMsg (hH : Base H) {s} (hr : r = .inbound s) (i f p) : Good r H (processVerMsg s i f p) := by
  cases p with
  | inl t =>
    have := good_requestShareFromPeer hH hr i t
    unfold processVerMsg getPartyInfo TryGetLocalCacheItem setUnconfirmed UpdateConfirmList; disc
  | inr ca =>
    have := good_applyShare hH hr i ca.1 ca.2
    unfold processVerMsg getPartyInfo TryGetLocalCacheItem setUnconfirmed UpdateConfirmList; disc

theorem good_processTSSMsg (hH : Base H) {s} (hr : r = .inbound s) (i b) : Good r H (processTSSMsg s i b) := by
  cases b with
  | invalid => unfold processTSSMsg getPartyInfo; disc
  | unicast l =>
    have := good_updateLocal (r := r) hH s true l
    unfold processTSSMsg getPartyInfo; disc
  | broadcast fw f co c a =>
    have := good_applyShare hH hr i c a
    unfold processTSSMsg getPartyInfo receiverBroadcastHashToPeers TryGetLocalCacheItem setUnconfirmed UpdateConfirmList; disc

theorem good_timeout (hH : Base H) (s a b c d e f g) : Good r H (timeout s a b c d e f g) := by
  have := good_SetBlame (r := r) hH s
  unfold timeout GetLastMsg GetUnicastBlame GetBroadcastBlame roundGet TssMissingShareBlame; disc

/-- every call is disciplined, whether or not its goroutine holds the lock of `Keygen` -/
theorem good_body (hH : Base H) (c : Call) (hr : ∀ s, c.session = some s → r = .inbound s) : Good r H c.body := by
  cases c with
  | addStream m b => exact good_AddStream hH m b
  | releaseStream m b => exact good_ReleaseStream hH m b
  | setSubscribe t b => exact good_SetSubscribe hH t b
  | cancelSubscribe t b e => exact good_CancelSubscribe hH t b e
  | readFromStream t a b => exact good_readFromStream hH t a b
  | processRespMsg g f l => exact good_processRespMsg hH g f l
  | processReqMsg g a f k c => exact good_processReqMsg hH g a f k c
  | joinPartyMember g d n => exact good_joinPartyMember hH g d n
  | joinPartyLeader g e => exact good_joinPartyLeader hH g e
  | joinPartyWithRetry g n => exact good_JoinPartyWithRetry hH g n
  | sigHandleStream v f d => exact good_sigHandleStream hH v f d
  | waitForSignature => exact good_WaitForSignature hH
  | setLastMsg s => unfold Call.body SetLastMsg; disc
  | doTssJob s c => exact good_doTssJob hH s c
  | processVerMsg s i d f p =>
    have hi := hr s rfl
    have := good_processVerMsg hH hi i f p
    unfold Call.body checkDup TryGetLocalCacheItem; disc
  | processTSSMsg s i b => exact good_processTSSMsg hH (hr s rfl) i b
  | taskDone s k =>
    have hi := hr s rfl
    unfold Call.body taskDone; disc
  | control s b => unfold Call.body Verif.Locks.control roundGet QueryAndDelete; disc
  | sendBulkMsg s b => unfold Call.body sendBulkMsg; disc
  | timeout s a b c d e f g => exact good_timeout hH s a b c d e f g
  | alreadyBlame s => unfold Call.body AlreadyBlame; disc
  | copyBlame s => unfold Call.body copyBlame; disc
  | saveAddressBook => unfold Call.body SaveAddressBook; disc
  | retrieveP2PAddresses => unfold Call.body RetrieveP2PAddresses; disc

end

/-- the program of a goroutine is disciplined -/
theorem good_runs {r : Role} {p : Prog} (h : Runs r p) : Good r [] p := by
  cases r with
  | inbound s =>
    obtain ⟨cs, hc, rfl⟩ := h
    refine good_flatMap _ _ (fun c hm => good_body (.inl rfl) c (fun k hk => ?_))
    rcases hc c hm with h1 | h1 <;> rw [h1] at hk <;> cases hk
    rfl
  | keygen =>
    obtain ⟨cs, hc, rfl⟩ := h
    refine good_locked (by simp) (good_flatMap _ _ (fun c hm => good_body (.inr rfl) c (fun k hk => ?_)))
    rw [hc c hm] at hk; cases hk
  | other =>
    obtain ⟨cs, hc, rfl⟩ := h
    refine good_flatMap _ _ (fun c hm => good_body (.inl rfl) c (fun k hk => ?_))
    rw [hc c hm] at hk; cases hk

/-! ## the invariant -/

/-- what holds at every moment of a run -/
structure Inv {n : Nat} (s : St n) : Prop where
  /-- what is left to do is disciplined -/
  disc : ∀ i, check (s i).role (s i).held (s i).prog = some []
  /-- two goroutines hold a lock only as readers -/
  excl : ∀ i j l m m', i ≠ j → (l, m) ∈ (s i).held → (l, m') ∈ (s j).held → m = .shared ∧ m' = .shared
  /-- the goroutine of a session is alone -/
  one : ∀ i j k, (s i).role = .inbound k → (s j).role = .inbound k → i = j

theorem inv_start {n : Nat} {s : St n} (h : Start s) : Inv s where
  disc i := by rw [h.free i]; exact good_runs (h.runs i)
  excl i j l m m' _ hi := by rw [h.free i] at hi; cases hi
  one := h.one

theorem move_role {n : Nat} (s : St n) (i j : Fin n) : (move s i j).role = (s j).role := by
  unfold move
  by_cases h : j = i
  · subst h
    rw [Function.update_self]; unfold Gor.next; split <;> rfl
  · rw [Function.update_of_ne h]

theorem inv_move {n : Nat} {s : St n} {i : Fin n} (h : Inv s) (hm : may s i) : Inv (move s i) := by
  have hd := h.disc i
  have key : check ((s i).next).role ((s i).next).held ((s i).next).prog = some [] ∧
      ∀ j l m m', j ≠ i → (l, m) ∈ ((s i).next).held → (l, m') ∈ (s j).held → m = .shared ∧ m' = .shared := by
    unfold Gor.next
    unfold may at hm
    match hp : (s i).prog with
    | [] => rw [hp] at hm; exact hm.elim
    | acc v w :: p =>
      rw [hp] at hd
      simp only [check] at hd
      split at hd
      · exact ⟨hd, fun j l m m' hj hi hj' => h.excl i j l m m' (Ne.symm hj) hi hj'⟩
      · cases hd
    | rel l0 m0 :: p =>
      rw [hp] at hd
      simp only [check] at hd
      split at hd
      · exact ⟨hd, fun j l m m' hj hi hj' => h.excl i j l m m' (Ne.symm hj) (List.mem_of_mem_erase hi) hj'⟩
      · cases hd
    | acq l0 m0 :: p =>
      rw [hp] at hd hm
      simp only [check] at hd
      split at hd
      · refine ⟨hd, fun j l m m' hj hi hj' => ?_⟩
        rcases List.mem_cons.mp hi with he | hi
        · have he1 : l = l0 := congrArg Prod.fst he
          have he2 : m = m0 := congrArg Prod.snd he
          subst he1 he2
          cases m with
          | excl => exact absurd hj' (hm j m')
          | shared =>
            cases m' with
            | excl => exact absurd hj' (hm j)
            | shared => exact ⟨rfl, rfl⟩
        · exact h.excl i j l m m' (Ne.symm hj) hi hj'
      · cases hd
  refine ⟨fun j => ?_, fun a b l m m' hab ha hb => ?_, fun a b k ha hb => h.one a b k (by rwa [move_role] at ha) (by rwa [move_role] at hb)⟩
  · by_cases hj : j = i
    · subst hj; unfold move; rw [Function.update_self]; exact key.1
    · unfold move; rw [Function.update_of_ne hj]; exact h.disc j
  · unfold move at ha hb
    by_cases h1 : a = i
    · subst h1
      rw [Function.update_self] at ha
      rw [Function.update_of_ne (Ne.symm hab)] at hb
      exact key.2 b l m m' (Ne.symm hab) ha hb
    · rw [Function.update_of_ne h1] at ha
      by_cases h2 : b = i
      · subst h2
        rw [Function.update_self] at hb
        exact (key.2 a l m' m h1 hb ha).symm
      · rw [Function.update_of_ne h2] at hb
        exact h.excl a b l m m' hab ha hb

theorem inv_run {n : Nat} {s s' : St n} {h : List (Fin n)} (hr : Run s h s') (hi : Inv s) : Inv s' := by
  induction hr with
  | nil s => exact hi
  | cons s i h s' hm _ ih => exact ih (inv_move hi hm)

/-! ## C117 -/

/-- a goroutine that holds a lock has still something to do -/
theorem unfinished_of_held {n : Nat} {s : St n} (h : Inv s) {i : Fin n} {x : Lock × Mode} (hx : x ∈ (s i).held) : (s i).prog ≠ [] := by
  intro hp
  have := h.disc i
  rw [hp] at this
  simp only [check, Option.some.injEq] at this
  rw [this] at hx; cases hx

/-- an unfinished goroutine can go on, or waits for a lock that another one holds -/
theorem blocked {n : Nat} {s : St n} (h : Inv s) {i : Fin n} (hi : (s i).prog ≠ []) :
    may s i ∨ ∃ l m p, (s i).prog = acq l m :: p ∧ (∀ x ∈ (s i).held, rank x.1 < rank l) ∧ ∃ j m', (l, m') ∈ (s j).held := by
  have hd := h.disc i
  unfold may
  match hp : (s i).prog with
  | [] => exact absurd hp hi
  | acc v w :: p => exact .inl trivial
  | rel l m :: p => exact .inl trivial
  | acq l .excl :: p =>
    rw [hp] at hd
    simp only [check] at hd
    split at hd
    · rename_i hr
      by_cases hm : ∀ j m, (l, m) ∉ (s j).held
      · exact .inl hm
      · push Not at hm
        obtain ⟨j, m, hj⟩ := hm
        exact .inr ⟨l, .excl, p, rfl, hr, j, m, hj⟩
    · cases hd
  | acq l .shared :: p =>
    rw [hp] at hd
    simp only [check] at hd
    split at hd
    · rename_i hr
      by_cases hm : ∀ j, (l, .excl) ∉ (s j).held
      · exact .inl hm
      · push Not at hm
        obtain ⟨j, hj⟩ := hm
        exact .inr ⟨l, .shared, p, rfl, hr, j, .excl, hj⟩
    · cases hd

/-- an unfinished goroutine whose locks have all at least the rank `k`, in steps up to the highest rank -/
theorem someone {n : Nat} {s : St n} (h : Inv s) :
    ∀ d k, k + d = 3 → ∀ i, (s i).prog ≠ [] → (0 < k → ∃ x ∈ (s i).held, k ≤ rank x.1 + 1) → ∃ j, sure s j := by
  have hrank : ∀ l : Lock, rank l ≤ 2 := fun l => by cases l <;> simp [rank]
  intro d
  induction d with
  | zero =>
    intro k hk i hi hx
    obtain ⟨x, hx, hxk⟩ := hx (by omega)
    rcases blocked h hi with hm | ⟨l, m, p, hp, hr, _⟩
    · refine ⟨i, hm, fun l p hp j ⟨q, hq⟩ => ?_⟩
      have hd := h.disc i
      rw [hp] at hd
      simp only [check] at hd
      split at hd
      · rename_i hr
        have := hr x hx; have := hrank l; omega
      · cases hd
    · have := hr x hx; have := hrank l; omega
  | succ d ih =>
    intro k hk i hi hx
    -- the goroutine that holds what a blocked one waits for is one rank higher
    have up : ∀ (i j : Fin n) l m m' p, (s i).prog = acq l m :: p → (0 < k → ∃ x ∈ (s i).held, k ≤ rank x.1 + 1) →
        (l, m') ∈ (s j).held → ∃ j, sure s j := by
      intro i j l m m' p hp hx hj
      refine ih (k + 1) (by omega) j (unfinished_of_held h hj) (fun _ => ⟨_, hj, ?_⟩)
      have hd := h.disc i
      rw [hp] at hd
      simp only [check] at hd
      split at hd
      · rename_i hr
        rcases Nat.eq_zero_or_pos k with hk0 | hk0
        · omega
        · obtain ⟨x, hx, hxk⟩ := hx hk0
          have := hr x hx
          simp only
          omega
      · cases hd
    rcases blocked h hi with hm | ⟨l, m, p, hp, hr, j, m', hj⟩
    · by_cases hs : sure s i
      · exact ⟨i, hs⟩
      · have : ∃ l p, (s i).prog = acq l .shared :: p ∧ ∃ j, waits s j l := by
          by_contra hc
          exact hs ⟨hm, fun l p hp j hw => hc ⟨l, p, hp, j, hw⟩⟩
        obtain ⟨l, p, hp, j, q, hq⟩ := this
        -- the waiting writer can go on, or somebody holds the lock
        have hjne : (s j).prog ≠ [] := by rw [hq]; simp
        rcases blocked h hjne with hjm | ⟨l', m', p', hp', hr', j', m'', hj'⟩
        · refine ⟨j, hjm, fun l' p' hp' => ?_⟩
          rw [hq] at hp'; cases hp'
        · rw [hq] at hp'; cases hp'
          exact up i j' l .shared m'' p hp hx hj'
    · exact up i j l m m' p hp hx hj

/-- operations still to be done -/
def todo {n : Nat} (s : St n) : Nat := ∑ i, (s i).prog.length

theorem todo_move {n : Nat} {s : St n} {i : Fin n} (hm : may s i) : todo (move s i) + 1 = todo s := by
  have h1 : ((s i).next).prog.length + 1 = (s i).prog.length := by
    unfold may at hm
    unfold Gor.next
    match hp : (s i).prog with
    | [] => rw [hp] at hm; exact hm.elim
    | acc v w :: p => rfl
    | rel l m :: p => rfl
    | acq l m :: p => rfl
  unfold todo move
  rw [← Finset.add_sum_erase _ _ (Finset.mem_univ i), ← Finset.add_sum_erase (a := i) _ (fun i => (s i).prog.length) (Finset.mem_univ i)]
  rw [Function.update_self, ← h1]
  have : ∑ x ∈ Finset.univ.erase i, ((Function.update s i (s i).next) x).prog.length = ∑ x ∈ Finset.univ.erase i, (s x).prog.length := by
    refine Finset.sum_congr rfl (fun x hx => ?_)
    rw [Function.update_of_ne (Finset.ne_of_mem_erase hx)]
  rw [this]; omega

theorem todo_run {n : Nat} {s s' : St n} {h : List (Fin n)} (hr : Run s h s') : todo s' + h.length = todo s := by
  induction hr with
  | nil s => rfl
  | cons s i h s' hm _ ih =>
    have := todo_move hm
    simp only [List.length_cons]; omega

theorem run_append {n : Nat} {s s' s'' : St n} {h h' : List (Fin n)} (h1 : Run s h s') (h2 : Run s' h' s'') : Run s (h ++ h') s'' := by
  induction h1 with
  | nil s => exact h2
  | cons s i h s' hm _ ih => exact .cons _ _ _ _ hm (ih h2)

variable {n : Nat} {s s' : St n} {h : List (Fin n)}

/-- **C117** (no deadlock): however many goroutines there are, whatever calls they make, and however they are scheduled: as long as one of them is
unfinished, one of them will be let through. -/
theorem c117_someone_moves (hs : Start s) (hr : Run s h s') (hu : ¬ Finished s') : ∃ i, sure s' i := by
  have hi := inv_run hr (inv_start hs)
  unfold Finished at hu
  push Not at hu
  obtain ⟨i, hne⟩ := hu
  exact someone hi 3 0 rfl i hne (fun h => absurd h (by omega))

/-- **C117** (everybody finishes): every run that cannot be continued has finished all goroutines, after as many steps as they have operations. -/
theorem c117_all_finish (hs : Start s) (hr : Run s h s') (hend : ∀ i, ¬ sure s' i) :
    Finished s' ∧ h.length = ∑ i, (s i).prog.length := by
  have hf : Finished s' := by
    by_contra hu
    obtain ⟨i, hi⟩ := c117_someone_moves hs hr hu
    exact hend i hi
  refine ⟨hf, ?_⟩
  have h1 := todo_run hr
  have h2 : todo s' = 0 := by
    unfold todo
    exact Finset.sum_eq_zero (fun i _ => by rw [hf i]; rfl)
  unfold todo at h1 h2; omega

/-- **C117** (no way into a trap): every run can be continued to a finished one. -/
theorem c117_can_finish (hs : Start s) (hr : Run s h s') : ∃ h' s'', Run s' h' s'' ∧ Finished s'' := by
  induction hk : todo s' generalizing h s' with
  | zero =>
    refine ⟨[], s', .nil _, fun i => ?_⟩
    have : (s' i).prog.length ≤ todo s' := Finset.single_le_sum (f := fun i => (s' i).prog.length) (fun _ _ => Nat.zero_le _) (Finset.mem_univ i)
    exact List.length_eq_zero_iff.mp (by omega)
  | succ k ih =>
    by_cases hf : Finished s'
    · exact ⟨[], s', .nil _, hf⟩
    · obtain ⟨i, hi, _⟩ := c117_someone_moves hs hr hf
      obtain ⟨h', s'', h1, h2⟩ := ih (h := h ++ [i]) (s' := move s' i) (run_append hr (.cons _ _ _ _ hi (.nil _))) (by have := todo_move hi; omega)
      exact ⟨i :: h', s'', .cons _ _ _ _ hi h1, h2⟩

/-- **C117** (no wrong unlock): nobody releases a lock that it does not hold, and at the end nothing is locked. -/
theorem c117_no_wrong_unlock (hs : Start s) (hr : Run s h s') : ¬ WrongUnlock s' ∧ (Finished s' → ∀ i, (s' i).held = []) := by
  have hi := inv_run hr (inv_start hs)
  refine ⟨fun ⟨i, l, m, p, hp, hn⟩ => ?_, fun hf i => ?_⟩
  · have hd := hi.disc i
    rw [hp] at hd
    simp [check, hn] at hd
  · have hd := hi.disc i
    rw [hf i] at hd
    simpa [check] using hd

/-- The hypotheses are met: a call of `Keygen` that joins, listens and times out, the goroutine of its session, a worker of it, a handler, and a
second call of `Keygen`, which waits for the first one. -/
def demo : St 5 := fun i => match i with
  | 0 => ⟨.keygen, [], locked .keygen ([Call.joinPartyMember 0 true 3, .setSubscribe 0 false, .setLastMsg 0,
      .timeout 0 false false false true true true true, .copyBlame 0, .cancelSubscribe 0 true true, .releaseStream 0 true].flatMap Call.body)⟩
  | 1 => ⟨.inbound 0, [], [Call.processVerMsg 0 0 false false (.inl true), .control 0 false,
      .processTSSMsg 0 0 (.broadcast true true false ⟨true, true, false⟩ (.apply [true, false] true)), .taskDone 0 false].flatMap Call.body⟩
  | 2 => ⟨.other, [], [Call.doTssJob 0 none, .doTssJob 0 (some 1)].flatMap Call.body⟩
  | 3 => ⟨.other, [], [Call.readFromStream 0 true true, .processRespMsg 0 true true].flatMap Call.body⟩
  | 4 => ⟨.keygen, [], locked .keygen ([Call.joinPartyWithRetry 1 2, .saveAddressBook].flatMap Call.body)⟩

theorem start_demo : Start demo where
  free i := by fin_cases i <;> rfl
  runs i := by
    fin_cases i
    · exact ⟨_, by simp [Call.session], rfl⟩
    · exact ⟨_, by simp [Call.session], rfl⟩
    · exact ⟨_, by simp [Call.session], rfl⟩
    · exact ⟨_, by simp [Call.session], rfl⟩
    · exact ⟨_, by simp [Call.session], rfl⟩
  one i j k hi hj := by fin_cases i <;> fin_cases j <;> simp [demo] at hi hj ⊢

example : ∃ h s', Run demo h s' ∧ Finished s' := by
  obtain ⟨h, s', h1, h2⟩ := c117_can_finish start_demo (.nil _)
  exact ⟨h, s', h1, h2⟩

/-! ## C118, C119 -/

/-- state that has a protection is never raced for -/
theorem no_race (hs : Start s) (hr : Run s h s') {v : Var} (hv : unguarded v = false) : ¬ Race s' v := by
  have hi := inv_run hr (inv_start hs)
  rintro ⟨i, j, w, hij, ⟨p, hp⟩, ⟨q, hq⟩⟩
  have hd1 := hi.disc i
  have hd2 := hi.disc j
  rw [hp] at hd1
  rw [hq] at hd2
  simp only [check] at hd1 hd2
  split at hd1
  · split at hd2
    · rename_i hc1 hc2
      unfold covered at hc1 hc2
      cases hg : guard v with
      | lock l =>
        simp only [hg] at hc1 hc2
        rcases hc1 with hc1 | ⟨hc1, _⟩
        · rcases hc2 with hc2 | ⟨_, hc2⟩
          · exact absurd (hi.excl i j l _ _ hij hc1 hc2).1 (by simp)
          · exact absurd (hi.excl i j l _ _ hij hc1 hc2).1 (by simp)
        · exact absurd hc1 (by simp)
      | session k =>
        simp only [hg] at hc1 hc2
        exact hij (hi.one i j k hc1 hc2)
      | none => cases v <;> simp [guard, unguarded] at hg hv
    · cases hd2
  · cases hd1

/-- **C118**: at no moment of any run does a goroutine access a map while another one is about to write it. -/
theorem c118_maps (hs : Start s) (hr : Run s h s') {v : Var} (hv : isMap v = true) : ¬ Race s' v :=
  no_race hs hr (by cases v <;> simp_all [isMap, unguarded])

/-- **C119** (the part that holds): the same is true of everything else but the leader of a group, the blame of a session, and the spare cells of the
slices of streams and of accepted shares. -/
theorem c119_races_partial (hs : Start s) (hr : Run s h s') {v : Var} (hv : unguarded v = false) : ¬ Race s' v := no_race hs hr hv

/-! ### what is not protected -/

/-- may all goroutines of `h` move in turn? -/
def possible {n : Nat} : St n → List (Fin n) → Prop
  | _, [] => True
  | s, i :: h => may s i ∧ possible (move s i) h

instance (P : Mode → Prop) [DecidablePred P] : Decidable (∀ m, P m) :=
  decidable_of_iff (P .shared ∧ P .excl) ⟨fun h m => by cases m <;> simp [h.1, h.2], fun h => ⟨h _, h _⟩⟩

instance {n : Nat} (s : St n) (i : Fin n) : Decidable (may s i) := by
  unfold may; split <;> infer_instance

instance possibleDec {n : Nat} : (s : St n) → (h : List (Fin n)) → Decidable (possible s h)
  | _, [] => .isTrue trivial
  | s, i :: h => by
    have := possibleDec (move s i) h
    unfold possible; infer_instance

theorem run_possible {n : Nat} {s : St n} {h : List (Fin n)} (hp : possible s h) : Run s h (h.foldl move s) := by
  induction h generalizing s with
  | nil => exact .nil _
  | cons i h ih => exact .cons _ _ _ _ hp.1 (ih hp.2)

/-- two goroutines, each with one call -/
def two (a b : Call) : St 2 := fun i => ⟨.other, [], if i = 0 then a.body else b.body⟩

theorem start_two {a b : Call} (ha : a.session = none) (hb : b.session = none) : Start (two a b) where
  free _ := rfl
  runs i := by
    by_cases h : i = 0
    · exact ⟨[a], by simp [ha], by simp [two, h]⟩
    · exact ⟨[b], by simp [hb], by simp [two, h]⟩
  one i j k hi := by cases hi

/-- **C119** fails: a member of a join party writes the leader of its group (p2p/party_coordinator.go:336) while the handler of an answer compares it
with the sender (line 78). -/
theorem c119_leader_race : Start (two (.joinPartyMember 0 true 1) (.processRespMsg 0 true true)) ∧ ∃ h s', Run (two (.joinPartyMember 0 true 1) (.processRespMsg 0 true true)) h s' ∧ Race s' (.leader 0) :=
  ⟨start_two rfl rfl, [0, 0, 0, 1, 1, 1, 1, 1, 1, 1, 1], _, run_possible (by decide +kernel), 0, 1, false, by decide, ⟨_, rfl⟩, ⟨_, rfl⟩⟩

/-- **C119** fails: a worker sets the blame (blame/blame.go:46-48) while the call copies it into the answer (tss/keygen.go:117). -/
theorem c119_blame_race : Start (two (.doTssJob 0 (some 1)) (.copyBlame 0)) ∧ ∃ h s', Run (two (.doTssJob 0 (some 1)) (.copyBlame 0)) h s' ∧ Race s' (.blame 0) :=
  ⟨start_two rfl rfl, [0, 0, 0, 0, 0, 0, 0, 0, 0], _, run_possible (by decide +kernel), 0, 1, false, by decide, ⟨_, rfl⟩, ⟨_, rfl⟩⟩

/-- **C119** fails: the timeout of a session writes the blame without lock (keygen/tss_keygen.go:202) while a worker sets it. -/
theorem c119_blame_write_race :
    Start (two (.timeout 0 false false true false true false true) (.doTssJob 0 (some 0))) ∧
    ∃ h s', Run (two (.timeout 0 false false true false true false true) (.doTssJob 0 (some 0))) h s' ∧ Race s' (.blame 0) :=
  ⟨start_two rfl rfl, List.replicate 25 0 ++ List.replicate 6 1, _, run_possible (by decide +kernel), 0, 1, true, by decide, ⟨_, rfl⟩, ⟨_, rfl⟩⟩

/-- **C119** fails: `ReleaseStream` appends the unknown streams behind those of the session, outside of the lock (p2p/stream_helper.go:46), into the
cell in which `AddStream` may at this moment put a new stream of the session. -/
theorem c119_stream_race : Start (two (.releaseStream 0 true) (.addStream 0 false)) ∧ ∃ h s', Run (two (.releaseStream 0 true) (.addStream 0 false)) h s' ∧ Race s' (.streamSpare 0) :=
  ⟨start_two rfl rfl, [0, 0, 0, 0, 1, 1], _, run_possible (by decide +kernel), 0, 1, true, by decide, ⟨_, rfl⟩, ⟨_, rfl⟩⟩

/-- **C119** fails: `TssMissingShareBlame` appends the own id behind the accepted shares of a round, outside of the lock (blame/policy.go:178), into
the cell in which `UpdateAcceptShare` may at this moment put a sender. -/
theorem c119_accepted_race :
    Start (two (.timeout 0 false false true false true true true) (.doTssJob 0 none)) ∧
    ∃ h s', Run (two (.timeout 0 false false true false true true true) (.doTssJob 0 none)) h s' ∧ Race s' (.acceptedSpare 0) :=
  ⟨start_two rfl rfl, List.replicate 21 0 ++ List.replicate 2 1, _, run_possible (by decide +kernel), 0, 1, true, by decide, ⟨_, rfl⟩, ⟨_, rfl⟩⟩

/-- the second call of `Keygen` really waits: once the first one has its lock, the second one may not go on -/
example : ∃ h s', Run demo h s' ∧ ¬ may s' 4 ∧ (∃ i, sure s' i) ∧ ∀ v, isMap v = true → ¬ Race s' v :=
  ⟨[0, 1, 3], _, run_possible (by decide +kernel), by decide +kernel,
    c117_someone_moves start_demo (run_possible (h := [0, 1, 3]) (by decide +kernel)) (fun hf => absurd (hf 4) (by decide +kernel)),
    fun _ hv => c118_maps start_demo (run_possible (h := [0, 1, 3]) (by decide +kernel)) hv⟩

end Verif.Props.Locking
