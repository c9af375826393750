import Verif.Lemmas.Session
import Verif.Lemmas.Shape
import Verif.Props.C31_C36
import Verif.Props.C01

/-! A session all of whose messages are as they should be: shares reach the local parties. -/
set_option linter.unusedSectionVars false
namespace Verif.TssCommon
open Verif.Go Verif.Conversion Verif.Messages Verif.Blame Verif.Threshold Verif.Spec Verif.Props.SessionMore

variable {K P : Type} [DecidableEq K] [DecidableEq P]

/-- bookkeeping of jobs and calls while nothing goes wrong; `G` are the shares of this session -/
structure Flow (env : Env K P) (G : Share → RoundInfo → Prop) (s : St K P) : Prop where
  ids : (s.jobs.map Job.id).Nodup
  fresh : ∀ j ∈ s.jobs, j.id < s.nextJob
  good : ∀ j ∈ s.jobs, G j.share j.round
  outcome : ∀ j ∈ s.jobs, j.outcome = none ∨ (j.outcome = some none ∧ ∃ en ∈ s.log, en.share = j.share ∧ en.round = j.round)
  logged : ∀ en ∈ s.log, en.ok = true ∧ G en.share en.round
  acc : ∀ r i, s.mgr.checkMsgDuplication r i = true → ∃ en ∈ s.log, en.round = r ∧ en.share.from_ = i
  culprits : s.culprits = []

/-- the share is on its way to the local party, or has been handed over -/
def Under (s : St K P) (sh : Share) (r : RoundInfo) : Prop :=
  (∃ j ∈ s.jobs, j.share = sh ∧ j.round = r) ∨ ∃ en ∈ s.log, en.share = sh ∧ en.round = r

/-- what the application of shares leaves alone -/
structure Alike (s s' : St K P) : Prop where
  cache : s'.cache = s.cache
  finished : s'.finished = s.finished
  taskDone : s'.taskDone = s.taskDone
  culprits : s'.culprits = s.culprits
  sent : s'.sent = s.sent
  crashed : s'.crashed = s.crashed
  ids : s'.mgr.partyIDMap = s.mgr.partyIDMap
  peers : s'.mgr.partyIDtoP2PID = s.mgr.partyIDtoP2PID
  blame : s'.mgr.blame = s.mgr.blame
  stored : s'.mgr.storedMsg = s.mgr.storedMsg
  log : ∀ en ∈ s.log, en ∈ s'.log

theorem Alike.refl (s : St K P) : Alike s s := ⟨rfl, rfl, rfl, rfl, rfl, rfl, rfl, rfl, rfl, rfl, fun _ h => h⟩

theorem Alike.trans {a b c : St K P} (h : Alike a b) (h' : Alike b c) : Alike a c :=
  ⟨h'.1.trans h.1, h'.2.trans h.2, h'.3.trans h.3, h'.4.trans h.4, h'.5.trans h.5, h'.6.trans h.6, h'.7.trans h.7, h'.8.trans h.8,
    h'.9.trans h.9, h'.10.trans h.10, fun en he => h'.11 en (h.11 en he)⟩

/-- one worker step -/
structure Stepped (env : Env K P) (G : Share → RoundInfo → Prop) (s s' : St K P) : Prop where
  flow : Flow env G s'
  alike : Alike s s'
  under : ∀ sh r, Under s sh r → Under s' sh r
  next : s'.nextJob = s.nextJob
  sub : ∀ j ∈ s'.jobs, ∃ k ∈ s.jobs, k.id = j.id

theorem Stepped.trans {env : Env K P} {G : Share → RoundInfo → Prop} {a b c : St K P} (h : Stepped env G a b) (h' : Stepped env G b c) :
    Stepped env G a c :=
  ⟨h'.flow, h.alike.trans h'.alike, fun sh r hu => h'.under sh r (h.under sh r hu), h'.next.trans h.next, fun j hj => by
    obtain ⟨k, hk, e⟩ := h'.sub j hj
    obtain ⟨k', hk', e'⟩ := h.sub k hk
    exact ⟨k', hk', e'.trans e⟩⟩

theorem Stepped.refl {env : Env K P} {G : Share → RoundInfo → Prop} {s : St K P} (h : Flow env G s) : Stepped env G s s :=
  ⟨h, Alike.refl s, fun _ _ h => h, rfl, fun j hj => ⟨j, hj, rfl⟩⟩

theorem flow_stepJob {env : Env K P} {G : Share → RoundInfo → Prop} (hG : ∀ log sh r, G sh r → env.upd log sh = none) (id : Nat)
    {s : St K P} (h : Flow env G s) : Stepped env G s (stepJob env id s) := by
  rcases hf : s.jobs.find? (fun j => j.id = id) with _ | j
  · rw [stepJob_none hf]; exact Stepped.refl h
  · have hmem := List.mem_of_find?_eq_some hf
    have hid : j.id = id := by simpa using List.find?_some hf
    rcases h.outcome j hmem with ho | ⟨ho, en0, hen0, he1, he2⟩
    · rw [stepJob_wait hf ho]
      have hu := hG s.log j.share j.round (h.good j hmem)
      have hmid : ∀ k, (if k.id = id then { k with outcome := some (env.upd s.log j.share) } else k : Job).id = k.id := by
        intro k; split <;> rfl
      refine ⟨⟨?_, ?_, ?_, ?_, ?_, ?_, h.culprits⟩, ⟨rfl, rfl, rfl, rfl, rfl, rfl, rfl, rfl, rfl, rfl, fun en he => by simp [he]⟩, ?_, rfl, ?_⟩
      · have : List.map Job.id (s.jobs.map (fun k => if k.id = id then { k with outcome := some (env.upd s.log j.share) } else k)) =
            s.jobs.map Job.id := by
          rw [List.map_map]
          exact List.map_congr_left (fun k _ => hmid k)
        dsimp only
        rw [this]; exact h.ids
      · intro k hk
        obtain ⟨k', hk', rfl⟩ := List.mem_map.1 hk
        rw [hmid]; exact h.fresh k' hk'
      · intro k hk
        obtain ⟨k', hk', rfl⟩ := List.mem_map.1 hk
        have := h.good k' hk'
        split <;> exact this
      · intro k hk
        obtain ⟨k', hk', rfl⟩ := List.mem_map.1 hk
        by_cases hkid : k'.id = id
        · rw [if_pos hkid]
          have : k' = j := List.inj_on_of_nodup_map h.ids hk' hmem (hkid.trans hid.symm)
          subst this
          exact Or.inr ⟨by dsimp only; rw [hu], _, List.mem_append.2 (Or.inr (List.mem_singleton.2 rfl)), rfl, rfl⟩
        · rw [if_neg hkid]
          rcases h.outcome k' hk' with h1 | ⟨h1, en, h2, h3⟩
          · exact Or.inl h1
          · exact Or.inr ⟨h1, en, by simp [h2], h3⟩
      · intro en hen
        rcases List.mem_append.1 hen with hen | hen
        · exact h.logged en hen
        · obtain rfl := List.mem_singleton.1 hen
          exact ⟨by dsimp only; rw [hu]; rfl, h.good j hmem⟩
      · intro r i hr
        obtain ⟨en, h1, h2⟩ := h.acc r i hr
        exact ⟨en, by simp [h1], h2⟩
      · rintro sh r (⟨k, hk, h1, h2⟩ | ⟨en, hen, h1⟩)
        · refine Or.inl ⟨_, List.mem_map.2 ⟨k, hk, rfl⟩, ?_⟩
          split <;> exact ⟨h1, h2⟩
        · exact Or.inr ⟨en, by simp [hen], h1⟩
      · intro k hk
        obtain ⟨k', hk', rfl⟩ := List.mem_map.1 hk
        exact ⟨k', hk', (hmid k').symm⟩
    · rw [stepJob_ok hf ho]
      obtain ⟨m1, m2, m3, m4, m5⟩ := updateAcceptShare_maps s.mgr j.round j.share.from_
      have hsub : ∀ k ∈ s.jobs.filter (fun k => k.id ≠ id), k ∈ s.jobs := fun k hk => (List.mem_filter.1 hk).1
      refine ⟨⟨(List.filter_sublist.map _).nodup h.ids, fun k hk => h.fresh k (hsub k hk), fun k hk => h.good k (hsub k hk),
        fun k hk => h.outcome k (hsub k hk), h.logged, ?_, h.culprits⟩, ⟨rfl, rfl, rfl, rfl, rfl, rfl, m1, m2, m4, m3, fun _ h => h⟩, ?_, rfl,
        fun k hk => ⟨k, hsub k hk, rfl⟩⟩
      · intro r i hr
        rcases (accepted_update s.mgr j.round r j.share.from_ i).1 hr with hr | ⟨rfl, rfl⟩
        · exact h.acc r i hr
        · exact ⟨en0, hen0, he2, by rw [he1]⟩
      · rintro sh r (⟨k, hk, h1, h2⟩ | hu)
        · by_cases hkid : k.id = id
          · have : k = j := List.inj_on_of_nodup_map h.ids hk hmem (hkid.trans hid.symm)
            subst this
            exact Or.inr ⟨en0, hen0, he1.trans h1, he2.trans h2⟩
          · exact Or.inl ⟨k, List.mem_filter.2 ⟨hk, by simpa using hkid⟩, h1, h2⟩
        · exact Or.inr hu

theorem flow_stepJobs {env : Env K P} {G : Share → RoundInfo → Prop} (hG : ∀ log sh r, G sh r → env.upd log sh = none) (ids : List Nat)
    {s : St K P} (h : Flow env G s) : Stepped env G s (stepJobs env ids s) := by
  induction ids generalizing s with
  | nil => exact Stepped.refl h
  | cons i ids ih => exact (flow_stepJob hG i h).trans (ih (flow_stepJob hG i h).flow)

/-- two steps finish a job -/
theorem stepJob_twice {env : Env K P} {G : Share → RoundInfo → Prop} (hG : ∀ log sh r, G sh r → env.upd log sh = none) (id : Nat)
    {s : St K P} (h : Flow env G s) : ∀ j ∈ (stepJob env id (stepJob env id s)).jobs, j.id ≠ id := by
  have fin : ∀ (s : St K P) (j : Job), s.jobs.find? (fun j => j.id = id) = some j → j.outcome = some none →
      ∀ k ∈ (stepJob env id s).jobs, k.id ≠ id := by
    intro s j hf ho k hk
    rw [stepJob_ok hf ho] at hk
    simpa using (List.mem_filter.1 hk).2
  have stay : ∀ (s : St K P), (∀ k ∈ s.jobs, k.id ≠ id) → ∀ k ∈ (stepJob env id s).jobs, k.id ≠ id := by
    intro s hs k hk
    rw [stepJob_none (by rw [List.find?_eq_none]; intro k hk; simpa using hs k hk)] at hk
    exact hs k hk
  rcases hf : s.jobs.find? (fun j => j.id = id) with _ | j
  · refine stay _ (stay s ?_)
    intro k hk
    have := List.find?_eq_none.1 hf k hk
    simpa using this
  · have hmem := List.mem_of_find?_eq_some hf
    have hid : j.id = id := by simpa using List.find?_some hf
    rcases h.outcome j hmem with ho | ⟨ho, _⟩
    · have hu := hG s.log j.share j.round (h.good j hmem)
      have h1 := (flow_stepJob hG id h).flow
      rcases hf' : (stepJob env id s).jobs.find? (fun j => j.id = id) with _ | k
      · refine stay _ ?_
        intro k hk
        have := List.find?_eq_none.1 hf' k hk
        simpa using this
      · refine fin _ k hf' ?_
        have hk := List.mem_of_find?_eq_some hf'
        have hkid : k.id = id := by simpa using List.find?_some hf'
        rw [stepJob_wait hf ho] at hk
        obtain ⟨k', hk', rfl⟩ := List.mem_map.1 hk
        have hid' : k'.id = id := by
          revert hkid; split <;> (intro hkid; first | exact hkid | (rename_i h; exact h))
        rw [if_pos hid']
        dsimp only
        rw [hu]
    · exact stay _ (fin s j hf ho)

theorem flow_drain {env : Env K P} {G : Share → RoundInfo → Prop} (hG : ∀ log sh r, G sh r → env.upd log sh = none) (start : Nat)
    {s : St K P} (h : Flow env G s) (hs : ∀ j ∈ s.jobs, start ≤ j.id) :
    Stepped env G s (drain env start s) ∧ (drain env start s).jobs = [] := by
  have key : ∀ (l : List Job) (s : St K P), Flow env G s →
      Stepped env G s (l.foldl (fun s j => stepJob env j.id (stepJob env j.id s)) s) ∧
      ∀ k ∈ (l.foldl (fun s j => stepJob env j.id (stepJob env j.id s)) s).jobs, ∀ j ∈ l, j.id ≠ k.id := by
    intro l
    induction l with
    | nil => intro s h; exact ⟨Stepped.refl h, by simp⟩
    | cons j l ih =>
      intro s h
      have a := flow_stepJob hG j.id h
      have b := flow_stepJob hG j.id a.flow
      obtain ⟨c, d⟩ := ih _ b.flow
      refine ⟨(a.trans b).trans c, ?_⟩
      intro k hk j' hj'
      rcases List.mem_cons.1 hj' with rfl | hj'
      · obtain ⟨k', hk', e⟩ := c.sub k hk
        rw [← e]
        exact (stepJob_twice hG _ h k' hk').symm
      · exact d k hk j' hj'
  obtain ⟨a, b⟩ := key (s.jobs.filter (fun j => start ≤ j.id)) s h
  refine ⟨a, ?_⟩
  rw [List.eq_nil_iff_forall_not_mem]
  intro k hk
  obtain ⟨k', hk', e⟩ := a.sub k hk
  exact b k hk k' (List.mem_filter.2 ⟨hk', by simpa using hs k' hk'⟩) e

/-- a share inside a bulk that the node can hand over: from member `i`, of round `ri` -/
def GoodBulk (env : Env K P) (i : Nat) (x : BulkWireMsg) : Prop :=
  x.ident ∈ env.parties ∧ ∃ r ri, x.routing = some r ∧ r.sender = some i ∧ GetMsgRound env.parse x.wired = some ri

theorem flow_feed {env : Env K P} {G : Share → RoundInfo → Prop} (hG : ∀ log sh r, G sh r → env.upd log sh = none) (w : WireMessage)
    (start i : Nat) (p : Party) :
    ∀ (rest : List BulkWireMsg) (ticks : List (List Nat)) (s : St K P), Flow env G s → (∀ j ∈ s.jobs, start ≤ j.id) → start ≤ s.nextJob →
      Map.get s.mgr.partyIDMap i = some p →
      (∀ x ∈ rest, x.ident ∈ env.parties ∧ ∃ r ri, x.routing = some r ∧ r.sender = some i ∧ GetMsgRound env.parse x.wired = some ri ∧
        G ⟨x.ident, i, r.isBroadcast, x.wired⟩ { ri with msgIdentifier := x.ident }) →
      (feed env w start rest ticks s).2 = .ok () ∧ Flow env G (feed env w start rest ticks s).1 ∧
      Alike s (feed env w start rest ticks s).1 ∧ (feed env w start rest ticks s).1.jobs = [] ∧
      (∀ sh r, Under s sh r → Under (feed env w start rest ticks s).1 sh r) ∧
      ∀ x ∈ rest, ∀ ri, GetMsgRound env.parse x.wired = some ri → ∃ en ∈ (feed env w start rest ticks s).1.log,
        en.round = { ri with msgIdentifier := x.ident } ∧ en.share.from_ = i := by
  intro rest
  induction rest with
  | nil =>
    intro ticks s h hst hnx _ _
    have a := flow_stepJobs hG (ticks.headD []) h
    obtain ⟨b, c⟩ := flow_drain hG start a.flow (by
      intro j hj
      obtain ⟨k, hk, e⟩ := a.sub j hj
      rw [← e]; exact hst k hk)
    have d := a.trans b
    exact ⟨rfl, d.flow, d.alike, c, d.under, by simp⟩
  | cons x rest ih =>
    intro ticks s h hst hnx hip hx
    have a := flow_stepJobs hG (ticks.headD []) h
    have hst1 : ∀ j ∈ (stepJobs env (ticks.headD []) s).jobs, start ≤ j.id := by
      intro j hj
      obtain ⟨k, hk, e⟩ := a.sub j hj
      rw [← e]; exact hst k hk
    have hnx1 : start ≤ (stepJobs env (ticks.headD []) s).nextJob := by rw [a.next]; exact hnx
    have hip1 : Map.get (stepJobs env (ticks.headD []) s).mgr.partyIDMap i = some p := by rw [a.alike.ids]; exact hip
    obtain ⟨hp, r, ri, hr, hi, hround, hgood⟩ := hx x (by simp)
    have hx' : ∀ y ∈ rest, _ := fun y hy => hx y (by simp [hy])
    simp only [feed]
    generalize stepJobs env (ticks.headD []) s = s1 at a hst1 hnx1 hip1
    simp only [if_pos hp, hr, hi, hip1, hround]
    by_cases hdup : s1.mgr.checkMsgDuplication { ri with msgIdentifier := x.ident } i = true
    · rw [if_pos hdup]
      obtain ⟨b1, b2, b3, b4, b5, b6⟩ := ih ticks.tail s1 a.flow hst1 hnx1 hip1 hx'
      refine ⟨b1, b2, a.alike.trans b3, b4, fun sh r hu => b5 sh r (a.under sh r hu), ?_⟩
      intro y hy rj hrj
      rcases List.mem_cons.1 hy with rfl | hy
      · rw [hround] at hrj; cases hrj
        obtain ⟨en, h1, h2⟩ := a.flow.acc _ _ hdup
        exact ⟨en, b3.log en h1, h2⟩
      · exact b6 y hy rj hrj
    · rw [if_neg hdup, if_neg (by simp [a.flow.culprits])]
      have f2 : Flow env G { s1 with
          jobs := s1.jobs ++ [⟨s1.nextJob, ⟨x.ident, i, r.isBroadcast, x.wired⟩, { ri with msgIdentifier := x.ident }, w, none⟩]
          nextJob := s1.nextJob + 1 } := by
        refine ⟨?_, ?_, ?_, ?_, a.flow.logged, a.flow.acc, a.flow.culprits⟩
        · dsimp only
          rw [List.map_append, List.nodup_append]
          refine ⟨a.flow.ids, by simp, ?_⟩
          intro y hy z hz hyz
          obtain ⟨j, hj, rfl⟩ := List.mem_map.1 hy
          have := a.flow.fresh j hj
          simp at hz
          omega
        · intro j hj
          rcases List.mem_append.1 hj with hj | hj
          · have := a.flow.fresh j hj; dsimp only; omega
          · simp at hj; subst hj; simp
        · intro j hj
          rcases List.mem_append.1 hj with hj | hj
          · exact a.flow.good j hj
          · simp at hj; subst hj; exact hgood
        · intro j hj
          rcases List.mem_append.1 hj with hj | hj
          · exact a.flow.outcome j hj
          · simp at hj; subst hj; exact Or.inl rfl
      obtain ⟨b1, b2, b3, b4, b5, b6⟩ := ih ticks.tail _ f2 (by
        intro j hj
        rcases List.mem_append.1 hj with hj | hj
        · exact hst1 j hj
        · simp at hj; subst hj; exact hnx1) (by dsimp only; omega) hip1 hx'
      refine ⟨b1, b2, ?_, b4, ?_, ?_⟩
      · refine a.alike.trans (Alike.trans ?_ b3)
        exact ⟨rfl, rfl, rfl, rfl, rfl, rfl, rfl, rfl, rfl, rfl, fun _ h => h⟩
      · intro sh r' hu
        refine b5 sh r' ?_
        rcases a.under sh r' hu with ⟨j, hj, e⟩ | hu
        · exact Or.inl ⟨j, by simp [hj], e⟩
        · exact Or.inr hu
      · intro y hy rj hrj
        rcases List.mem_cons.1 hy with rfl | hy
        · rw [hround] at hrj; cases hrj
          rcases b5 _ _ (Or.inl ⟨_, List.mem_append.2 (Or.inr (List.mem_singleton.2 rfl)), rfl, rfl⟩) with ⟨j, hj, _⟩ | ⟨en, hen, h1, h2⟩
          · rw [b4] at hj; cases hj
          · exact ⟨en, hen, h2, by rw [h1]⟩
        · exact b6 y hy rj hrj

/-- the wire messages `W` meant for a node of a session in which everybody behaves -/
structure WellMade (env : Env K P) (m : Manager K P) (W : WireMessage → Prop) : Prop where
  made : ∀ w, W w → ∃ i p peer bulk, w.sender = some i ∧ Map.get m.partyIDMap i = some p ∧ Map.get m.partyIDtoP2PID i = some peer ∧
    peer ≠ env.localPeer ∧ env.verify p.key (w.message ++ env.msgID) w.sig = true ∧ env.decBulk w.message = some bulk ∧
    ∀ x ∈ bulk, GoodBulk env i x
  once : ∀ w w', W w → W w' → w.isBroadcast = true → w'.isBroadcast = true → w.sender = w'.sender → w.roundInfo = w'.roundInfo → w = w'
  slots : ∀ w w' bulk bulk' x x', W w → W w' → env.decBulk w.message = some bulk → env.decBulk w'.message = some bulk' → x ∈ bulk →
    x' ∈ bulk' → w.sender = w'.sender → x.ident = x'.ident → GetMsgRound env.parse x.wired = GetMsgRound env.parse x'.wired → x = x'
  accepts : ∀ w log sh r, W w → Contains env m.partyIDMap w sh r → env.upd log sh = none

/-- the shares of the messages `W` -/
def SharesOf (env : Env K P) (m : Manager K P) (W : WireMessage → Prop) (sh : Share) (r : RoundInfo) : Prop :=
  ∃ w, W w ∧ Contains env m.partyIDMap w sh r

/-- all shares of `w` have been handed to the local parties, who accepted them -/
def Handed (env : Env K P) (s : St K P) (w : WireMessage) : Prop :=
  ∀ bulk, env.decBulk w.message = some bulk → ∀ x ∈ bulk, ∀ r i, x.routing = some r → r.sender = some i →
    ∃ en ∈ s.log, en.share = ⟨x.ident, i, r.isBroadcast, x.wired⟩ ∧ en.ok = true

theorem Handed.mono {env : Env K P} {s s' : St K P} {w : WireMessage} (h : Handed env s w) (hl : ∀ en ∈ s.log, en ∈ s'.log) :
    Handed env s' w := by
  intro bulk hb x hx r i hr hi
  obtain ⟨en, h1, h2⟩ := h bulk hb x hx r i hr hi
  exact ⟨en, hl en h1, h2⟩

/-- nothing is lost: shares handed over stay so, and so do the round messages that were stored -/
structure Grows (s s' : St K P) : Prop where
  log : ∀ en ∈ s.log, en ∈ s'.log
  stored : ∀ key, (∃ w, Map.get s.mgr.storedMsg key = some w) → ∃ w, Map.get s'.mgr.storedMsg key = some w

theorem Grows.trans {a b c : St K P} (h : Grows a b) (h' : Grows b c) : Grows a c :=
  ⟨fun en he => h'.log en (h.log en he), fun k hk => h'.stored k (h.stored k hk)⟩

/-- the broadcast message `w` is dealt with: its shares are handed over and the message is stored under its key -/
structure Dealt (env : Env K P) (s : St K P) (key : String) (w : WireMessage) : Prop where
  handed : Handed env s w
  stored : ∃ w', Map.get s.mgr.storedMsg key = some w'

theorem Dealt.mono {env : Env K P} {s s' : St K P} {key : String} {w : WireMessage} (h : Dealt env s key w) (hg : Grows s s') :
    Dealt env s' key w := ⟨h.handed.mono hg.log, hg.stored _ h.stored⟩

theorem getMsgRound_ident {parse : Bytes → Option Content} {b : Bytes} {ri : RoundInfo} (h : GetMsgRound parse b = some ri) :
    ri.msgIdentifier = "" := by
  unfold GetMsgRound at h
  rcases hp : parse b with _ | c
  · rw [hp] at h; cases h
  · rw [hp] at h
    cases c <;> simp only [contentRound, Option.bind_some, Option.some.injEq, reduceCtorEq] at h <;> subst h <;> rfl

theorem flow_congr {env : Env K P} {G : Share → RoundInfo → Prop} {s s' : St K P} (h : Flow env G s) (hj : s'.jobs = s.jobs)
    (hn : s'.nextJob = s.nextJob) (hl : s'.log = s.log) (ha : s'.mgr.acceptedShares = s.mgr.acceptedShares) (hc : s'.culprits = s.culprits) :
    Flow env G s' := by
  refine ⟨by rw [hj]; exact h.ids, by rw [hj, hn]; exact h.fresh, by rw [hj]; exact h.good, by rw [hj, hl]; exact h.outcome,
    by rw [hl]; exact h.logged, ?_, by rw [hc]; exact h.culprits⟩
  intro r i hr
  rw [hl]
  refine h.acc r i ?_
  unfold Manager.checkMsgDuplication at hr ⊢
  rw [← ha]; exact hr

theorem noSender_of_sender {w : WireMessage} {i : Nat} (hi : w.sender = some i) : w.noSender = false := by
  unfold WireMessage.sender at hi
  unfold WireMessage.noSender
  rcases hr : w.routing with _ | r
  · rw [hr] at hi; cases hi
  · rw [hr] at hi
    rcases hf : r.from_ with _ | f
    · simp only [Option.bind_some, Routing.sender, hf] at hi; cases hi
    · simp [hf]

theorem updateLocal_fine {env : Env K P} {m : Manager K P} {W : WireMessage → Prop} (hW : WellMade env m W) {w : WireMessage} (hw : W w)
    (ticks : List (List Nat)) {s : St K P} (h : Flow env (SharesOf env m W) s) (hj : s.jobs = []) (hids : s.mgr.partyIDMap = m.partyIDMap)
    (hpeers : s.mgr.partyIDtoP2PID = m.partyIDtoP2PID) :
    (updateLocal env ticks w s).2 = .ok () ∧ Flow env (SharesOf env m W) (updateLocal env ticks w s).1 ∧
    Alike s (updateLocal env ticks w s).1 ∧ (updateLocal env ticks w s).1.jobs = [] ∧ Handed env (updateLocal env ticks w s).1 w := by
  obtain ⟨i, p, peer, bulk, hi, hp, hpe, -, -, hb, hx⟩ := hW.made w hw
  have hns := noSender_of_sender hi
  unfold updateLocal
  rw [if_neg (by simp [hns])]
  simp only [hi, hids, hp, hpeers, hpe, hb]
  have key : Alike s (if w.isBroadcast then s else { s with mgr := s.mgr.setLastUnicastPeer peer w.roundInfo }) ∧
      Flow env (SharesOf env m W) (if w.isBroadcast then s else { s with mgr := s.mgr.setLastUnicastPeer peer w.roundInfo }) ∧
      (if w.isBroadcast then s else { s with mgr := s.mgr.setLastUnicastPeer peer w.roundInfo }).jobs = [] := by
    split
    · exact ⟨Alike.refl s, h, hj⟩
    · obtain ⟨a1, a2, a3, a4, a5, a6⟩ := setLastUnicastPeer_maps s.mgr peer w.roundInfo
      exact ⟨⟨rfl, rfl, rfl, rfl, rfl, rfl, a1, a2, a4, a3, fun _ h => h⟩, flow_congr h rfl rfl rfl a5 rfl, hj⟩
  generalize (if w.isBroadcast then s else { s with mgr := s.mgr.setLastUnicastPeer peer w.roundInfo }) = s1 at key
  obtain ⟨k1, k2, k3⟩ := key
  have hgood : ∀ x ∈ bulk, x.ident ∈ env.parties ∧ ∃ r ri, x.routing = some r ∧ r.sender = some i ∧ GetMsgRound env.parse x.wired = some ri ∧
        SharesOf env m W ⟨x.ident, i, r.isBroadcast, x.wired⟩ { ri with msgIdentifier := x.ident } := by
    intro x hxb
    obtain ⟨g1, r, ri, g2, g3, g4⟩ := hx x hxb
    exact ⟨g1, r, ri, g2, g3, g4, w, hw, bulk, x, r, ri, hb, hxb, rfl, g1, rfl, g2, g3, rfl,
      (Map.get_isSome_iff _ _).1 (by rw [hp]; rfl), g4, rfl⟩
  obtain ⟨f1, f2, f3, f4, -, f6⟩ := flow_feed (G := SharesOf env m W) (fun log sh r ⟨w', hw', hc⟩ => hW.accepts w' log sh r hw' hc) w s1.nextJob i p bulk ticks s1 k2
    (by rw [k3]; simp) le_rfl (by rw [k1.ids, hids]; exact hp) hgood
  refine ⟨f1, f2, k1.trans f3, f4, ?_⟩
  intro bulk' hb' x hxb r j hr hjj
  rw [hb] at hb'
  cases hb'
  obtain ⟨-, r', ri, g2, g3, g4, -⟩ := hgood x hxb
  rw [hr] at g2; cases g2
  rw [hjj] at g3; cases g3
  obtain ⟨en, e1, e2, e3⟩ := f6 x hxb ri g4
  obtain ⟨eok, w', hw', bulk', x', r', ri', c1, c2, c3, -, c5, c6, c7, c8, -, c10, c11⟩ := f2.logged en e1
  refine ⟨en, e1, ?_, eok⟩
  obtain ⟨i', p', -, b', d1, -, -, -, -, d2, d3⟩ := hW.made w' hw'
  rw [c1] at d2; cases d2
  obtain ⟨-, r'', ri'', d4, d5, -⟩ := d3 x' c2
  rw [c6] at d4; cases d4
  rw [c7] at d5; cases d5
  rw [e3] at d1
  have hri : ri = ri' := by
    rw [e2] at c11
    have h1 := getMsgRound_ident g4
    have h2 := getMsgRound_ident c10
    cases ri; cases ri'
    simp only [RoundInfo.mk.injEq] at c11 h1 h2 ⊢
    exact ⟨c11.1, c11.2.1, h1.trans h2.symm⟩
  have hid : x.ident = x'.ident := by
    rw [e2] at c11
    simpa using congrArg RoundInfo.msgIdentifier c11
  have hxx := hW.slots w w' bulk bulk' x x' hw hw' hb c1 hxb c2 (hi.trans d1.symm) hid (by rw [g4, c10, hri])
  subst hxx
  rw [hr] at c6; cases c6
  rw [← e3, c3, c5, c8]

/-! ### one event -/

/-- a cached broadcast message in a session in which everybody behaves -/
structure FineItem (env : Env K P) (m : Manager K P) (W : WireMessage → Prop) (key : String) (item : Item P) (w : WireMessage) : Prop where
  wf : Map.WF item.confirmed
  mem : W w
  bc : w.isBroadcast = true
  key : ∃ i owner, w.sender = some i ∧ key = cacheKey i w.roundInfo ∧ Map.get m.partyIDtoP2PID i = some owner ∧ owner ∉ Map.keys item.confirmed
  votes : ∀ p d, Map.get item.confirmed p = some d → d = env.hash w.message
  some_ : item.confirmed ≠ []
  msg : item.msg = none ∨ (item.msg = some w ∧ item.hash = env.hash w.message)

theorem getMsgHash_unanimous (σ : Shuffle (String × Nat)) (item : Item P) (t : Int) (d : String) (hwf : Map.WF item.confirmed)
    (hv : ∀ p d', Map.get item.confirmed p = some d' → d' = d) (hne : item.confirmed ≠ []) (ht : t ≤ (item.confirmed.length : Int)) :
    getMsgHash σ item t = .ok d := by
  have hall : ∀ x ∈ item.confirmed.map Prod.snd, x = d := by
    intro x hx
    obtain ⟨⟨p, d'⟩, he, rfl⟩ := List.mem_map.1 hx
    exact hv p d' (Map.get_of_mem hwf he)
  have hcount : (item.confirmed.map Prod.snd).count d = item.confirmed.length := by
    rw [List.count_eq_length.2 (fun x hx => (hall x hx).symm), List.length_map]
  rcases hh : getMsgHash σ item t with er | d'
  · cases er with
    | inconsistency =>
      have := getMsgHash_inconsistency _ _ _ hh d
      rw [hcount] at this
      omega
    | hashCheck => exact absurd (getMsgHash_hashCheck _ _ _ hh) hne
    | noOwner => exact absurd hh (by unfold getMsgHash; split <;> [split <;> simp; simp])
    | notEnoughPeer => exact absurd hh (by unfold getMsgHash; split <;> [split <;> simp; simp])
    | fromOwner => exact absurd hh (by unfold getMsgHash; split <;> [split <;> simp; simp])
    | notMajority => exact absurd hh (by unfold getMsgHash; split <;> [split <;> simp; simp])
  · obtain ⟨_, h2, _⟩ := getMsgHash_ok _ _ _ _ hh
    rw [hall d' h2]

/-- the session between two events -/
structure Core (env : Env K P) (m : Manager K P) (W : WireMessage → Prop) (t : Int) (s : St K P) : Prop where
  flow : Flow env (SharesOf env m W) s
  idle : s.jobs = []
  crashed : s.crashed = false
  ids : s.mgr.partyIDMap = m.partyIDMap
  peers : s.mgr.partyIDtoP2PID = m.partyIDtoP2PID
  blame : s.mgr.blame = m.blame
  cache : ∀ key item, Map.get s.cache key = some item → ∃ w, FineItem env m W key item w
  small : ∀ key item, Map.get s.cache key = some item → item.msg ≠ none → (item.confirmed.length : Int) < t

/-- applying a cached message: it waits for more votes, or it is handed over -/
theorem applyShare_fine {env : Env K P} {m : Manager K P} {W : WireMessage → Prop} (hW : WellMade env m W) {t : Int} {s : St K P}
    (hc : Core env m W t s) {key : String} {item : Item P} {w : WireMessage} (hi : FineItem env m W key item w) (hm : item.msg = some w)
    (sch : Sched P) (mt : MsgType) :
    ∃ s', applyShare env sch item t key mt { s with cache := Map.set s.cache key item } = (s', .ok ()) ∧ Core env m W t s' ∧
      Grows s s' ∧ (∀ k, k ≠ key → Map.get s'.cache k = Map.get s.cache k) ∧
      (Dealt env s' key w ∨ Map.get s'.cache key = some item) ∧ s'.sent = s.sent ∧ s'.finished = s.finished ∧ s'.taskDone = s.taskDone := by
  obtain ⟨i, owner, h1, h2, h3, h4⟩ := hi.key
  have hhash : item.hash = env.hash w.message := by
    rcases hi.msg with h | h
    · rw [hm] at h; cases h
    · exact h.2
  unfold applyShare hashCheck
  simp only [hm, h1, hc.peers, h3]
  by_cases hl : (item.confirmed.length : Int) < t
  · rw [if_pos hl]
    refine ⟨_, rfl, ⟨?_, hc.idle, hc.crashed, hc.ids, hc.peers, hc.blame, ?_, ?_⟩, ⟨fun _ h => h, fun _ h => h⟩, ?_, Or.inr ?_, rfl, rfl, rfl⟩
    · exact flow_congr hc.flow rfl rfl rfl rfl rfl
    · intro k it hk
      dsimp only at hk
      rw [set_set, Map.get_set] at hk
      split at hk
      · rename_i hkk; cases hk; exact ⟨w, by rw [hkk]; exact hi⟩
      · exact hc.cache k it hk
    · intro k it hk hms
      dsimp only at hk
      rw [set_set, Map.get_set] at hk
      split at hk
      · cases hk; exact hl
      · exact hc.small k it hk hms
    · intro k hk
      dsimp only
      rw [set_set, Map.get_set_ne _ _ hk]
    · dsimp only
      rw [Map.get_set_self]
  · rw [if_neg hl, if_neg h4, getMsgHash_unanimous sch.f1 item t (env.hash w.message) hi.wf hi.votes hi.some_ (by omega)]
    simp only [hhash, if_true]
    obtain ⟨u1, u2, u3, u4, u5⟩ := updateLocal_fine hW hi.mem sch.ticks
      (s := { s with
        mgr := s.mgr.roundSet key w
        cache := Map.set (Map.set s.cache key item) key item })
      (flow_congr hc.flow rfl rfl rfl rfl rfl) hc.idle hc.ids hc.peers
    rcases hu : updateLocal env sch.ticks w { s with
        mgr := s.mgr.roundSet key w
        cache := Map.set (Map.set s.cache key item) key item } with ⟨s1, r⟩
    rw [hu] at u1 u2 u3 u4 u5
    dsimp only at u1 u2 u3 u4 u5
    subst u1
    have hcache : ∀ k, Map.get (Map.del s1.cache key) k = if k = key then none else Map.get s.cache k := by
      intro k
      rw [Map.get_del]
      split
      · rfl
      · rename_i hk
        rw [u3.cache]
        dsimp only
        rw [Map.get_set_ne _ _ hk, Map.get_set_ne _ _ hk]
    refine ⟨_, rfl, ⟨flow_congr u2 rfl rfl rfl rfl rfl, u4, u3.crashed.trans hc.crashed, u3.ids.trans hc.ids, u3.peers.trans hc.peers,
      u3.blame.trans hc.blame, ?_, ?_⟩, ⟨u3.log, ?_⟩, ?_, Or.inl ⟨u5.mono (fun _ h => h), w, ?_⟩, u3.sent, u3.finished, u3.taskDone⟩
    · intro k it hk
      dsimp only at hk
      rw [hcache] at hk
      split at hk
      · cases hk
      · exact hc.cache k it hk
    · intro k it hk hms
      dsimp only at hk
      rw [hcache] at hk
      split at hk
      · cases hk
      · exact hc.small k it hk hms
    · rintro k ⟨w', hw'⟩
      dsimp only
      rw [u3.stored]
      show ∃ w', Map.get (Map.set s.mgr.storedMsg key w) k = some w'
      rw [Map.get_set]
      split
      · exact ⟨_, rfl⟩
      · exact ⟨w', hw'⟩
    · intro k hk
      dsimp only
      rw [hcache, if_neg hk]
    · dsimp only
      rw [u3.stored]
      exact Map.get_set_self _ _ _

/-- a session is not disturbed by what is sent or asked -/
theorem core_congr {env : Env K P} {m : Manager K P} {W : WireMessage → Prop} {t : Int} {s s' : St K P} (h : Core env m W t s)
    (hj : s'.jobs = s.jobs) (hn : s'.nextJob = s.nextJob) (hl : s'.log = s.log) (ha : s'.mgr.acceptedShares = s.mgr.acceptedShares)
    (hc : s'.culprits = s.culprits) (hcr : s'.crashed = s.crashed) (hi : s'.mgr.partyIDMap = s.mgr.partyIDMap)
    (hp : s'.mgr.partyIDtoP2PID = s.mgr.partyIDtoP2PID) (hb : s'.mgr.blame = s.mgr.blame) (hca : s'.cache = s.cache) : Core env m W t s' :=
  ⟨flow_congr h.flow hj hn hl ha hc, hj.trans h.idle, hcr.trans h.crashed, hi.trans h.ids, hp.trans h.peers, hb.trans h.blame,
    by rw [hca]; exact h.cache, by rw [hca]; exact h.small⟩

/-- the cached message after an arrival -/
theorem arrived_fine {env : Env K P} {m : Manager K P} {W : WireMessage → Prop} (hW : WellMade env m W) {t : Int} {s : St K P}
    (hc : Core env m W t s) {w : WireMessage} (hw : W w) (hb : w.isBroadcast = true) {i : Nat} (hi : w.sender = some i) :
    FineItem env m W (cacheKey i w.roundInfo) (arrived env (Map.get s.cache (cacheKey i w.roundInfo)) w) w ∧
    (arrived env (Map.get s.cache (cacheKey i w.roundInfo)) w).msg = some w ∧
    env.localPeer ∈ Map.keys (arrived env (Map.get s.cache (cacheKey i w.roundInfo)) w).confirmed ∧
    ∀ it, Map.get s.cache (cacheKey i w.roundInfo) = some it → ∀ p ∈ Map.keys it.confirmed,
      p ∈ Map.keys (arrived env (Map.get s.cache (cacheKey i w.roundInfo)) w).confirmed := by
  obtain ⟨i', p, peer, bulk, hi', hp, hpe, hne, -⟩ := hW.made w hw
  rw [hi] at hi'; cases hi'
  rcases hg : Map.get s.cache (cacheKey i w.roundInfo) with _ | it
  · refine ⟨⟨Map.WF_set Map.WF_nil _ _, hw, hb, ⟨i, peer, hi, rfl, hpe, ?_⟩, ?_, set_ne_nil _ _ _, Or.inr ⟨rfl, rfl⟩⟩, rfl, ?_, by simp⟩
    · simp only [arrived, Map.mem_keys_set, Map.keys_nil, List.not_mem_nil, or_false]; exact hne
    · intro p d hd
      simp only [arrived] at hd
      rw [Map.get_set] at hd
      split at hd
      · cases hd; rfl
      · cases hd
    · simp only [arrived, Map.mem_keys_set]; exact Or.inl trivial
  · obtain ⟨w', hf⟩ := hc.cache _ it hg
    have hww : w' = w := by
      obtain ⟨j, o, k1, k2, -⟩ := hf.key
      obtain ⟨e1, e2⟩ := cacheKey_inj k2
      exact hW.once w' w hf.mem hw hf.bc hb (by rw [k1, hi, e1]) e2.symm
    subst hww
    obtain ⟨j, o, k1, k2, k3, k4⟩ := hf.key
    rw [hi] at k1; cases k1
    rw [hpe] at k3; cases k3
    have hmsg : (arrived env (some it) w').msg = some w' ∧ (arrived env (some it) w').hash = env.hash w'.message ∧
        (arrived env (some it) w').confirmed = Map.set it.confirmed env.localPeer (env.hash w'.message) := by
      simp only [arrived]
      rcases hf.msg with h | ⟨h1, h2⟩
      · rw [if_pos (by simp [h])]; exact ⟨rfl, rfl, rfl⟩
      · rw [if_neg (by simp [h1])]; exact ⟨h1, h2, rfl⟩
    obtain ⟨m1, m2, m3⟩ := hmsg
    refine ⟨⟨by rw [m3]; exact Map.WF_set hf.wf _ _, hw, hb, ⟨i, peer, hi, rfl, hpe, ?_⟩, ?_, by rw [m3]; exact set_ne_nil _ _ _,
      Or.inr ⟨m1, m2⟩⟩, m1, ?_, ?_⟩
    · rw [m3, Map.mem_keys_set, not_or]; exact ⟨hne, k4⟩
    · intro p d hd
      rw [m3, Map.get_set] at hd
      split at hd
      · cases hd; rfl
      · exact hf.votes p d hd
    · rw [m3, Map.mem_keys_set]; exact Or.inl rfl
    · intro it' hit p hp
      cases hit
      rw [m3, Map.mem_keys_set]; exact Or.inr hp

/-- the cached message after a confirmation -/
theorem confirmed_fine {env : Env K P} {m : Manager K P} {W : WireMessage → Prop} (hW : WellMade env m W) {t : Int} {s : St K P}
    (hc : Core env m W t s) {w : WireMessage} (hw : W w) (hb : w.isBroadcast = true) {i : Nat} (hi : w.sender = some i) {owner peer : P}
    (ho : Map.get m.partyIDtoP2PID i = some owner) (hne : peer ≠ owner) :
    FineItem env m W (cacheKey i w.roundInfo) (confirmedItem (Map.get s.cache (cacheKey i w.roundInfo)) peer (env.hash w.message)) w ∧
    peer ∈ Map.keys (confirmedItem (Map.get s.cache (cacheKey i w.roundInfo)) peer (env.hash w.message)).confirmed ∧
    ∀ it, Map.get s.cache (cacheKey i w.roundInfo) = some it →
      (confirmedItem (Map.get s.cache (cacheKey i w.roundInfo)) peer (env.hash w.message)).msg = it.msg ∧ ∀ p ∈ Map.keys it.confirmed,
      p ∈ Map.keys (confirmedItem (Map.get s.cache (cacheKey i w.roundInfo)) peer (env.hash w.message)).confirmed := by
  rcases hg : Map.get s.cache (cacheKey i w.roundInfo) with _ | it
  · refine ⟨⟨Map.WF_set Map.WF_nil _ _, hw, hb, ⟨i, owner, hi, rfl, ho, ?_⟩, ?_, set_ne_nil _ _ _, Or.inl rfl⟩, ?_, by simp⟩
    · simp only [confirmedItem, Map.mem_keys_set, Map.keys_nil, List.not_mem_nil, or_false]; exact fun h => hne h.symm
    · intro p d hd
      simp only [confirmedItem] at hd
      rw [Map.get_set] at hd
      split at hd
      · cases hd; rfl
      · cases hd
    · simp only [confirmedItem, Map.mem_keys_set]; exact Or.inl trivial
  · obtain ⟨w', hf⟩ := hc.cache _ it hg
    have hww : w' = w := by
      obtain ⟨j, o, k1, k2, -⟩ := hf.key
      obtain ⟨e1, e2⟩ := cacheKey_inj k2
      exact hW.once w' w hf.mem hw hf.bc hb (by rw [k1, hi, e1]) e2.symm
    subst hww
    obtain ⟨j, o, k1, k2, k3, k4⟩ := hf.key
    rw [hi] at k1; cases k1
    rw [ho] at k3; cases k3
    refine ⟨⟨Map.WF_set hf.wf _ _, hw, hb, ⟨i, owner, hi, rfl, ho, ?_⟩, ?_, set_ne_nil _ _ _, hf.msg⟩, ?_, ?_⟩
    · simp only [confirmedItem, Map.mem_keys_set, not_or]; exact ⟨fun h => hne h.symm, k4⟩
    · intro p d hd
      simp only [confirmedItem] at hd
      rw [Map.get_set] at hd
      split at hd
      · cases hd; rfl
      · exact hf.votes p d hd
    · simp only [confirmedItem, Map.mem_keys_set]; exact Or.inl trivial
    · intro it' hit
      cases hit
      refine ⟨rfl, fun p hp => ?_⟩
      simp only [confirmedItem, Map.mem_keys_set]; exact Or.inr hp

/-- what processing a message of the session leaves alone -/
structure Kept (s s' : St K P) : Prop where
  log : Grows s s'
  finished : s'.finished = s.finished
  taskDone : s'.taskDone = s.taskDone

theorem processTSSMsg_fine {env : Env K P} {m : Manager K P} {W : WireMessage → Prop} (hW : WellMade env m W) {t : Int}
    (ht : GetThreshold m.partyIDMap.length = .ok t) {s : St K P} (hc : Core env m W t s) {w : WireMessage} (hw : W w) {i : Nat}
    (hi : w.sender = some i) (sch : Sched P) (mt : MsgType) (fwd : Bool) :
    ∃ s', processTSSMsg env sch w mt fwd s = (s', .ok ()) ∧ Core env m W t s' ∧ Kept s s' ∧
      (w.isBroadcast = false → Handed env s' w ∧ s'.cache = s.cache ∧ s'.sent = s.sent) ∧
      (w.isBroadcast = true → (∀ k, k ≠ cacheKey i w.roundInfo → Map.get s'.cache k = Map.get s.cache k) ∧
        (Dealt env s' (cacheKey i w.roundInfo) w ∨ Map.get s'.cache (cacheKey i w.roundInfo) = some (arrived env (Map.get s.cache (cacheKey i w.roundInfo)) w)) ∧
        s'.sent = (if fwd then s else receiverBroadcastHash env i (cacheKey i w.roundInfo) (env.hash w.message) mt s).sent) := by
  obtain ⟨i', p, peer, bulk, hi', hp, hpe, hne, hv, -⟩ := hW.made w hw
  rw [hi] at hi'; cases hi'
  unfold processTSSMsg
  rw [if_neg (by simp [noSender_of_sender hi])]
  simp only [hi, hc.ids, hp]
  rw [if_neg (by simp [hv])]
  by_cases hb : w.isBroadcast = true
  · rw [if_neg (by simp [hb])]
    have key : Core env m W t (if fwd then s else receiverBroadcastHash env i (cacheKey i w.roundInfo) (env.hash w.message) mt s) ∧
        (if fwd then s else receiverBroadcastHash env i (cacheKey i w.roundInfo) (env.hash w.message) mt s).cache = s.cache ∧
        Kept s (if fwd then s else receiverBroadcastHash env i (cacheKey i w.roundInfo) (env.hash w.message) mt s) := by
      cases fwd
      · rw [if_neg (by simp)]
        unfold receiverBroadcastHash
        split
        · exact ⟨hc, rfl, ⟨fun _ h => h, fun _ h => h⟩, rfl, rfl⟩
        · dsimp only
          split
          · exact ⟨hc, rfl, ⟨fun _ h => h, fun _ h => h⟩, rfl, rfl⟩
          · exact ⟨core_congr hc rfl rfl rfl rfl rfl rfl rfl rfl rfl rfl, rfl, ⟨fun _ h => h, fun _ h => h⟩, rfl, rfl⟩
      · exact ⟨hc, rfl, ⟨fun _ h => h, fun _ h => h⟩, rfl, rfl⟩
    generalize (if fwd then s else receiverBroadcastHash env i (cacheKey i w.roundInfo) (env.hash w.message) mt s) = s1 at key
    obtain ⟨k1, k2, k3⟩ := key
    obtain ⟨a1, a2, -, -⟩ := arrived_fine hW k1 hw hb hi
    simp only [k1.ids, ht]
    obtain ⟨s', b1, b2, b3, b4, b5, b6, b7, b8⟩ := applyShare_fine hW k1 a1 a2 sch mt
    refine ⟨s', b1, b2, ⟨k3.log.trans b3, b7.trans k3.finished, b8.trans k3.taskDone⟩, fun h => by simp [hb] at h, fun _ => ?_⟩
    rw [k2] at b4 b5
    exact ⟨b4, b5, b6⟩
  · rw [if_pos (by simpa using hb)]
    obtain ⟨u1, u2, u3, u4, u5⟩ := updateLocal_fine hW hw sch.ticks hc.flow hc.idle hc.ids hc.peers
    rcases hu : updateLocal env sch.ticks w s with ⟨s1, r⟩
    rw [hu] at u1 u2 u3 u4 u5
    dsimp only at u1 u2 u3 u4 u5
    subst u1
    exact ⟨s1, rfl, ⟨u2, u4, u3.crashed.trans hc.crashed, u3.ids.trans hc.ids, u3.peers.trans hc.peers, u3.blame.trans hc.blame,
      by rw [u3.cache]; exact hc.cache, by rw [u3.cache]; exact hc.small⟩, ⟨⟨u3.log, by rw [u3.stored]; exact fun _ h => h⟩, u3.finished, u3.taskDone⟩, fun _ => ⟨u5, u3.cache, u3.sent⟩,
      fun h => absurd h hb⟩

theorem requestShare_core {env : Env K P} {m : Manager K P} {W : WireMessage → Prop} {t : Int} {s : St K P} (hc : Core env m W t s)
    (sch : Sched P) (item : Item P) (th : Int) (key : String) (mt : MsgType) :
    Core env m W t (requestShareFromPeer sch item th key mt s) ∧ (requestShareFromPeer sch item th key mt s).cache = s.cache ∧
    Kept s (requestShareFromPeer sch item th key mt s) ∧
    ((requestShareFromPeer sch item th key mt s).sent = s.sent ∨
      ∃ x c, (requestShareFromPeer sch item th key mt s).sent = s.sent ++ [x] ∧ x.payload = .control c ∧ c.msg = none) := by
  unfold requestShareFromPeer
  split
  · exact ⟨hc, rfl, ⟨⟨fun _ h => h, fun _ h => h⟩, rfl, rfl⟩, Or.inl rfl⟩
  · dsimp only
    unfold processRequestMsgFromPeer
    split
    · exact ⟨core_congr hc rfl rfl rfl rfl rfl rfl rfl rfl rfl rfl, rfl, ⟨⟨fun _ h => h, fun _ h => h⟩, rfl, rfl⟩, Or.inr ⟨_, _, rfl, rfl, rfl⟩⟩
    · split
      · exact ⟨core_congr hc rfl rfl rfl rfl rfl rfl rfl rfl rfl rfl, rfl, ⟨⟨fun _ h => h, fun _ h => h⟩, rfl, rfl⟩, Or.inr ⟨_, _, rfl, rfl, rfl⟩⟩
      · split
        · exact ⟨core_congr hc rfl rfl rfl rfl rfl rfl rfl rfl rfl rfl, rfl, ⟨⟨fun _ h => h, fun _ h => h⟩, rfl, rfl⟩, Or.inr ⟨_, _, rfl, rfl, rfl⟩⟩
        · exact ⟨core_congr hc rfl rfl rfl rfl rfl rfl rfl rfl rfl rfl, rfl, ⟨⟨fun _ h => h, fun _ h => h⟩, rfl, rfl⟩, Or.inl rfl⟩

theorem processVerMsg_fine {env : Env K P} {m : Manager K P} {W : WireMessage → Prop} (hW : WellMade env m W) {t : Int}
    (ht : GetThreshold m.partyIDMap.length = .ok t) {s : St K P} (hc : Core env m W t s) {w : WireMessage} (hw : W w)
    (hb : w.isBroadcast = true) {i : Nat} (hi : w.sender = some i) {owner peer : P} (ho : Map.get m.partyIDtoP2PID i = some owner)
    (hne : peer ≠ owner) (sch : Sched P) (b : ConfirmMsg P) (hp : b.p2pid = some peer) (hk : b.key = cacheKey i w.roundInfo)
    (hh : b.hash = env.hash w.message) (mt : MsgType) :
    ∃ s', processVerMsg env sch b mt s = (s', .ok ()) ∧ Core env m W t s' ∧ Kept s s' ∧
      (∀ k, k ≠ cacheKey i w.roundInfo → Map.get s'.cache k = Map.get s.cache k) ∧
      (Dealt env s' (cacheKey i w.roundInfo) w ∨ Map.get s'.cache (cacheKey i w.roundInfo) =
        some (confirmedItem (Map.get s.cache (cacheKey i w.roundInfo)) peer (env.hash w.message))) ∧
      (s'.sent = s.sent ∨ ∃ x c, s'.sent = s.sent ++ [x] ∧ x.payload = .control c ∧ c.msg = none) := by
  obtain ⟨c1, c2, c3⟩ := confirmed_fine hW hc hw hb hi ho hne
  unfold processVerMsg
  simp only [hp, hc.ids, ht, hk, hh]
  generalize confirmedItem (Map.get s.cache (cacheKey i w.roundInfo)) peer (env.hash w.message) = item at c1 c2 c3
  rcases hm : item.msg with _ | w'
  · have hcore : Core env m W t { s with cache := Map.set s.cache (cacheKey i w.roundInfo) item } := by
      refine ⟨flow_congr hc.flow rfl rfl rfl rfl rfl, hc.idle, hc.crashed, hc.ids, hc.peers, hc.blame, ?_, ?_⟩
      · intro k it hg
        dsimp only at hg
        rw [Map.get_set] at hg
        split at hg
        · rename_i hkk; cases hg; exact ⟨w, by rw [hkk]; exact c1⟩
        · exact hc.cache k it hg
      · intro k it hg hms
        dsimp only at hg
        rw [Map.get_set] at hg
        split at hg
        · cases hg; exact absurd hm hms
        · exact hc.small k it hg hms
    obtain ⟨r1, r2, r3, r4⟩ := requestShare_core hcore sch item t (cacheKey i w.roundInfo) mt
    rw [if_pos (by simp)]
    refine ⟨_, rfl, r1, ⟨⟨r3.log.log, r3.log.stored⟩, r3.finished, r3.taskDone⟩, ?_, Or.inr ?_, r4⟩
    · intro k hkk
      rw [r2, Map.get_set_ne _ _ hkk]
    · rw [r2, Map.get_set_self]
  · rw [if_neg (by simp)]
    have hww : w' = w := by
      rcases c1.msg with h | h
      · rw [hm] at h; cases h
      · rw [hm] at h; cases h.1; rfl
    subst hww
    obtain ⟨s', b1, b2, b3, b4, b5, b6, b7, b8⟩ := applyShare_fine hW hc c1 hm sch mt
    exact ⟨s', b1, b2, ⟨b3, b7, b8⟩, b4, b5, Or.inl b6⟩

/-- the event is one of a session in which everybody behaves: all wire messages it carries are messages of the session, and it confirms
only such a message, by somebody who does not own it -/
structure Behaves (env : Env K P) (m : Manager K P) (W : WireMessage → Prop) (e : Event P) : Prop where
  carries : ∀ w, Carries env e w → W w
  confirms : ∀ p key d, Confirms env e p key d → ∃ w i owner, W w ∧ w.isBroadcast = true ∧ w.sender = some i ∧
    key = cacheKey i w.roundInfo ∧ d = env.hash w.message ∧ Map.get m.partyIDtoP2PID i = some owner ∧ p ≠ owner

/-- the broadcast message `w` is under way: handed over, or everything that arrived for it is cached -/
def Prog (env : Env K P) (h : List (Event P)) (s : St K P) (key : String) (w : WireMessage) : Prop :=
  Dealt env s key w ∨
    ((∀ p d, (∃ e ∈ h, Confirms env e p key d) → ∃ item, Map.get s.cache key = some item ∧ p ∈ Map.keys item.confirmed) ∧
     ((∃ e ∈ h, ∃ mt, Delivers env e mt w) → ∃ item, Map.get s.cache key = some item ∧ item.msg = some w ∧
       env.localPeer ∈ Map.keys item.confirmed))

/-- an event makes a node send at most one message: a confirmation of what was delivered, a request after a confirmation, or the answer to a
request -/
def Puts (env : Env K P) (e : Event P) (s s' : St K P) : Prop :=
  s'.sent = s.sent ∨ ∃ x, s'.sent = s.sent ++ [x] ∧
    (((∃ mt w, Delivers env e mt w) ∧ ∃ t key d, x.payload = .confirm t key d ∧ (t = TSSKeyGenVerMsg ∨ t = TSSKeySignVerMsg) ∧
        x.peers.Sublist env.p2pPeers) ∨
     ((∃ p key d, Confirms env e p key d) ∧ ∃ c, x.payload = .control c ∧ c.msg = none) ∨
     ((∃ p c, Requests env e p c) ∧ ∃ c, x.payload = .control c ∧ c.msg ≠ none ∧ x.peers.length = 1))

/-- the effect of an event -/
structure StepFine (env : Env K P) (m : Manager K P) (W : WireMessage → Prop) (t : Int) (h : List (Event P)) (e : Event P) (s s' : St K P) :
    Prop where
  core : Core env m W t s'
  log : Grows s s'
  prog : ∀ w i, W w → w.isBroadcast = true → w.sender = some i → Prog env h s (cacheKey i w.roundInfo) w →
    Prog env (h ++ [e]) s' (cacheKey i w.roundInfo) w
  uni : ∀ w mt, W w → w.isBroadcast = false → Delivers env e mt w → Handed env s' w
  sent : ∀ w mt i owner, W w → w.isBroadcast = true → w.sender = some i → Delivers env e mt w → Map.get m.partyIDtoP2PID i = some owner →
    env.p2pPeers.filter (fun el => el ≠ owner) ≠ [] →
    s'.sent = s.sent ++ [⟨.confirm (getBroadcastMessageType mt) (cacheKey i w.roundInfo) (env.hash w.message),
      env.p2pPeers.filter (fun el => el ≠ owner)⟩]
  puts : Puts env e s s'

/-- an event which neither carries nor confirms anything -/
theorem stepFine_other {env : Env K P} {m : Manager K P} {W : WireMessage → Prop} {t : Int} {h : List (Event P)} {e : Event P} {s s' : St K P}
    (hcore : Core env m W t s') (hl : Grows s s') (hcache : s'.cache = s.cache) (hd : ∀ mt w, ¬ Delivers env e mt w)
    (hc : ∀ p key d, ¬ Confirms env e p key d) (hput : Puts env e s s') : StepFine env m W t h e s s' := by
  refine ⟨hcore, hl, ?_, fun w mt _ _ h => absurd h (hd mt w), fun w mt i owner _ _ _ h => absurd h (hd mt w), hput⟩
  intro w i hw hb hi hp
  rcases hp with hp | ⟨h1, h2⟩
  · exact Or.inl (hp.mono hl)
  · rw [Prog, hcache]
    refine Or.inr ⟨?_, ?_⟩
    · rintro p d ⟨e', he', hcf⟩
      rcases List.mem_append.1 he' with he' | he'
      · exact h1 p d ⟨e', he', hcf⟩
      · obtain rfl := List.mem_singleton.1 he'; exact absurd hcf (hc _ _ _)
    · rintro ⟨e', he', mt, hdl⟩
      rcases List.mem_append.1 he' with he' | he'
      · exact h2 ⟨e', he', mt, hdl⟩
      · obtain rfl := List.mem_singleton.1 he'; exact absurd hdl (hd _ _)

/-- progress of the other messages -/
theorem prog_other {env : Env K P} {h : List (Event P)} {e : Event P} {s s' : St K P} {key : String} {w : WireMessage}
    (hp : Prog env h s key w) (hl : Grows s s') (hcache : Map.get s'.cache key = Map.get s.cache key)
    (hd : ∀ mt, ¬ Delivers env e mt w) (hc : ∀ p d, ¬ Confirms env e p key d) : Prog env (h ++ [e]) s' key w := by
  rcases hp with hp | ⟨h1, h2⟩
  · exact Or.inl (hp.mono hl)
  · refine Or.inr ⟨?_, ?_⟩
    · rintro p d ⟨e', he', hcf⟩
      rw [hcache]
      rcases List.mem_append.1 he' with he' | he'
      · exact h1 p d ⟨e', he', hcf⟩
      · obtain rfl := List.mem_singleton.1 he'; exact absurd hcf (hc _ _)
    · rintro ⟨e', he', mt, hdl⟩
      rw [hcache]
      rcases List.mem_append.1 he' with he' | he'
      · exact h2 ⟨e', he', mt, hdl⟩
      · obtain rfl := List.mem_singleton.1 he'; exact absurd hdl (hd _)

/-- arrival of a wire message, directly or as an answer -/
theorem step_arrival {env : Env K P} {m : Manager K P} {W : WireMessage → Prop} (hW : WellMade env m W) {t : Int}
    (ht : GetThreshold m.partyIDMap.length = .ok t) {s : St K P} (hc : Core env m W t s) {w : WireMessage} (hw : W w)
    (h : List (Event P)) (e : Event P) (sch : Sched P) (mt : MsgType) (fwd : Bool)
    (hdel : ∀ mt' w', Delivers env e mt' w' ↔ (fwd = false ∧ mt' = mt ∧ w' = w)) (hcf : ∀ p key d, ¬ Confirms env e p key d) :
    ∃ s', processTSSMsg env sch w mt fwd s = (s', .ok ()) ∧ StepFine env m W t h e s s' := by
  obtain ⟨i, p, peer, bulk, hi, -⟩ := hW.made w hw
  obtain ⟨s', a1, a2, a3, a4, a5⟩ := processTSSMsg_fine hW ht hc hw hi sch mt fwd
  refine ⟨s', a1, a2, a3.log, ?_, ?_, ?_, ?_⟩
  · intro w0 j hw0 hb0 hj hp
    by_cases hb : w.isBroadcast = true
    · obtain ⟨b1, b2, -⟩ := a5 hb
      by_cases hk : cacheKey j w0.roundInfo = cacheKey i w.roundInfo
      · have hww : w0 = w := by
          obtain ⟨e1, e2⟩ := cacheKey_inj hk
          exact hW.once w0 w hw0 hw hb0 hb (by rw [hj, hi, e1]) e2
        subst hww
        rw [hi] at hj; cases hj
        rcases b2 with b2 | b2
        · exact Or.inl b2
        · obtain ⟨-, c2, c3, c4⟩ := arrived_fine hW hc hw hb hi
          rcases hp with hp | ⟨h1, -⟩
          · exact Or.inl (hp.mono a3.log)
          · refine Or.inr ⟨?_, fun _ => ⟨_, b2, c2, c3⟩⟩
            rintro p d ⟨e', he', hcf'⟩
            rcases List.mem_append.1 he' with he' | he'
            · obtain ⟨it, g1, g2⟩ := h1 p d ⟨e', he', hcf'⟩
              exact ⟨_, b2, c4 it g1 p g2⟩
            · obtain rfl := List.mem_singleton.1 he'; exact absurd hcf' (hcf _ _ _)
      · refine prog_other hp a3.log (b1 _ hk) ?_ (fun p d => hcf _ _ _)
        intro mt' hd
        obtain ⟨-, -, rfl⟩ := (hdel _ _).1 hd
        rw [hi] at hj; cases hj
        exact hk rfl
    · obtain ⟨-, b2, -⟩ := a4 (by simpa using hb)
      refine prog_other hp a3.log (by rw [b2]) ?_ (fun p d => hcf _ _ _)
      intro mt' hd
      obtain ⟨-, -, rfl⟩ := (hdel _ _).1 hd
      exact hb hb0
  · intro w0 mt' hw0 hb0 hd
    obtain ⟨-, -, rfl⟩ := (hdel _ _).1 hd
    exact (a4 hb0).1
  · intro w0 mt' j owner hw0 hb0 hj hd ho hne
    obtain ⟨rfl, rfl, rfl⟩ := (hdel _ _).1 hd
    rw [hi] at hj; cases hj
    rw [(a5 hb0).2.2, if_neg (by simp)]
    unfold receiverBroadcastHash
    simp only [hc.peers, ho]
    rw [if_neg (by simpa using hne)]
  · by_cases hb : w.isBroadcast = true
    · rw [Puts, (a5 hb).2.2]
      cases hfwd : fwd
      · rw [if_neg (by simp)]
        unfold receiverBroadcastHash
        rcases Map.get s.mgr.partyIDtoP2PID i with _ | owner
        · exact Or.inl rfl
        · dsimp only
          split
          · exact Or.inl rfl
          · refine Or.inr ⟨_, rfl, Or.inl ⟨⟨mt, w, (hdel mt w).2 ⟨hfwd, rfl, rfl⟩⟩, _, _, _, rfl, ?_, List.filter_sublist⟩⟩
            obtain ⟨_, _, _, _, _, _, hmt, _⟩ := (hdel mt w).2 ⟨hfwd, rfl, rfl⟩
            rcases hmt with rfl | rfl
            · exact Or.inl (by decide)
            · exact Or.inr (by decide)
      · exact Or.inl rfl
    · exact Or.inl (a4 (by simpa using hb)).2.2

theorem step_fine {env : Env K P} {m : Manager K P} {W : WireMessage → Prop} (hW : WellMade env m W) {t : Int}
    (ht : GetThreshold m.partyIDMap.length = .ok t) {s : St K P} (hc : Core env m W t s)
    (hdone : DoneInv m.partyIDMap.length s) (h : List (Event P)) (e : Event P) (hb : Behaves env m W e) :
    StepFine env m W t h e s (step env s e) := by
  cases e with
  | work j =>
    have hs : step env s (.work j) = s := by
      unfold step
      rw [if_neg (by simp [hc.crashed])]
      exact stepJob_none (by rw [hc.idle]; rfl)
    rw [hs]
    refine stepFine_other hc ⟨fun _ h => h, fun _ h => h⟩ rfl ?_ ?_ (Or.inl rfl)
    · rintro mt w ⟨raw, p, sch, pl, he, -⟩; cases he
    · rintro p key d ⟨raw, sch, t, pl, he, -⟩; cases he
  | msg raw p sch =>
    have hstep : step env s (.msg raw p sch) = match env.decWrapped raw with
        | none => s
        | some (type, payload) =>
          match ProcessOneMessage env sch type payload p s with
          | (s', .panic) => { s' with crashed := true }
          | (s', _) => s' := by
      unfold step
      rw [if_neg (by simp [hc.crashed])]
      dsimp only
      rcases env.decWrapped raw with _ | ⟨type, payload⟩
      · rfl
      · dsimp only
        rcases ProcessOneMessage env sch type payload p s with ⟨s1, r⟩
        cases r <;> rfl
    rw [hstep]
    rcases hraw : env.decWrapped raw with _ | ⟨type, pl⟩
    · refine stepFine_other hc ⟨fun _ h => h, fun _ h => h⟩ rfl ?_ ?_ (Or.inl rfl)
      · rintro mt w ⟨raw', p', sch', pl', he, hr, -⟩; cases he; rw [hraw] at hr; cases hr
      · rintro p' key d ⟨raw', sch', t', pl', he, hr, -⟩; cases he; rw [hraw] at hr; cases hr
    · dsimp only
      -- which readings the event has
      have hdel : ∀ mt w, Delivers env (.msg raw p sch) mt w ↔ ((mt = TSSKeyGenMsg ∨ mt = TSSKeySignMsg) ∧ mt = type ∧ env.decWire pl = some w) := by
        intro mt w
        constructor
        · rintro ⟨raw', p', sch', pl', he, hr, h1, h2⟩
          cases he; rw [hraw] at hr; cases hr
          exact ⟨h1, rfl, h2⟩
        · rintro ⟨h1, rfl, h2⟩
          exact ⟨raw, p, sch, pl, rfl, hraw, h1, h2⟩
      have hcon : ∀ p' key d, Confirms env (.msg raw p sch) p' key d ↔ (p' = p ∧ (type = TSSKeyGenVerMsg ∨ type = TSSKeySignVerMsg) ∧
          ∃ b, env.decConfirm pl = some b ∧ b.key = key ∧ b.hash = d) := by
        intro p' key d
        constructor
        · rintro ⟨raw', sch', t', pl', he, hr, h1, h2⟩
          cases he; rw [hraw] at hr; cases hr
          exact ⟨rfl, h1, h2⟩
        · rintro ⟨rfl, h1, h2⟩
          exact ⟨raw, sch, type, pl, rfl, hraw, h1, h2⟩
      unfold ProcessOneMessage
      by_cases h1 : type = TSSKeyGenMsg ∨ type = TSSKeySignMsg
      · have hv : ¬ (type = TSSKeyGenVerMsg ∨ type = TSSKeySignVerMsg) := by
          rcases h1 with rfl | rfl <;> decide
        rw [if_pos h1]
        rcases hwire : env.decWire pl with _ | w
        · dsimp only
          refine stepFine_other hc ⟨fun _ h => h, fun _ h => h⟩ rfl ?_ ?_ (Or.inl rfl)
          · intro mt w hd
            have := ((hdel mt w).1 hd).2.2
            rw [hwire] at this; cases this
          · intro p' key d hcf
            exact hv ((hcon p' key d).1 hcf).2.1
        · dsimp only
          have hw : W w := hb.carries w ⟨raw, p, sch, type, pl, rfl, hraw, Or.inl ⟨h1, hwire⟩⟩
          obtain ⟨s', a1, a2⟩ := step_arrival hW ht hc hw h (.msg raw p sch) sch type false (by
            intro mt' w'
            rw [hdel, hwire]
            constructor
            · rintro ⟨-, rfl, h3⟩; cases h3; exact ⟨rfl, rfl, rfl⟩
            · rintro ⟨-, rfl, rfl⟩; exact ⟨h1, rfl, rfl⟩)
            (fun p' key d hcf => hv ((hcon p' key d).1 hcf).2.1)
          rw [a1]
          exact a2
      · have hnd : ∀ mt w, ¬ Delivers env (.msg raw p sch) mt w := by
          intro mt w hd
          obtain ⟨h2, rfl, -⟩ := (hdel mt w).1 hd
          exact h1 h2
        rw [if_neg h1]
        by_cases h2 : type = TSSKeyGenVerMsg ∨ type = TSSKeySignVerMsg
        · rw [if_pos h2]
          rcases hd : env.decConfirm pl with _ | b
          · dsimp only
            refine stepFine_other hc ⟨fun _ h => h, fun _ h => h⟩ rfl hnd ?_ (Or.inl rfl)
            intro p' key d hcf
            obtain ⟨b, hb', -⟩ := ((hcon p' key d).1 hcf).2.2
            rw [hd] at hb'; cases hb'
          · dsimp only
            obtain ⟨w, i, owner, c1, c2, c3, c4, c5, c6, c7⟩ := hb.confirms p b.key b.hash ((hcon _ _ _).2 ⟨rfl, h2, b, hd, rfl, rfl⟩)
            have hcf' : ∀ p' key d, Confirms env (.msg raw p sch) p' key d → p' = p ∧ key = cacheKey i w.roundInfo := by
              intro p' key d hcf
              obtain ⟨rfl, -, b', hb', rfl, rfl⟩ := (hcon p' key d).1 hcf
              rw [hd] at hb'; cases hb'
              exact ⟨rfl, c4⟩
            rcases hdup : checkDup s b p with _ | b'
            · dsimp only
              have hin : ∃ it, Map.get s.cache (cacheKey i w.roundInfo) = some it ∧ p ∈ Map.keys it.confirmed := by
                unfold checkDup at hdup
                rw [c4] at hdup
                rcases hg : Map.get s.cache (cacheKey i w.roundInfo) with _ | it
                · rw [hg] at hdup; cases hdup
                · rw [hg] at hdup
                  dsimp only at hdup
                  split at hdup
                  · rename_i hmem; exact ⟨it, rfl, hmem⟩
                  · cases hdup
              refine ⟨hc, ⟨fun _ h => h, fun _ h => h⟩, ?_, fun w mt _ _ h => absurd h (hnd mt w), fun w mt i owner _ _ _ h => absurd h (hnd mt w), Or.inl rfl⟩
              intro w0 j hw0 hb0 hj hp
              rcases hp with hp | ⟨g1, g2⟩
              · exact Or.inl hp
              · refine Or.inr ⟨?_, ?_⟩
                · rintro p' d ⟨e', he', hcf⟩
                  rcases List.mem_append.1 he' with he' | he'
                  · exact g1 p' d ⟨e', he', hcf⟩
                  · obtain rfl := List.mem_singleton.1 he'
                    obtain ⟨rfl, hk⟩ := hcf' _ _ _ hcf
                    rw [hk]; exact hin
                · rintro ⟨e', he', mt, hdl⟩
                  rcases List.mem_append.1 he' with he' | he'
                  · exact g2 ⟨e', he', mt, hdl⟩
                  · obtain rfl := List.mem_singleton.1 he'; exact absurd hdl (hnd _ _)
            · obtain ⟨rfl, hn⟩ := checkDup_some hdup
              dsimp only
              obtain ⟨s', a1, a2, a3, a4, a5, a6⟩ := processVerMsg_fine hW ht hc c1 c2 c3 c6 c7 sch { b with p2pid := some p } rfl c4 c5 type
              rw [a1]
              dsimp only
              refine ⟨a2, a3.log, ?_, fun w mt _ _ h => absurd h (hnd mt w), fun w mt i owner _ _ _ h => absurd h (hnd mt w), ?_⟩
              swap
              · rcases a6 with a6 | ⟨x, c, x1, x2, x3⟩
                · exact Or.inl a6
                · exact Or.inr ⟨x, x1, Or.inr (Or.inl ⟨⟨p, b.key, b.hash, (hcon _ _ _).2 ⟨rfl, h2, b, hd, rfl, rfl⟩⟩, c, x2, x3⟩)⟩
              intro w0 j hw0 hb0 hj hp
              by_cases hk : cacheKey j w0.roundInfo = cacheKey i w.roundInfo
              · have hww : w0 = w := by
                  obtain ⟨e1, e2⟩ := cacheKey_inj hk
                  exact hW.once w0 w hw0 c1 hb0 c2 (by rw [hj, c3, e1]) e2
                subst hww
                rw [c3] at hj; cases hj
                rcases a5 with a5 | a5
                · exact Or.inl a5
                · obtain ⟨-, d2, d3⟩ := confirmed_fine hW hc c1 c2 c3 c6 c7
                  rcases hp with hp | ⟨g1, g2⟩
                  · exact Or.inl (hp.mono a3.log)
                  · refine Or.inr ⟨?_, ?_⟩
                    · rintro p' d ⟨e', he', hcf⟩
                      rcases List.mem_append.1 he' with he' | he'
                      · obtain ⟨it, f1, f2⟩ := g1 p' d ⟨e', he', hcf⟩
                        exact ⟨_, a5, (d3 it f1).2 p' f2⟩
                      · obtain rfl := List.mem_singleton.1 he'
                        obtain ⟨rfl, -⟩ := hcf' _ _ _ hcf
                        exact ⟨_, a5, d2⟩
                    · rintro ⟨e', he', mt, hdl⟩
                      rcases List.mem_append.1 he' with he' | he'
                      · obtain ⟨it, f1, f2, f3⟩ := g2 ⟨e', he', mt, hdl⟩
                        exact ⟨_, a5, (d3 it f1).1.trans f2, (d3 it f1).2 _ f3⟩
                      · obtain rfl := List.mem_singleton.1 he'; exact absurd hdl (hnd _ _)
              · refine prog_other hp a3.log (a4 _ hk) (fun mt => hnd mt _) ?_
                intro p' d hcf
                exact hk (hcf' _ _ _ hcf).2
        · have hnc : ∀ p' key d, ¬ Confirms env (.msg raw p sch) p' key d := fun p' key d hcf => h2 ((hcon p' key d).1 hcf).2.1
          rw [if_neg h2]
          by_cases h3 : type = TSSTaskDone
          · rw [if_pos h3]
            rcases htask : env.decTask pl with _ | b
            · exact stepFine_other hc ⟨fun _ h => h, fun _ h => h⟩ rfl hnd hnc (Or.inl rfl)
            · cases b with
              | false => exact stepFine_other hc ⟨fun _ h => h, fun _ h => h⟩ rfl hnd hnc (Or.inl rfl)
              | true =>
                dsimp only
                unfold processTaskDone
                by_cases hf : p ∈ s.finished
                · rw [if_pos hf]
                  exact stepFine_other hc ⟨fun _ h => h, fun _ h => h⟩ rfl hnd hnc (Or.inl rfl)
                · rw [if_neg hf]
                  dsimp only
                  by_cases hl : (((s.finished ++ [p]).length : Nat) : Int) = (s.mgr.partyIDMap.length : Int) - 1
                  · rw [if_pos hl]
                    by_cases htd : s.taskDone = true
                    · exfalso
                      have := hdone.closed htd
                      rw [hc.ids] at hl
                      simp at hl
                      omega
                    · rw [if_neg htd]
                      exact stepFine_other (core_congr hc rfl rfl rfl rfl rfl rfl rfl rfl rfl rfl) ⟨fun _ h => h, fun _ h => h⟩ rfl hnd hnc (Or.inl rfl)
                  · rw [if_neg hl]
                    exact stepFine_other (core_congr hc rfl rfl rfl rfl rfl rfl rfl rfl rfl rfl) ⟨fun _ h => h, fun _ h => h⟩ rfl hnd hnc (Or.inl rfl)
          · rw [if_neg h3]
            by_cases h4 : type = TSSControlMsg
            · rw [if_pos h4]
              rcases hctl : env.decControl pl with _ | c
              · exact stepFine_other hc ⟨fun _ h => h, fun _ h => h⟩ rfl hnd hnc (Or.inl rfl)
              · dsimp only
                rcases hm : c.msg with _ | w
                · dsimp only
                  simp only [processRequestMsgFromPeer, Bool.false_eq_true, if_false]
                  rcases s.mgr.roundGet c.reqKey with _ | w
                  · exact stepFine_other hc ⟨fun _ h => h, fun _ h => h⟩ rfl hnd hnc (Or.inl rfl)
                  · refine stepFine_other (core_congr hc rfl rfl rfl rfl rfl rfl rfl rfl rfl rfl) ⟨fun _ h => h, fun _ h => h⟩ rfl hnd hnc
                      (Or.inr ⟨_, rfl, Or.inr (Or.inr ⟨⟨p, c, raw, sch, pl, rfl, ?_, hctl, hm⟩, _, rfl, by simp, rfl⟩)⟩)
                    rw [hraw, h4]
                · dsimp only
                  have hw : W w := hb.carries w ⟨raw, p, sch, type, pl, rfl, hraw, Or.inr ⟨h4, c, hctl, hm⟩⟩
                  have hcore : Core env m W t { s with mgr := (s.mgr.queryAndDelete c.reqHash).1 } :=
                    core_congr hc rfl rfl rfl rfl rfl rfl rfl rfl rfl rfl
                  by_cases hex : (s.mgr.queryAndDelete c.reqHash).2 = true
                  · rw [if_pos hex]
                    obtain ⟨s', a1, a2⟩ := step_arrival hW ht hcore hw h (.msg raw p sch) sch c.requestType true (by
                      intro mt' w'
                      constructor
                      · intro hd; exact absurd hd (hnd _ _)
                      · rintro ⟨h5, -⟩; cases h5) hnc
                    rw [a1]
                    dsimp only
                    exact ⟨a2.core, ⟨a2.log.log, a2.log.stored⟩,
                      fun w i hw hb hi hp => a2.prog w i hw hb hi (hp.imp (fun d => ⟨d.handed, d.stored⟩) id), a2.uni, a2.sent, a2.puts⟩
                  · rw [if_neg hex]
                    exact stepFine_other hcore ⟨fun _ h => h, fun _ h => h⟩ rfl hnd hnc (Or.inl rfl)
            · rw [if_neg h4]
              exact stepFine_other hc ⟨fun _ h => h, fun _ h => h⟩ rfl hnd hnc (Or.inl rfl)

theorem core_init {env : Env K P} {m : Manager K P} {W : WireMessage → Prop} {t : Int} (hm : m.acceptedShares = []) :
    Core env m W t (newTssCommon m) := by
  refine ⟨⟨by simp [newTssCommon], by simp [newTssCommon], by simp [newTssCommon], by simp [newTssCommon], by simp [newTssCommon], ?_, rfl⟩,
    rfl, rfl, rfl, rfl, rfl, by simp [newTssCommon], by simp [newTssCommon]⟩
  intro r i hr
  simp [newTssCommon, Manager.checkMsgDuplication, hm] at hr

/-- a whole session in which everybody behaves -/
structure RunFine (env : Env K P) (m : Manager K P) (W : WireMessage → Prop) (t : Int) (h : List (Event P)) (s : St K P) : Prop where
  core : Core env m W t s
  prog : ∀ w i, W w → w.isBroadcast = true → w.sender = some i → Prog env h s (cacheKey i w.roundInfo) w
  uni : ∀ w mt, W w → w.isBroadcast = false → (∃ e ∈ h, Delivers env e mt w) → Handed env s w

theorem run_fine {env : Env K P} {m : Manager K P} {W : WireMessage → Prop} (hW : WellMade env m W) {t : Int}
    (ht : GetThreshold m.partyIDMap.length = .ok t) (hm : m.acceptedShares = []) (h : List (Event P)) (hb : ∀ e ∈ h, Behaves env m W e) :
    RunFine env m W t h (run env (newTssCommon m) h) := by
  induction h using List.reverseRecOn with
  | nil =>
    refine ⟨core_init hm, fun w i _ _ _ => Or.inr ⟨?_, ?_⟩, ?_⟩
    · rintro p d ⟨e, he, -⟩; cases he
    · rintro ⟨e, he, -⟩; cases he
    · rintro w mt - - ⟨e, he, -⟩; cases he
  | append_singleton h e ih =>
    have ih := ih (fun e' he' => hb e' (by simp [he']))
    rw [run_snoc]
    have hs := step_fine hW ht ih.core (doneInv_run env m h) h e (hb e (by simp))
    refine ⟨hs.core, fun w i hw hbc hi => hs.prog w i hw hbc hi (ih.prog w i hw hbc hi), ?_⟩
    rintro w mt hw hbc ⟨e', he', hd⟩
    rcases List.mem_append.1 he' with he' | he'
    · exact (ih.uni w mt hw hbc ⟨e', he', hd⟩).mono hs.log.log
    · obtain rfl := List.mem_singleton.1 he'
      exact hs.uni w mt hw hbc hd

/-- when the message and enough confirmations have arrived, it is dealt with -/
theorem dealt_of_enough {env : Env K P} {m : Manager K P} {W : WireMessage → Prop} {t : Int} {h : List (Event P)} {s : St K P}
    (hf : RunFine env m W t h s) {w : WireMessage} (hw : W w) (hb : w.isBroadcast = true) {i : Nat} (hi : w.sender = some i)
    (hd : ∃ e ∈ h, ∃ mt, Delivers env e mt w) (C : List P) (hn : C.Nodup) (hC : t ≤ (C.length : Int))
    (hall : ∀ p ∈ C, p = env.localPeer ∨ ∃ e ∈ h, ∃ d, Confirms env e p (cacheKey i w.roundInfo) d) :
    Dealt env s (cacheKey i w.roundInfo) w := by
  rcases hf.prog w i hw hb hi with hp | ⟨h1, h2⟩
  · exact hp
  · exfalso
    obtain ⟨item, g1, g2, g3⟩ := h2 hd
    have hsmall := hf.core.small _ item g1 (by rw [g2]; simp)
    have hsub : ∀ p ∈ C, p ∈ Map.keys item.confirmed := by
      intro p hp
      rcases hall p hp with rfl | ⟨e, he, d, hc⟩
      · exact g3
      · obtain ⟨it, k1, k2⟩ := h1 p d ⟨e, he, hc⟩
        rw [g1] at k1; cases k1
        exact k2
    have hlen := (List.subperm_of_subset hn hsub).length_le
    have hkl : (Map.keys item.confirmed).length = item.confirmed.length := by simp [Map.keys]
    omega

end Verif.TssCommon
