import Verif.Lemmas.TssCommon
import Verif.Lemmas.CacheKey

/-! Invariants of a session. -/
set_option linter.unusedSectionVars false
namespace Verif.TssCommon
open Verif.Go Verif.Conversion Verif.Messages Verif.Blame Verif.Threshold Verif.Spec Relation

variable {K P : Type} [DecidableEq K] [DecidableEq P]

theorem _root_.Verif.Spec.Voted.mono {env : Env K P} {c : Map Nat Party} {h : List (Event P)} {p : P} {key d : String} (e : Event P)
    (hv : Voted env c h p key d) : Voted env c (h ++ [e]) p key d := by
  rcases hv with ⟨e', he, hc⟩ | ⟨hp, e', he, hw⟩
  · exact Or.inl ⟨e', by simp [he], hc⟩
  · exact Or.inr ⟨hp, e', by simp [he], hw⟩

theorem _root_.Verif.Spec.Quorum.mono {env : Env K P} {m : Manager K P} {h : List (Event P)} {w : WireMessage} (e : Event P)
    (hq : Quorum env m h w) : Quorum env m (h ++ [e]) w := by
  obtain ⟨votes, owner, peer, t, h1, h2, h3, h4, h5, h6, h7, h8⟩ := hq
  exact ⟨votes, owner, peer, t, h1, h2, h3, h4, h5, h6, fun p d hpd => (h7 p d hpd).mono e, h8⟩

/-- what is known of a wire message from which shares are applied -/
structure Just (env : Env K P) (m : Manager K P) (h : List (Event P)) (w : WireMessage) : Prop where
  carried : ∃ e ∈ h, Carries env e w
  signed : Signed env m.partyIDMap w
  quorum : w.isBroadcast = true → Quorum env m h w

theorem Just.mono {env : Env K P} {m : Manager K P} {h : List (Event P)} {w : WireMessage} (e : Event P)
    (hq : Just env m h w) : Just env m (h ++ [e]) w := by
  obtain ⟨⟨e', he, hc⟩, h2, h3⟩ := hq
  exact ⟨⟨e', by simp [he], hc⟩, h2, fun hb => (h3 hb).mono e⟩

/-- what is known of a cached broadcast message -/
structure GoodItem (env : Env K P) (m : Manager K P) (h : List (Event P)) (key : String) (item : Item P) : Prop where
  wf : Map.WF item.confirmed
  votes : ∀ p d, Map.get item.confirmed p = some d → Voted env m.partyIDMap h p key d
  msg : ∀ w, item.msg = some w → (∃ e ∈ h, Carries env e w) ∧ Signed env m.partyIDMap w ∧ w.isBroadcast = true ∧
    (∃ i, w.sender = some i ∧ key = cacheKey i w.roundInfo) ∧ item.hash = env.hash w.message

theorem GoodItem.mono {env : Env K P} {m : Manager K P} {h : List (Event P)} {key : String} {item : Item P} (e : Event P)
    (hg : GoodItem env m h key item) : GoodItem env m (h ++ [e]) key item := by
  refine ⟨hg.wf, fun p d hp => (hg.votes p d hp).mono e, ?_⟩
  intro w hw
  obtain ⟨⟨e', he, hc⟩, h2⟩ := hg.msg w hw
  exact ⟨⟨e', by simp [he], hc⟩, h2⟩

/-- the invariant of a session started with blame manager `m` -/
structure Good (env : Env K P) (m : Manager K P) (h : List (Event P)) (s : St K P) : Prop where
  ids : s.mgr.partyIDMap = m.partyIDMap
  peers : s.mgr.partyIDtoP2PID = m.partyIDtoP2PID
  cache : ∀ key item, Map.get s.cache key = some item → GoodItem env m h key item
  jobs : ∀ j ∈ s.jobs, Just env m h j.carrier ∧ Contains env m.partyIDMap j.carrier j.share j.round
  log : ∀ j ∈ s.log, Just env m h j.carrier ∧ Contains env m.partyIDMap j.carrier j.share j.round
  stored : m.storedMsg = [] → ∀ key w, Map.get s.mgr.storedMsg key = some w →
    Just env m h w ∧ w.isBroadcast = true ∧ ∃ i, w.sender = some i ∧ key = cacheKey i w.roundInfo

theorem quorum_of_passed {env : Env K P} {m : Manager K P} {h : List (Event P)} {s : St K P} {key : String} {item : Item P}
    {w : WireMessage} (hids : s.mgr.partyIDMap = m.partyIDMap) (hpeers : s.mgr.partyIDtoP2PID = m.partyIDtoP2PID)
    (hg : GoodItem env m h key item) (hm : item.msg = some w) (hp : Passed s item w) : Quorum env m h w := by
  obtain ⟨i, peer, t, h1, h2, h3, h4, h5, σ, h6⟩ := hp.won
  obtain ⟨_, _, _, ⟨i', hi', hkey⟩, hhash⟩ := hg.msg w hm
  rw [h1] at hi'
  cases hi'
  rw [hhash] at h6
  obtain ⟨h7, _, h9⟩ := getMsgHash_ok σ item t _ h6
  refine ⟨item.confirmed, i, peer, t, hg.wf, h1, by rw [← hpeers]; exact h2, h5, by rw [← hids]; exact h3, h4, ?_, h7, h9⟩
  intro p d hpd
  rw [← hkey]
  exact hg.votes p d (Map.get_of_mem hg.wf hpd)

theorem just_of_source {env : Env K P} {m : Manager K P} {h : List (Event P)} {e : Event P} {s : St K P} {w : WireMessage}
    (hg : Good env m (h ++ [e]) s) (hs : Source env e s w) : Just env m (h ++ [e]) w := by
  rcases hs with ⟨h1, h2, h3⟩ | ⟨key, item, h1, h2, h3⟩
  · refine ⟨⟨e, by simp, h1⟩, by rw [← hg.ids]; exact h2, ?_⟩
    intro hb; rw [h3] at hb; cases hb
  · have hgi := hg.cache key item h1
    obtain ⟨a, b, _⟩ := hgi.msg w h2
    exact ⟨a, b, fun _ => quorum_of_passed hg.ids hg.peers hgi h2 h3⟩

theorem set_item {env : Env K P} {m : Manager K P} {h : List (Event P)} {cache : Map String (Item P)} {key : String} {item : Item P}
    (hc : ∀ key item, Map.get cache key = some item → GoodItem env m h key item) (hi : GoodItem env m h key item) :
    ∀ key' item', Map.get (Map.set cache key item) key' = some item' → GoodItem env m h key' item' := by
  intro key' item' hg
  rw [Map.get_set] at hg
  split at hg
  · rename_i hk; subst hk; cases hg; exact hi
  · exact hc key' item' hg

theorem good_arrived {env : Env K P} {m : Manager K P} {h : List (Event P)} {old : Option (Item P)} {w : WireMessage} {i : Nat}
    (hold : ∀ it, old = some it → GoodItem env m h (cacheKey i w.roundInfo) it)
    (hc : ∃ e ∈ h, Carries env e w) (hs : Signed env m.partyIDMap w) (hi : w.sender = some i) (hb : w.isBroadcast = true) :
    GoodItem env m h (cacheKey i w.roundInfo) (arrived env old w) := by
  have hself : Voted env m.partyIDMap h env.localPeer (cacheKey i w.roundInfo) (env.hash w.message) := by
    obtain ⟨e, he, hc⟩ := hc
    exact Or.inr ⟨rfl, e, he, w, i, hc, hs, hi, hb, rfl, rfl⟩
  have hmsg : ∀ w', some w = some w' → (∃ e ∈ h, Carries env e w') ∧ Signed env m.partyIDMap w' ∧ w'.isBroadcast = true ∧
      (∃ j, w'.sender = some j ∧ cacheKey i w.roundInfo = cacheKey j w'.roundInfo) ∧ env.hash w.message = env.hash w'.message := by
    intro w' hw'; cases hw'; exact ⟨hc, hs, hb, ⟨i, hi, rfl⟩, rfl⟩
  rcases old with _ | it
  · refine ⟨Map.WF_set Map.WF_nil _ _, ?_, hmsg⟩
    intro p d hp
    simp only [arrived] at hp
    rw [Map.get_set] at hp
    split at hp
    · rename_i hpe; cases hp; rw [hpe]; exact hself
    · cases hp
  · have hg := hold it rfl
    simp only [arrived]
    split
    · refine ⟨Map.WF_set hg.wf _ _, ?_, hmsg⟩
      intro p d hp
      dsimp only at hp
      rw [Map.get_set] at hp
      split at hp
      · rename_i hpe; cases hp; rw [hpe]; exact hself
      · exact hg.votes p d hp
    · refine ⟨Map.WF_set hg.wf _ _, ?_, hg.msg⟩
      intro p d hp
      dsimp only at hp
      rw [Map.get_set] at hp
      split at hp
      · rename_i hpe; cases hp; rw [hpe]; exact hself
      · exact hg.votes p d hp

theorem good_confirmed {env : Env K P} {m : Manager K P} {h : List (Event P)} {old : Option (Item P)} {key d : String} {peer : P}
    (hold : ∀ it, old = some it → GoodItem env m h key it) (hv : Voted env m.partyIDMap h peer key d) :
    GoodItem env m h key (confirmedItem old peer d) := by
  rcases old with _ | it
  · refine ⟨Map.WF_set Map.WF_nil _ _, ?_, by simp [confirmedItem]⟩
    intro p d' hp
    simp only [confirmedItem] at hp
    rw [Map.get_set] at hp
    split at hp
    · rename_i hpe; cases hp; rw [hpe]; exact hv
    · cases hp
  · have hg := hold it rfl
    refine ⟨Map.WF_set hg.wf _ _, ?_, hg.msg⟩
    intro p d' hp
    simp only [confirmedItem] at hp
    rw [Map.get_set] at hp
    split at hp
    · rename_i hpe; cases hp; rw [hpe]; exact hv
    · exact hg.votes p d' hp

theorem stepJob_none {env : Env K P} {id : Nat} {s : St K P} (h : s.jobs.find? (fun j => j.id = id) = none) :
    stepJob env id s = s := by simp only [stepJob, h]

theorem stepJob_wait {env : Env K P} {id : Nat} {s : St K P} {j : Job} (h : s.jobs.find? (fun j => j.id = id) = some j)
    (ho : j.outcome = none) : stepJob env id s =
      { s with
        log := s.log ++ [⟨j.share, j.round, j.carrier, (env.upd s.log j.share).isNone⟩]
        jobs := s.jobs.map (fun k => if k.id = id then { k with outcome := some (env.upd s.log j.share) } else k) } := by
  simp only [stepJob, h, ho]

theorem stepJob_ok {env : Env K P} {id : Nat} {s : St K P} {j : Job} (h : s.jobs.find? (fun j => j.id = id) = some j)
    (ho : j.outcome = some none) : stepJob env id s =
      { s with mgr := s.mgr.updateAcceptShare j.round j.share.from_, jobs := s.jobs.filter (fun k => k.id ≠ id) } := by
  simp only [stepJob, h, ho]

theorem stepJob_bad {env : Env K P} {id : Nat} {s : St K P} {j : Job} {cs : List Culprit}
    (h : s.jobs.find? (fun j => j.id = id) = some j) (ho : j.outcome = some (some cs)) : stepJob env id s =
      processInvalidMsgBlame env { s with jobs := s.jobs.filter (fun k => k.id ≠ id) } j.round cs := by
  simp only [stepJob, h, ho]

/-- what `processInvalidMsgBlame` leaves alone -/
theorem processInvalid_frame (env : Env K P) (s : St K P) (round : RoundInfo) (cs : List Culprit) :
    ∃ b, processInvalidMsgBlame env s round cs = { s with culprits := s.culprits ++ cs, mgr := { s.mgr with blame := b } } := by
  unfold processInvalidMsgBlame
  dsimp only
  split <;> exact ⟨_, rfl⟩

/-- the effect of a worker step on log, jobs and stored messages -/
theorem stepJob_effect (env : Env K P) (id : Nat) (s : St K P) :
    (∀ en ∈ (stepJob env id s).log, en ∈ s.log ∨ ∃ j ∈ s.jobs, j.carrier = en.carrier ∧ j.share = en.share ∧ j.round = en.round) ∧
    (∀ j' ∈ (stepJob env id s).jobs, ∃ j ∈ s.jobs, j.carrier = j'.carrier ∧ j.share = j'.share ∧ j.round = j'.round) ∧
    (stepJob env id s).mgr.storedMsg = s.mgr.storedMsg := by
  rcases hf : s.jobs.find? (fun j => j.id = id) with _ | j
  · rw [stepJob_none hf]
    exact ⟨fun en he => Or.inl he, fun j' hj => ⟨j', hj, rfl, rfl, rfl⟩, rfl⟩
  · have hmem := List.mem_of_find?_eq_some hf
    rcases ho : j.outcome with _ | _ | cs
    · rw [stepJob_wait hf ho]
      refine ⟨?_, ?_, rfl⟩
      · intro en he
        rcases List.mem_append.1 he with he | he
        · exact Or.inl he
        · simp at he; subst he; exact Or.inr ⟨j, hmem, rfl, rfl, rfl⟩
      · intro j' hj'
        obtain ⟨k, hk, rfl⟩ := List.mem_map.1 hj'
        refine ⟨k, hk, ?_⟩
        split <;> exact ⟨rfl, rfl, rfl⟩
    · rw [stepJob_ok hf ho]
      refine ⟨fun en he => Or.inl he, ?_, (updateAcceptShare_maps _ _ _).2.2.1⟩
      intro j' hj'
      exact ⟨j', (List.mem_filter.1 hj').1, rfl, rfl, rfl⟩
    · rw [stepJob_bad hf ho]
      obtain ⟨b, hb⟩ := processInvalid_frame env { s with jobs := s.jobs.filter (fun k => k.id ≠ id) } j.round cs
      rw [hb]
      refine ⟨fun en he => Or.inl he, ?_, rfl⟩
      intro j' hj'
      exact ⟨j', (List.mem_filter.1 hj').1, rfl, rfl, rfl⟩

theorem good_mono {env : Env K P} {m : Manager K P} {h : List (Event P)} (e : Event P) {s : St K P} (hg : Good env m h s) :
    Good env m (h ++ [e]) s := by
  refine ⟨hg.ids, hg.peers, fun k i hk => (hg.cache k i hk).mono e, fun j hj => ⟨(hg.jobs j hj).1.mono e, (hg.jobs j hj).2⟩,
    fun j hj => ⟨(hg.log j hj).1.mono e, (hg.log j hj).2⟩, fun hm k w hk => ?_⟩
  obtain ⟨h1, h2⟩ := hg.stored hm k w hk
  exact ⟨h1.mono e, h2⟩

theorem good_micro {env : Env K P} {m : Manager K P} {h : List (Event P)} {e : Event P} {s s' : St K P}
    (hg : Good env m (h ++ [e]) s) (hmic : Micro env e s s') : Good env m (h ++ [e]) s' := by
  cases hmic with
  | work id =>
    have hf := stepJob_frame env id s
    obtain ⟨e1, e2, e3⟩ := stepJob_effect env id s
    refine ⟨hf.ids.trans hg.ids, hf.peers.trans hg.peers, by rw [hf.cache]; exact hg.cache, ?_, ?_, by rw [e3]; exact hg.stored⟩
    · intro j' hj'
      obtain ⟨j, hj, h1, h2, h3⟩ := e2 j' hj'
      rw [← h1, ← h2, ← h3]; exact hg.jobs j hj
    · intro en hen
      rcases e1 en hen with hen | ⟨j, hj, h1, h2, h3⟩
      · exact hg.log en hen
      · rw [← h1, ← h2, ← h3]; exact hg.jobs j hj
  | queue w bulk mm r i p round hs hb hm hp hr hi hip hround hdup hc =>
    refine ⟨hg.ids, hg.peers, hg.cache, ?_, hg.log, hg.stored⟩
    intro j hj
    rcases List.mem_append.1 hj with hj | hj
    · exact hg.jobs j hj
    · simp at hj; subst hj
      refine ⟨just_of_source hg hs, bulk, mm, r, round, hb, hm, rfl, hp, rfl, hr, hi, rfl, ?_, hround, rfl⟩
      rw [← hg.ids]
      exact (Map.get_isSome_iff _ _).1 (by rw [hip]; rfl)
  | arrive w i hc hs hi hb =>
    exact ⟨hg.ids, hg.peers, set_item hg.cache (good_arrived (fun it hit => hg.cache _ it hit) ⟨e, by simp, hc⟩
      (by rw [← hg.ids]; exact hs) hi hb), hg.jobs, hg.log, hg.stored⟩
  | vote peer key d hc hd =>
    exact ⟨hg.ids, hg.peers, set_item hg.cache (good_confirmed (fun it hit => hg.cache _ it hit) (Or.inl ⟨e, by simp, hc⟩)),
      hg.jobs, hg.log, hg.stored⟩
  | blameOwner key item w i peer t hk hm hi hp ht hn hv =>
    have hgi := hg.cache key item hk
    refine ⟨hg.ids, hg.peers, set_item hg.cache ⟨Map.WF_del hgi.wf _, ?_, hgi.msg⟩, hg.jobs, hg.log, hg.stored⟩
    intro p d hpd
    dsimp only at hpd
    rw [Map.get_del] at hpd
    split at hpd
    · cases hpd
    · exact hgi.votes p d hpd
  | blameSplit => exact ⟨hg.ids, hg.peers, hg.cache, hg.jobs, hg.log, hg.stored⟩
  | dropMsg key item hk =>
    have hgi := hg.cache key item hk
    exact ⟨hg.ids, hg.peers, set_item hg.cache ⟨hgi.wf, hgi.votes, by simp⟩, hg.jobs, hg.log, hg.stored⟩
  | store key item w hk hm hw =>
    have hgi := hg.cache key item hk
    refine ⟨hg.ids, hg.peers, hg.cache, hg.jobs, hg.log, ?_⟩
    intro hm0 key' w' hw'
    dsimp only [Manager.roundSet] at hw'
    rw [Map.get_set] at hw'
    split at hw'
    · rename_i hkk; subst hkk; cases hw'
      obtain ⟨a, b, c, d, _⟩ := hgi.msg _ hm
      exact ⟨⟨a, b, fun _ => quorum_of_passed hg.ids hg.peers hgi hm hw⟩, c, d⟩
    · exact hg.stored hm0 key' w' hw'
  | unicast w i peer hs hi hp hb =>
    obtain ⟨h1, h2, h3, _⟩ := setLastUnicastPeer_maps s.mgr peer w.roundInfo
    exact ⟨h1.trans hg.ids, h2.trans hg.peers, hg.cache, hg.jobs, hg.log, by dsimp only; rw [h3]; exact hg.stored⟩
  | forget key item w hk hm hw hst =>
    refine ⟨hg.ids, hg.peers, ?_, hg.jobs, hg.log, hg.stored⟩
    intro key' item' hk'
    dsimp only at hk'
    rw [Map.get_del] at hk'
    split at hk'
    · cases hk'
    · exact hg.cache _ _ hk'
  | ask => exact ⟨hg.ids, hg.peers, hg.cache, hg.jobs, hg.log, hg.stored⟩
  | answer => exact ⟨hg.ids, hg.peers, hg.cache, hg.jobs, hg.log, hg.stored⟩
  | sendConfirm => exact ⟨hg.ids, hg.peers, hg.cache, hg.jobs, hg.log, hg.stored⟩
  | askSilent => exact ⟨hg.ids, hg.peers, hg.cache, hg.jobs, hg.log, hg.stored⟩
  | sendAnswer => exact ⟨hg.ids, hg.peers, hg.cache, hg.jobs, hg.log, hg.stored⟩
  | done => exact ⟨hg.ids, hg.peers, hg.cache, hg.jobs, hg.log, hg.stored⟩
  | crash => exact ⟨hg.ids, hg.peers, hg.cache, hg.jobs, hg.log, hg.stored⟩

theorem good_init (env : Env K P) (m : Manager K P) : Good env m [] (newTssCommon m) := by
  refine ⟨rfl, rfl, by simp [newTssCommon], by simp [newTssCommon], by simp [newTssCommon], ?_⟩
  intro hm key w hw
  simp [newTssCommon, hm] at hw

theorem good_run (env : Env K P) (m : Manager K P) (h : List (Event P)) : Good env m h (run env (newTssCommon m) h) :=
  run_invariant env _ (fun h s => Good env m h s) (good_init env m) (fun _ e _ hg => good_mono e hg)
    (fun _ _ _ _ hg hmic => good_micro hg hmic) h

/-- invariants of a run which need `Good` -/
theorem run_invariant_good (env : Env K P) (m : Manager K P) (I : List (Event P) → St K P → Prop) (h0 : I [] (newTssCommon m))
    (mono : ∀ h e s, I h s → I (h ++ [e]) s)
    (hstep : ∀ h e s s', Good env m (h ++ [e]) s → I (h ++ [e]) s → Micro env e s s' → I (h ++ [e]) s')
    (h : List (Event P)) : I h (run env (newTssCommon m) h) :=
  (run_invariant env _ (fun h s => Good env m h s ∧ I h s) ⟨good_init env m, h0⟩
    (fun h e s hg => ⟨good_mono e hg.1, mono h e s hg.2⟩)
    (fun h e s s' hg hmic => ⟨good_micro hg.1 hmic, hstep h e s s' hg.1 hg.2 hmic⟩) h).2

/-- what one event preserves, given `Good` -/
theorem step_invariant_good {env : Env K P} {m : Manager K P} {h : List (Event P)} (e : Event P) (I : St K P → Prop)
    (h0 : I (run env (newTssCommon m) h)) (hstep : ∀ s s', Good env m (h ++ [e]) s → I s → Micro env e s s' → I s') :
    I (step env (run env (newTssCommon m) h) e) := by
  have hg := good_mono e (good_run env m h)
  have hm := step_micro env (run env (newTssCommon m) h) e
  have : ∀ s', Micros env e (run env (newTssCommon m) h) s' → Good env m (h ++ [e]) s' ∧ I s' := by
    intro s' hm'
    induction hm' with
    | refl => exact ⟨hg, h0⟩
    | tail _ hmic ih => exact ⟨good_micro ih.1 hmic, hstep _ _ ih.1 ih.2 hmic⟩
  exact (this _ hm).2

end Verif.TssCommon
