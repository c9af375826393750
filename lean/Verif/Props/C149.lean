import Verif.Lemmas.TssCommon
import Verif.Props.C133

set_option linter.unusedSectionVars false

/-!
# C149: what a session keeps of what it is told
-/
namespace Verif.Props.Memory
open Verif.Go Verif.Conversion Verif.Messages Verif.Blame Verif.Threshold Verif.TssCommon Verif.Spec
open Relation (ReflTransGen)

variable {K P : Type} [DecidableEq K] [DecidableEq P]

/-! ## Specification -/

/-- Specification: the event speaks of the broadcast called `key`: it brings a broadcast message of that name, signed by a member, or a confirmation for it -/
def Names (env : Env K P) (committee : Map Nat Party) (e : Event P) (key : String) : Prop :=
  (∃ w i, Carries env e w ∧ Signed env committee w ∧ w.isBroadcast = true ∧ w.sender = some i ∧ key = cacheKey i w.roundInfo) ∨ ∃ peer d, Confirms env e peer key d

/-- Specification: the event is a message -/
def isMsg : Event P → Bool
  | .msg .. => true
  | .work _ => false

/-! ## what is kept was named -/

/-- what holds after a history: one entry for each broadcast, and each was named -/
structure Kept (env : Env K P) (m : Manager K P) (h : List (Event P)) (s : St K P) : Prop where
  ids : s.mgr.partyIDMap = m.partyIDMap
  wf : Map.WF s.cache
  named : ∀ key ∈ Map.keys s.cache, ∃ e ∈ h, Names env m.partyIDMap e key

theorem stepJob_cache (env : Env K P) (id : Nat) (s : St K P) : (stepJob env id s).cache = s.cache ∧ (stepJob env id s).mgr.partyIDMap = s.mgr.partyIDMap :=
  ⟨(stepJob_frame env id s).cache, (stepJob_frame env id s).ids⟩

theorem keys_set_old {s : St K P} {key : String} {item : Item P} (hk : Map.get s.cache key = some item) (v : Item P) (k : String) :
    k ∈ Map.keys (Map.set s.cache key v) → k ∈ Map.keys s.cache := by
  rw [Map.mem_keys_set]
  rintro (rfl | h)
  · exact (Map.get_isSome_iff _ _).1 (by rw [hk]; rfl)
  · exact h

theorem micro_kept {env : Env K P} {m : Manager K P} {h : List (Event P)} {e : Event P} {s s' : St K P} (hm : Micro env e s s') (hk : Kept env m (h ++ [e]) s) :
    Kept env m (h ++ [e]) s' := by
  cases hm with
  | work id => exact ⟨by rw [(stepJob_cache env id s).2]; exact hk.ids, by rw [(stepJob_cache env id s).1]; exact hk.wf, by rw [(stepJob_cache env id s).1]; exact hk.named⟩
  | arrive w i hc hs hi hb =>
    refine ⟨hk.ids, Map.WF_set hk.wf _ _, fun k hm => ?_⟩
    rcases (Map.mem_keys_set _ _ _ _).1 hm with rfl | hm
    · exact ⟨e, by simp, Or.inl ⟨w, i, hc, by rw [← hk.ids]; exact hs, hb, hi, rfl⟩⟩
    · exact hk.named k hm
  | vote peer key d hc hd =>
    refine ⟨hk.ids, Map.WF_set hk.wf _ _, fun k hm => ?_⟩
    rcases (Map.mem_keys_set _ _ _ _).1 hm with rfl | hm
    · exact ⟨e, by simp, Or.inr ⟨peer, d, hc⟩⟩
    · exact hk.named k hm
  | blameOwner key item w i peer t hg => exact ⟨hk.ids, Map.WF_set hk.wf _ _, fun k hm => hk.named k (keys_set_old hg _ k hm)⟩
  | dropMsg key item hg => exact ⟨hk.ids, Map.WF_set hk.wf _ _, fun k hm => hk.named k (keys_set_old hg _ k hm)⟩
  | forget key item w hg => exact ⟨hk.ids, Map.WF_del hk.wf _, fun k hm => hk.named k ((Map.mem_keys_del _ _ _).1 hm).2⟩
  | unicast w i peer => exact ⟨by rw [(setLastUnicastPeer_maps _ _ _).1]; exact hk.ids, hk.wf, hk.named⟩
  | _ => exact ⟨hk.ids, hk.wf, hk.named⟩

theorem run_kept (env : Env K P) (m : Manager K P) (h : List (Event P)) : Kept env m h (run env (newTssCommon m) h) := by
  induction h using List.reverseRecOn with
  | nil => exact ⟨rfl, Map.WF_nil, fun k hk => by simp [run, newTssCommon] at hk⟩
  | append_singleton h e ih =>
    have h0 : Kept env m (h ++ [e]) (run env (newTssCommon m) h) :=
      ⟨ih.ids, ih.wf, fun k hk => by
        obtain ⟨e', h1, h2⟩ := ih.named k hk
        exact ⟨e', List.mem_append_left _ h1, h2⟩⟩
    have hs : run env (newTssCommon m) (h ++ [e]) = step env (run env (newTssCommon m) h) e := by simp [run]
    rw [hs]
    have := step_micro env (run env (newTssCommon m) h) e
    generalize step env (run env (newTssCommon m) h) e = s' at this
    induction this with
    | refl => exact h0
    | tail _ h2 h3 => exact micro_kept h2 h3

/-- a message names at most one broadcast -/
theorem names_unique {env : Env K P} {c : Map Nat Party} {e : Event P} {k k' : String} (h : Names env c e k) (h' : Names env c e k') : k = k' := by
  have ne1 : ∀ {t : MsgType}, t = TSSKeyGenMsg ∨ t = TSSKeySignMsg → t ≠ TSSControlMsg ∧ ¬ (t = TSSKeyGenVerMsg ∨ t = TSSKeySignVerMsg) := by
    rintro t (rfl | rfl) <;> decide
  have ne2 : ¬ (TSSControlMsg = TSSKeyGenVerMsg ∨ TSSControlMsg = TSSKeySignVerMsg) := by decide
  rcases h with ⟨w, i, ⟨raw, p, sch, t, pl, rfl, h1, h2⟩, -, -, h4, rfl⟩ | ⟨p, d, raw, sch, t, pl, rfl, h1, h2, b, h3, rfl, -⟩ <;>
  rcases h' with ⟨w', i', ⟨raw', p', sch', t', pl', e', h1', h2'⟩, -, -, h4', rfl⟩ | ⟨p', d', raw', sch', t', pl', e', h1', h2', b', h3', rfl, -⟩ <;>
  obtain ⟨rfl, rfl, rfl⟩ := Event.msg.inj e' <;> rw [h1] at h1' <;> obtain ⟨rfl, rfl⟩ := Prod.mk.inj (Option.some.inj h1')
  · have hw : w = w' := by
      rcases h2 with ⟨h2, h5⟩ | ⟨h2, c1, h5, h6⟩ <;> rcases h2' with ⟨h2', h5'⟩ | ⟨h2', c1', h5', h6'⟩
      · rw [h5] at h5'; exact Option.some.inj h5'
      · exact absurd h2' (ne1 h2).1
      · exact absurd h2 (ne1 h2').1
      · rw [h5] at h5'
        obtain rfl := Option.some.inj h5'
        rw [h6] at h6'; exact Option.some.inj h6'
    subst hw
    rw [h4] at h4'
    rw [Option.some.inj h4']
  · rcases h2 with ⟨h2, -⟩ | ⟨rfl, -⟩
    · exact absurd h2' (ne1 h2).2
    · exact absurd h2' ne2
  · rcases h2' with ⟨h2', -⟩ | ⟨rfl, -⟩
    · exact absurd h2 (ne1 h2').2
    · exact absurd h2 ne2
  · rw [h3] at h3'
    rw [Option.some.inj h3']

theorem names_msg {env : Env K P} {c : Map Nat Party} {e : Event P} {k : String} (h : Names env c e k) : isMsg e = true := by
  rcases h with ⟨w, i, ⟨raw, p, sch, t, pl, rfl, -⟩, -⟩ | ⟨p, d, raw, sch, t, pl, rfl, -⟩ <;> rfl

theorem count_named {env : Env K P} {c : Map Nat Party} : ∀ (h : List (Event P)) (ks : List String), ks.Nodup → (∀ k ∈ ks, ∃ e ∈ h, Names env c e k) →
    ks.length ≤ (h.filter isMsg).length
  | [], ks, _, hn => by
    cases ks with
    | nil => simp
    | cons k ks => obtain ⟨e, he, -⟩ := hn k (by simp); cases he
  | e :: h, ks, hd, hn => by
    by_cases hex : ∃ k ∈ ks, Names env c e k
    · obtain ⟨k, hk, hke⟩ := hex
      have := count_named h (ks.erase k) (hd.erase k) fun k' hk' => by
        obtain ⟨e', he', hn'⟩ := hn k' (List.mem_of_mem_erase hk')
        rcases List.mem_cons.1 he' with rfl | he'
        · exact absurd (names_unique hn' hke) (hd.mem_erase_iff.1 hk').1
        · exact ⟨e', he', hn'⟩
      rw [List.length_erase_of_mem hk] at this
      rw [List.filter_cons_of_pos (names_msg hke), List.length_cons]
      omega
    · have := count_named h ks hd fun k hk => by
        obtain ⟨e', he', hn'⟩ := hn k hk
        rcases List.mem_cons.1 he' with rfl | he'
        · exact absurd ⟨k, hk, hn'⟩ hex
        · exact ⟨e', he', hn'⟩
      rw [List.filter_cons]
      split
      · rw [List.length_cons]; omega
      · exact this

/-- **C149** (partial; missing: a bound that does not depend on what others send, see `c149_made_up`): after any history a session keeps at most one entry for each broadcast that
some message named, so at most one for each message it was sent. -/
theorem c149_one_entry_partial (env : Env K P) (m : Manager K P) (h : List (Event P)) :
    (Map.keys (run env (newTssCommon m) h).cache).Nodup ∧
    (∀ key ∈ Map.keys (run env (newTssCommon m) h).cache, ∃ e ∈ h, Names env m.partyIDMap e key) ∧
    (run env (newTssCommon m) h).cache.length ≤ (h.filter isMsg).length := by
  have hk := run_kept env m h
  refine ⟨hk.wf, hk.named, ?_⟩
  have := count_named h _ hk.wf hk.named
  simpa [Map.keys] using this

/-- C149: if the messages speak only of the broadcasts of a list, such as those of the members and rounds, then no more are kept than the list has. -/
theorem c149_honest (env : Env K P) (m : Manager K P) (h : List (Event P)) (names : List String) (hn : ∀ e ∈ h, ∀ key, Names env m.partyIDMap e key → key ∈ names) :
    (run env (newTssCommon m) h).cache.length ≤ names.length := by
  have hk := run_kept env m h
  have hs : Map.keys (run env (newTssCommon m) h).cache ⊆ names := fun k h1 => by
    obtain ⟨e, h2, h3⟩ := hk.named k h1
    exact hn e h2 k h3
  have := (hk.wf.subperm hs).length_le
  simpa [Map.keys] using this

/-! ## made-up names -/

theorem length_set_new {V : Type} : ∀ (c : Map String V) (k : String) (v : V), k ∉ Map.keys c → (Map.set c k v).length = c.length + 1
  | [], _, _, _ => rfl
  | (k', v') :: c, k, v, h => by
    have h1 : k' ≠ k := fun e => h (by simp [e])
    have h2 : k ∉ Map.keys c := fun e => h (by simp [e])
    rw [Map.set, if_neg h1, List.length_cons, length_set_new c k v h2, List.length_cons]

/-- asking for a share changes what is sent and asked for, nothing else -/
theorem request_keeps (sch : Sched P) (item : Item P) (t : Int) (key : String) (mt : MsgType) (s : St K P) :
    (requestShareFromPeer sch item t key mt s).cache = s.cache ∧ (requestShareFromPeer sch item t key mt s).crashed = s.crashed ∧
    (requestShareFromPeer sch item t key mt s).mgr.blame = s.mgr.blame ∧ (requestShareFromPeer sch item t key mt s).mgr.partyIDMap = s.mgr.partyIDMap ∧
    (requestShareFromPeer sch item t key mt s).log = s.log := by
  unfold requestShareFromPeer
  split
  · exact ⟨rfl, rfl, rfl, rfl, rfl⟩
  · dsimp only
    unfold processRequestMsgFromPeer
    split
    · exact ⟨rfl, rfl, rfl, rfl, rfl⟩
    · split
      · exact ⟨rfl, rfl, rfl, rfl, rfl⟩
      · split <;> exact ⟨rfl, rfl, rfl, rfl, rfl⟩

/-- a confirmation of a broadcast that the session has not heard of -/
theorem confirm_new (env : Env K P) (s : St K P) (hc : s.crashed = false) (ht : ∃ t, GetThreshold s.mgr.partyIDMap.length = .ok t) (e : Event P) (peer : P) (key d : String)
    (he : Confirms env e peer key d) (hk : key ∉ Map.keys s.cache) :
    (step env s e).crashed = false ∧ Map.keys (step env s e).cache = Map.keys s.cache ++ [key] ∧ (step env s e).mgr.blame = s.mgr.blame ∧
    (step env s e).mgr.partyIDMap = s.mgr.partyIDMap ∧ (step env s e).log = s.log := by
  obtain ⟨raw, sch, t, pl, rfl, h1, h2, b, h3, rfl, rfl⟩ := he
  obtain ⟨th, ht⟩ := ht
  have hg : Map.get s.cache b.key = none := (Map.get_eq_none_iff _ _).2 hk
  have hp : ProcessOneMessage env sch t pl peer s = processVerMsg env sch { b with p2pid := some peer } t s := by
    unfold ProcessOneMessage
    rw [if_neg (by rcases h2 with rfl | rfl <;> decide), if_pos h2, h3]
    dsimp only
    unfold checkDup
    rw [hg]
  have hs : step env s (.msg raw peer sch) =
      requestShareFromPeer sch (confirmedItem none peer b.hash) th b.key t { s with cache := Map.set s.cache b.key (confirmedItem none peer b.hash) } := by
    unfold step
    rw [if_neg (by rw [hc]; decide)]
    dsimp only
    rw [h1]
    dsimp only
    rw [hp]
    unfold processVerMsg
    dsimp only
    rw [hg, ht]
    dsimp only
    rw [if_pos (by rfl)]
  obtain ⟨e1, e2, e3, e4, e5⟩ := request_keeps sch (confirmedItem none peer b.hash) th b.key t { s with cache := Map.set s.cache b.key (confirmedItem none peer b.hash) }
  rw [hs]
  refine ⟨e2.trans hc, ?_, e3, e4, e5⟩
  rw [e1]
  clear e1 e2 e3 e4 e5 hs hp hg
  dsimp only
  generalize confirmedItem none peer b.hash = v
  generalize s.cache = c at hk ⊢
  induction c with
  | nil => rfl
  | cons x c ih =>
    obtain ⟨k', v'⟩ := x
    have h1 : k' ≠ b.key := fun e => hk (by simp [e])
    rw [Map.set, if_neg h1, Map.keys_cons, Map.keys_cons, ih fun e => hk (by simp [e])]
    rfl

/-- C149 is false as a bound: in any state, any peer at all, a member or not, can make the session keep as many entries more as it has made up names, with one confirmation for
each; the session goes on, nobody is blamed and nothing is handed to the local party. -/
theorem c149_made_up (env : Env K P) (peer : P) : ∀ (l : List (Event P × String)) (s : St K P), s.crashed = false → (∃ t, GetThreshold s.mgr.partyIDMap.length = .ok t) →
    (∀ x ∈ l, ∃ d, Confirms env x.1 peer x.2 d) → (Map.keys s.cache ++ l.map Prod.snd).Nodup →
    (run env s (l.map Prod.fst)).cache.length = s.cache.length + l.length ∧ (run env s (l.map Prod.fst)).crashed = false ∧
    (run env s (l.map Prod.fst)).mgr.blame = s.mgr.blame ∧ (run env s (l.map Prod.fst)).log = s.log
  | [], s, hc, _, _, _ => ⟨rfl, hc, rfl, rfl⟩
  | x :: l, s, hc, ht, hl, hn => by
    obtain ⟨d, hd⟩ := hl x (by simp)
    have hn' : (Map.keys s.cache ++ [x.2] ++ l.map Prod.snd).Nodup := by simpa using hn
    have hx : x.2 ∉ Map.keys s.cache := fun c => by
      have := (List.nodup_append.1 (List.nodup_append.1 hn').1).2.2
      exact this _ c _ (by simp) rfl
    obtain ⟨h1, h2, h3, h4, h5⟩ := confirm_new env s hc ht x.1 peer x.2 d hd hx
    obtain ⟨i1, i2, i3, i4⟩ := c149_made_up env peer l (step env s x.1) h1 (by rw [h4]; exact ht) (fun y hy => hl y (List.mem_cons_of_mem _ hy)) (by rw [h2]; exact hn')
    have hlen : (step env s x.1).cache.length = s.cache.length + 1 := by
      have := congrArg List.length h2
      simpa [Map.keys] using this
    have hr : run env s ((x :: l).map Prod.fst) = run env (step env s x.1) (l.map Prod.fst) := rfl
    rw [hr]
    exact ⟨by rw [i1, hlen, List.length_cons]; omega, i2, i3.trans h3, i4.trans h5⟩

/-! ## as bytes -/

/-- Specification: the bytes of a confirmation for the made-up name `key`, in a message of type 2 -/
def madeUp (id key : String) : Bytes := Json.utf8 (JsonMsg.wrappedText ⟨2, id, Json.utf8 (JsonMsg.confirmText ⟨"", key, ""⟩)⟩)

theorem madeUp_confirms (N : JsonMsg.Naming P) (env : Env K P) (id key : String) (peer : P) (sch : Sched P) :
    Confirms (JsonMsg.withJson N env) (.msg (madeUp id key) peer sch) peer key "" := by
  refine ⟨_, sch, 2, Json.utf8 (JsonMsg.confirmText ⟨"", key, ""⟩), rfl, ?_, Or.inl rfl, ⟨N.peer "", key, ""⟩, ?_, rfl, rfl⟩
  · have e : (JsonMsg.withJson N env).decWrapped = fun b => (JsonMsg.readWrapped b).map fun w => (UInt8.ofNat w.type, w.payload) := rfl
    rw [e]
    dsimp only
    unfold madeUp
    rw [JsonMessages.c133_wrapped _ (by show 2 < 256; decide)]
    rfl
  · have e : (JsonMsg.withJson N env).decConfirm = fun b => (JsonMsg.readConfirm b).map (JsonMsg.fromConfirm N) := rfl
    rw [e]
    dsimp only
    rw [JsonMessages.c133_confirm]
    rfl

/-- C149 is false as a bound, in bytes: with any names whatever, each given once. -/
theorem c149_made_up_bytes (N : JsonMsg.Naming P) (env : Env K P) (id : String) (peer : P) (sch : Sched P) (names : List String) (hn : names.Nodup) (m : Manager K P)
    (ht : ∃ t, GetThreshold m.partyIDMap.length = .ok t) :
    (run (JsonMsg.withJson N env) (newTssCommon m) (names.map fun k => .msg (madeUp id k) peer sch)).cache.length = names.length ∧
    (run (JsonMsg.withJson N env) (newTssCommon m) (names.map fun k => .msg (madeUp id k) peer sch)).crashed = false ∧
    (run (JsonMsg.withJson N env) (newTssCommon m) (names.map fun k => .msg (madeUp id k) peer sch)).mgr.blame = m.blame := by
  have := c149_made_up (JsonMsg.withJson N env) peer (names.map fun k => (.msg (madeUp id k) peer sch, k)) (newTssCommon m) rfl ht
    (by
      intro x hx
      obtain ⟨k, -, rfl⟩ := List.mem_map.1 hx
      exact ⟨"", madeUp_confirms N env id k peer sch⟩)
    (by simpa [newTssCommon, Function.comp_def] using hn)
  simp only [List.map_map, Function.comp_def, List.length_map] at this
  exact ⟨by simpa [newTssCommon] using this.1, this.2.1, this.2.2.1⟩

/-- so a session of four members holds a thousand entries after a thousand messages of somebody who is not a member -/
example (N : JsonMsg.Naming Nat) (env : Env Nat Nat) (m : Manager Nat Nat) (hm : m.partyIDMap.length = 4) (sch : Sched Nat) :
    (run (JsonMsg.withJson N env) (newTssCommon m) (((List.range 1000).map fun i => String.ofList (Json.natText i)).map fun k => .msg (madeUp "x" k) 99 sch)).cache.length = 1000 := by
  have h := (c149_made_up_bytes N env "x" 99 sch ((List.range 1000).map fun i => String.ofList (Json.natText i))
    (List.nodup_range.map fun a b h => by
      have h' := String.ofList_injective h
      rw [← JsonTexts.decimal_nat a, h', JsonTexts.decimal_nat])
    m (by rw [hm]; exact ⟨2, by decide +kernel⟩)).1
  rw [h]
  simp

/-- and of messages for two broadcasts two entries, however often they come -/
example (N : JsonMsg.Naming Nat) (env : Env Nat Nat) (m : Manager Nat Nat) (sch : Sched Nat) (n : Nat) :
    (run (JsonMsg.withJson N env) (newTssCommon m) ((List.range n).map fun i => .msg (madeUp "x" (if i % 2 = 0 then "1-KGRound1Message" else "2-KGRound1Message")) i sch)).cache.length ≤ 2 := by
  refine c149_honest _ m _ ["1-KGRound1Message", "2-KGRound1Message"] fun e he key hk => ?_
  obtain ⟨i, -, rfl⟩ := List.mem_map.1 he
  rw [names_unique hk (Or.inr ⟨_, _, madeUp_confirms N env "x" _ i sch⟩)]
  split <;> simp

end Verif.Props.Memory
