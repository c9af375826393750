import Verif.Model.OutBatch
import Verif.Lemmas.CacheKey
import Mathlib.Data.List.Induction

/-!
# C37: batching of outgoing shares
-/
set_option linter.unusedSectionVars false
namespace Verif.Props.Outgoing
open Verif.Go Verif.Messages Verif.TssCommon Verif.OutBatch

variable {P : Type}

/-! ## Specification -/

/-- Specification: the queue an output belongs to: its type and, for unicast, its destination -/
abbrev Queue := String × Option Nat

/-- Specification: the queue of an output with wire routing `r` -/
def queueOf (type : String) (r : Routing) : Queue := (type, if r.isBroadcast then none else r.to_.head?)

/-- Specification: `o` is an output as tss-lib produces it: it can be encoded, its type has no colon, it names a destination exactly
if it is unicast -/
structure Regular (o : Output) : Prop where
  wire : o.wire ≠ none
  type : ':' ∉ o.type.toList
  dest : ∀ b r, o.wire = some (b, r) → (r.isBroadcast = true → r.to_ = []) ∧ (r.isBroadcast = false → ∃ d, r.to_ = [d])

/-- Specification: the share of an output, if it belongs to queue `q` -/
def shareIn (q : Queue) (o : Output) : Option BulkWireMsg :=
  match o.wire with
  | none => none
  | some (b, r) => if queueOf o.type r = q then some ⟨b, o.moniker, some r⟩ else none

/-- Specification: `b` is a bulk message of queue `q` -/
def ofQueue (q : Queue) (b : Bulk P) : Bool :=
  match b.routing with
  | none => false
  | some r => decide (queueOf b.roundInfo r = q)

/-- Specification: the receivers for a queue -/
def receivers (env : Env P) : Queue → List P
  | (_, none) => env.p2pPeers
  | (_, some d) => (Map.get env.partyIDtoP2PID d).toList

/-! ## Keys -/

theorem colon_cut {a b x y : List Char} (ha : ':' ∉ a) (hb : ':' ∉ b) (h : a ++ ':' :: x = b ++ ':' :: y) : a = b ∧ x = y := by
  induction a generalizing b with
  | nil =>
    cases b with
    | nil => simpa using h
    | cons c b => simp at h; exact absurd h.1.symm (by simp at hb; exact fun e => hb.1 e.symm)
  | cons c a ih =>
    cases b with
    | nil => simp at h; exact absurd h.1 (by simp at ha; exact fun e => ha.1 e.symm)
    | cons d b =>
      simp at h ha hb
      obtain ⟨e, r⟩ := ih ha.2 hb.2 h.2
      exact ⟨by rw [h.1, e], r⟩

theorem key_toList (t d : String) : (t ++ ":" ++ d).toList = t.toList ++ ':' :: d.toList := by
  have : ":".toList = [':'] := rfl
  simp [String.toList_append, this]

theorem key_inj {t t' d d' : String} (ht : ':' ∉ t.toList) (ht' : ':' ∉ t'.toList) (h : t ++ ":" ++ d = t' ++ ":" ++ d') :
    t = t' ∧ d = d' := by
  have h' := congrArg String.toList h
  rw [key_toList, key_toList] at h'
  obtain ⟨e1, e2⟩ := colon_cut ht ht' h'
  exact ⟨String.toList_inj.1 e1, String.toList_inj.1 e2⟩

theorem beforeColon_key {t d : String} (ht : ':' ∉ t.toList) : beforeColon (t ++ ":" ++ d) = t := by
  unfold beforeColon
  rw [key_toList, List.takeWhile_append_of_pos]
  · simp
  · intro c hc
    simp only [ne_eq, decide_not, Bool.not_eq_eq_eq_not, Bool.not_true, decide_eq_false_iff_not]
    rintro rfl; exact ht hc

/-! ## The loops over the caches -/

/-- what a loop over a cache does when every attempt succeeds -/
theorem flush_spec (n : Nat) (mk : String → List BulkWireMsg → Bulk P) (σ : Shuffle (String × List BulkWireMsg)) (ok : String → Bool)
    (hok : ∀ k, ok k = true) (m : Map String (List BulkWireMsg)) (hm : Map.WF m) (sent : List (Bulk P)) :
    ∃ es : List (String × List BulkWireMsg), (es.map Prod.fst).Nodup ∧ (∀ k l, (k, l) ∈ es ↔ Map.get m k = some l ∧ l.length = n) ∧
      (flush n mk σ ok m sent).2 = sent ++ es.map (fun e => mk e.1 e.2) ∧ Map.WF (flush n mk σ ok m sent).1 ∧
      ∀ k, Map.get (flush n mk σ ok m sent).1 k = (Map.get m k).filter (fun l => l.length ≠ n) := by
  have gen : ∀ (todo : List (String × List BulkWireMsg)) (m0 : Map String (List BulkWireMsg)) (sent : List (Bulk P)),
      Map.WF m0 → (todo.map Prod.fst).Nodup → (∀ k l, (k, l) ∈ todo → Map.get m0 k = some l) →
      (todo.foldl (visit n mk ok) (m0, sent)).2 = sent ++ (todo.filter (fun e => e.2.length = n)).map (fun e => mk e.1 e.2) ∧
      Map.WF (todo.foldl (visit n mk ok) (m0, sent)).1 ∧
      ∀ k, Map.get (todo.foldl (visit n mk ok) (m0, sent)).1 k =
        if k ∈ todo.map Prod.fst then (Map.get m0 k).filter (fun l => l.length ≠ n) else Map.get m0 k := by
    intro todo
    induction todo with
    | nil => intro m0 sent hwf _ _; exact ⟨by simp, hwf, by simp⟩
    | cons e todo ih =>
      obtain ⟨k0, l0⟩ := e
      intro m0 sent hwf hnd hget
      simp only [List.map_cons, List.nodup_cons] at hnd
      have h0 := hget k0 l0 (by simp)
      rw [List.foldl_cons]
      by_cases hl : l0.length = n
      · have hv : visit n mk ok (m0, sent) (k0, l0) = (Map.del m0 k0, sent ++ [mk k0 l0]) := by
          simp [visit, hl, hok]
        rw [hv]
        obtain ⟨i1, i2, i3⟩ := ih (Map.del m0 k0) (sent ++ [mk k0 l0]) (Map.WF_del hwf _) hnd.2 (by
          intro k l hkl
          rw [Map.get_del_ne]
          · exact hget k l (by simp [hkl])
          · rintro rfl; exact hnd.1 (List.mem_map.2 ⟨_, hkl, rfl⟩))
        refine ⟨?_, i2, ?_⟩
        · rw [i1, List.filter_cons_of_pos (by simpa using hl)]; simp
        · intro k
          rw [i3 k, Map.get_del]
          by_cases hk : k = k0
          · subst hk
            rw [if_neg hnd.1, if_pos rfl, if_pos (by simp), h0]
            simp [Option.filter, hl]
          · simp only [List.map_cons, List.mem_cons, hk, false_or, if_false]
      · have hv : visit n mk ok (m0, sent) (k0, l0) = (m0, sent) := by simp [visit, hl]
        rw [hv]
        obtain ⟨i1, i2, i3⟩ := ih m0 sent hwf hnd.2 (fun k l hkl => hget k l (by simp [hkl]))
        refine ⟨?_, i2, ?_⟩
        · rw [i1, List.filter_cons_of_neg (by simpa using hl)]
        · intro k
          rw [i3 k]
          by_cases hk : k = k0
          · subst hk
            rw [if_neg hnd.1, if_pos (by simp), h0]
            simp [Option.filter, hl]
          · simp only [List.map_cons, List.mem_cons, hk, false_or]
  have hp := σ.perm m
  obtain ⟨h1, h2, h3⟩ := gen (σ.f m) m sent hm ((Map.WF_perm hp).2 hm) (by
    intro k l hkl
    exact Map.get_of_mem hm (hp.mem_iff.1 hkl))
  refine ⟨(σ.f m).filter (fun e => e.2.length = n), ?_, ?_, h1, h2, ?_⟩
  · have : Map.WF (σ.f m) := (Map.WF_perm hp).2 hm
    exact this.sublist (List.Sublist.map _ List.filter_sublist)
  · intro k l
    rw [List.mem_filter, hp.mem_iff, Map.mem_iff_get hm]
    simp
  · intro k
    unfold flush
    rw [h3 k]
    split
    · rfl
    · rename_i hk
      have : k ∉ Map.keys m := fun hm' => hk ((hp.map Prod.fst).mem_iff.2 hm')
      rw [(Map.get_eq_none_iff m k).2 this]; rfl

/-- no list is full: nothing happens -/
theorem flush_none (n : Nat) (mk : String → List BulkWireMsg → Bulk P) (σ : Shuffle (String × List BulkWireMsg)) (ok : String → Bool)
    (m : Map String (List BulkWireMsg)) (sent : List (Bulk P)) (h : ∀ e ∈ m, e.2.length ≠ n) :
    flush n mk σ ok m sent = (m, sent) := by
  unfold flush
  have : ∀ e ∈ σ.f m, e.2.length ≠ n := fun e he => h e (σ.mem.1 he)
  generalize σ.f m = l at this
  induction l with
  | nil => rfl
  | cons e l ih =>
    rw [List.foldl_cons, show visit n mk ok (m, sent) e = (m, sent) from by simp [visit, this e (by simp)]]
    exact ih (fun e he => this e (by simp [he]))

/-- at most the list of `k0` is full -/
theorem flush_one (n : Nat) (mk : String → List BulkWireMsg → Bulk P) (σ : Shuffle (String × List BulkWireMsg)) (ok : String → Bool)
    (hok : ∀ k, ok k = true) (m : Map String (List BulkWireMsg)) (hm : Map.WF m) (sent : List (Bulk P)) (k0 : String)
    (l0 : List BulkWireMsg) (h0 : Map.get m k0 = some l0) (h : ∀ k l, k ≠ k0 → Map.get m k = some l → l.length ≠ n) :
    (flush n mk σ ok m sent).2 = sent ++ (if l0.length = n then [mk k0 l0] else []) ∧ Map.WF (flush n mk σ ok m sent).1 ∧
    (∀ k, Map.get (flush n mk σ ok m sent).1 k = if k = k0 then (if l0.length = n then none else some l0) else Map.get m k) := by
  obtain ⟨es, h1, h2, h3, h4, h5⟩ := flush_spec n mk σ ok hok m hm sent
  refine ⟨?_, h4, ?_⟩
  · rw [h3]
    congr 1
    have hall : ∀ e ∈ es, e = (k0, l0) ∧ l0.length = n := by
      rintro ⟨k, l⟩ he
      obtain ⟨hk, hl⟩ := (h2 k l).1 he
      by_cases hkk : k = k0
      · subst hkk; rw [h0] at hk; cases hk; exact ⟨rfl, hl⟩
      · exact absurd hl (h k l hkk hk)
    split
    · rename_i hl
      have hmem := (h2 k0 l0).2 ⟨h0, hl⟩
      rcases es with _ | ⟨a, _ | ⟨b, es⟩⟩
      · simp at hmem
      · rw [(hall a (by simp)).1]; rfl
      · have e1 := (hall a (by simp)).1
        have e2 := (hall b (by simp)).1
        rw [e1, e2] at h1; simp at h1
    · rename_i hl
      rcases es with _ | ⟨a, es⟩
      · rfl
      · exact absurd (hall a (by simp)).2 hl
  · intro k
    rw [h5 k]
    split
    · rename_i hk; subst hk; rw [h0]; by_cases hl : l0.length = n <;> simp [Option.filter, hl]
    · rename_i hk
      rcases hg : Map.get m k with _ | l
      · rfl
      · simp [Option.filter, h k l hk hg]

/-! ## The invariant -/

/-- the shares waiting for queue `q` -/
def pend (env : Env P) (s : St P) : Queue → List BulkWireMsg
  | (t, none) => (Map.get s.bro t).getD []
  | (t, some d) => (Map.get s.uni (t ++ ":" ++ env.pstr d)).getD []

/-- the caches are in order -/
structure Tidy (env : Env P) (s : St P) : Prop where
  wfu : Map.WF s.uni
  wfb : Map.WF s.bro
  keyu : ∀ k ∈ Map.keys s.uni, ∃ t d, ':' ∉ t.toList ∧ k = t ++ ":" ++ env.pstr d
  shortu : ∀ k l, Map.get s.uni k = some l → l.length < env.msgNum
  shortb : ∀ k l, Map.get s.bro k = some l → l.length < env.msgNum

theorem Tidy.pend_short {env : Env P} {s : St P} (hn : 1 ≤ env.msgNum) (h : Tidy env s) (q : Queue) : (pend env s q).length < env.msgNum := by
  obtain ⟨t, _ | d⟩ := q
  · simp only [pend]
    rcases hg : Map.get s.bro t with _ | l
    · simp; omega
    · exact h.shortb t l hg
  · simp only [pend]
    rcases hg : Map.get s.uni (t ++ ":" ++ env.pstr d) with _ | l
    · simp; omega
    · exact h.shortu _ l hg

/-- the effect of one output -/
theorem process_desc (env : Env P) (hn : 1 ≤ env.msgNum) (hinj : Function.Injective env.pstr) (sch : Sched) (hok : ∀ k, sch.ok k = true)
    (o : Output) (hreg : Regular o) (b : Bytes) (r : Routing) (hw : o.wire = some (b, r)) (msgType : MsgType) (s : St P)
    (ht : Tidy env s) :
    let q0 := queueOf o.type r
    let l := pend env s q0 ++ [⟨b, o.moniker, some r⟩]
    let s' := (ProcessOutCh env sch o msgType s).1
    Tidy env s' ∧ (ProcessOutCh env sch o msgType s).2 = .ok () ∧
    (∀ q : Queue, ':' ∉ q.1.toList → pend env s' q = if q = q0 then (if l.length = env.msgNum then [] else l) else pend env s q) ∧
    s'.sent = s.sent ++ (if l.length = env.msgNum then [sendBulkMsg env q0.1 msgType l] else []) := by
  obtain ⟨hd1, hd2⟩ := hreg.dest b r hw
  have hshu : ∀ e ∈ s.uni, e.2.length ≠ env.msgNum := fun e he => by
    have := ht.shortu e.1 e.2 (Map.get_of_mem ht.wfu he); omega
  have hshb : ∀ e ∈ s.bro, e.2.length ≠ env.msgNum := fun e he => by
    have := ht.shortb e.1 e.2 (Map.get_of_mem ht.wfb he); omega
  intro q0 l s'
  have hlen : l.length ≤ env.msgNum := by
    have := ht.pend_short hn q0
    simp [l]; omega
  by_cases hb : r.isBroadcast = true
  · have hq0 : q0 = (o.type, none) := by simp [q0, queueOf, hb]
    have hl : l = (Map.get s.bro o.type).getD [] ++ [⟨b, o.moniker, some r⟩] := by simp only [l, hq0, pend]
    have happ : append s.bro o.type ⟨b, o.moniker, some r⟩ = Map.set s.bro o.type l := by rw [hl]; rfl
    obtain ⟨f1, f2, f3⟩ := flush_one env.msgNum (fun key l => sendBulkMsg env key msgType l) sch.σb sch.ok hok (Map.set s.bro o.type l)
      (Map.WF_set ht.wfb _ _) s.sent o.type l (Map.get_set_self _ _ _) (by
        intro k l' hk hg
        rw [Map.get_set_ne _ _ hk] at hg
        have := ht.shortb k l' hg; omega)
    have hs : ProcessOutCh env sch o msgType s = (⟨s.uni,
        (flush env.msgNum (fun key l => sendBulkMsg env key msgType l) sch.σb sch.ok (Map.set s.bro o.type l) s.sent).1,
        (flush env.msgNum (fun key l => sendBulkMsg env key msgType l) sch.σb sch.ok (Map.set s.bro o.type l) s.sent).2⟩, .ok ()) := by
      unfold ProcessOutCh
      rw [hw]
      dsimp only
      rw [if_pos hb, happ, flush_none _ _ _ _ _ _ hshu]
    have hs' : s' = _ := congrArg Prod.fst hs
    rw [hs']
    dsimp only
    refine ⟨⟨ht.wfu, f2, ht.keyu, ht.shortu, ?_⟩, by rw [hs], ?_, ?_⟩
    · intro k l' hg
      dsimp only at hg
      rw [f3 k] at hg
      split at hg
      · split at hg
        · cases hg
        · cases hg; omega
      · rename_i hk
        rw [Map.get_set_ne _ _ hk] at hg
        exact ht.shortb k l' hg
    · rintro ⟨t, _ | d⟩ hq
      · simp only [pend, hq0, Prod.mk.injEq, and_true]
        rw [f3 t]
        split
        · split <;> rfl
        · rename_i hk; rw [Map.get_set_ne _ _ hk]
      · simp only [pend, hq0, Prod.mk.injEq, reduceCtorEq, and_false, if_false]
    · rw [f1, hq0]
  · have hb' : r.isBroadcast = false := by simpa using hb
    obtain ⟨d0, hd0⟩ := hd2 hb'
    have hq0 : q0 = (o.type, some d0) := by simp [q0, queueOf, hb', hd0]
    have hl : l = (Map.get s.uni (o.type ++ ":" ++ env.pstr d0)).getD [] ++ [⟨b, o.moniker, some r⟩] := by simp only [l, hq0, pend]
    have happ : append s.uni (o.type ++ ":" ++ env.pstr d0) ⟨b, o.moniker, some r⟩ = Map.set s.uni (o.type ++ ":" ++ env.pstr d0) l := by
      rw [hl]; rfl
    obtain ⟨f1, f2, f3⟩ := flush_one env.msgNum (fun key l => sendBulkMsg env (beforeColon key) msgType l) sch.σu sch.ok hok
      (Map.set s.uni (o.type ++ ":" ++ env.pstr d0) l)
      (Map.WF_set ht.wfu _ _) s.sent (o.type ++ ":" ++ env.pstr d0) l (Map.get_set_self _ _ _) (by
        intro k l' hk hg
        rw [Map.get_set_ne _ _ hk] at hg
        have := ht.shortu k l' hg; omega)
    have hs : ProcessOutCh env sch o msgType s = (⟨
        (flush env.msgNum (fun key l => sendBulkMsg env (beforeColon key) msgType l) sch.σu sch.ok
          (Map.set s.uni (o.type ++ ":" ++ env.pstr d0) l) s.sent).1, s.bro,
        (flush env.msgNum (fun key l => sendBulkMsg env (beforeColon key) msgType l) sch.σu sch.ok
          (Map.set s.uni (o.type ++ ":" ++ env.pstr d0) l) s.sent).2⟩, .ok ()) := by
      unfold ProcessOutCh
      rw [hw]
      dsimp only
      rw [if_neg hb, hd0]
      dsimp only
      rw [happ, flush_none _ _ _ _ s.bro _ hshb]
    have hs' : s' = _ := congrArg Prod.fst hs
    rw [hs']
    dsimp only
    refine ⟨⟨f2, ht.wfb, ?_, ?_, ht.shortb⟩, by rw [hs], ?_, ?_⟩
    · intro k hk
      dsimp only at hk
      have := (Map.get_isSome_iff _ _).2 hk
      rw [f3 k] at this
      split at this
      · rename_i hk'; exact ⟨o.type, d0, hreg.type, hk'⟩
      · rename_i hk'
        rw [Map.get_set_ne _ _ hk'] at this
        exact ht.keyu k ((Map.get_isSome_iff _ _).1 this)
    · intro k l' hg
      dsimp only at hg
      rw [f3 k] at hg
      split at hg
      · split at hg
        · cases hg
        · cases hg; omega
      · rename_i hk
        rw [Map.get_set_ne _ _ hk] at hg
        exact ht.shortu k l' hg
    · rintro ⟨t, _ | d⟩ hq
      · simp only [pend, hq0, Prod.mk.injEq, reduceCtorEq, and_false, if_false]
      · simp only [pend, hq0, Prod.mk.injEq, Option.some.injEq]
        rw [f3]
        by_cases he : t = o.type ∧ d = d0
        · obtain ⟨rfl, rfl⟩ := he
          simp only [and_self, if_true]
          split <;> rfl
        · rw [if_neg he, if_neg, Map.get_set_ne]
          · intro hk; obtain ⟨e1, e2⟩ := key_inj hq hreg.type hk; exact he ⟨e1, hinj e2⟩
          · intro hk; obtain ⟨e1, e2⟩ := key_inj hq hreg.type hk; exact he ⟨e1, hinj e2⟩
    · rw [f1, hq0, beforeColon_key hreg.type]

/-- the invariant of a session -/
structure Inv (env : Env P) (msgType : MsgType) (outs : List Output) (s : St P) : Prop where
  tidy : Tidy env s
  split : ∀ q : Queue, ':' ∉ q.1.toList → (s.sent.filter (ofQueue q)).flatMap Bulk.shares ++ pend env s q = outs.filterMap (shareIn q)
  sent : ∀ b ∈ s.sent, b.shares.length = env.msgNum ∧ b.msgType = msgType ∧
    ∃ q : Queue, ':' ∉ q.1.toList ∧ b.roundInfo = q.1 ∧ ofQueue q b = true ∧ b.peers = receivers env q ∧
      ∀ x ∈ b.shares, ∃ o ∈ outs, shareIn q o = some x

theorem shareIn_routing {q : Queue} {o : Output} {x : BulkWireMsg} (h : shareIn q o = some x) :
    ∃ b r, o.wire = some (b, r) ∧ x = ⟨b, o.moniker, some r⟩ ∧ queueOf o.type r = q := by
  unfold shareIn at h
  rcases hw : o.wire with _ | ⟨b, r⟩
  · rw [hw] at h; cases h
  · rw [hw] at h
    dsimp only at h
    split at h
    · rename_i hq; cases h; exact ⟨b, r, rfl, rfl, hq⟩
    · cases h

theorem inv_step (env : Env P) (hn : 1 ≤ env.msgNum) (hinj : Function.Injective env.pstr) (msgType : MsgType) (sch : Sched)
    (hok : ∀ k, sch.ok k = true) (o : Output) (hreg : Regular o) (outs : List Output) (hall : ∀ o' ∈ outs, Regular o') (s : St P)
    (h : Inv env msgType outs s) :
    Inv env msgType (outs ++ [o]) (ProcessOutCh env sch o msgType s).1 := by
  rcases hw : o.wire with _ | ⟨b, r⟩
  · exact absurd hw hreg.wire
  · obtain ⟨h1, _, h2, h3⟩ := process_desc env hn hinj sch hok o hreg b r hw msgType s h.tidy
    generalize (ProcessOutCh env sch o msgType s).1 = s' at *
    have hx : ∀ q, shareIn q o = if queueOf o.type r = q then some ⟨b, o.moniker, some r⟩ else none := by
      intro q; unfold shareIn; rw [hw]
    generalize hq0 : queueOf o.type r = q0 at *
    have hq0t : q0.1 = o.type := by rw [← hq0]; rfl
    have hcol : ':' ∉ q0.1.toList := by rw [hq0t]; exact hreg.type
    generalize hl : pend env s q0 ++ [(⟨b, o.moniker, some r⟩ : BulkWireMsg)] = l at *
    have hne : l ≠ [] := by rw [← hl]; simp
    -- the shares of the list belong to the queue
    have hmem : ∀ x ∈ l, ∃ o' ∈ outs ++ [o], shareIn q0 o' = some x := by
      intro x hxl
      rw [← hl, List.mem_append, List.mem_singleton] at hxl
      rcases hxl with hxl | rfl
      · have : x ∈ outs.filterMap (shareIn q0) := by rw [← h.split q0 hcol]; simp [hxl]
        obtain ⟨o', ho', hs⟩ := List.mem_filterMap.1 this
        exact ⟨o', by simp [ho'], hs⟩
      · exact ⟨o, by simp, by rw [hx, if_pos rfl]⟩
    obtain ⟨x0, l', hl'⟩ : ∃ x0 l', l = x0 :: l' := by
      cases l with
      | nil => exact absurd rfl hne
      | cons x0 l' => exact ⟨x0, l', rfl⟩
    obtain ⟨o0, ho0, hs0⟩ := hmem x0 (by rw [hl']; simp)
    obtain ⟨b0, r0, hw0, hx0, hqq⟩ := shareIn_routing hs0
    have ho0r : Regular o0 := by
      rcases List.mem_append.1 ho0 with ho | ho
      · exact hall o0 ho
      · simp at ho; rw [ho]; exact hreg
    have hqr : queueOf q0.1 r0 = q0 := by
      rw [← hqq]; rfl
    have hbulk : ∀ q, ofQueue q (sendBulkMsg env q0.1 msgType l) = decide (q = q0) := by
      intro q
      simp only [ofQueue, sendBulkMsg, hl', hx0, List.head?_cons, Option.bind_some, hqr]
      exact decide_eq_decide.2 ⟨Eq.symm, Eq.symm⟩
    refine ⟨h1, ?_, ?_⟩
    · intro q hq
      have hold := h.split q hq
      rw [h3, h2 q hq, List.filter_append, List.flatMap_append, List.filterMap_append]
      by_cases hqq0 : q = q0
      · subst hqq0
        rw [if_pos rfl]
        simp only [List.filterMap_cons, List.filterMap_nil, hx, if_true]
        rw [← hold, List.append_assoc, List.append_assoc, hl]
        congr 1
        split
        · rw [List.filter_cons_of_pos (by rw [hbulk]; simp)]
          simp [sendBulkMsg]
        · simp
      · rw [if_neg hqq0]
        simp only [List.filterMap_cons, List.filterMap_nil, hx, if_neg (Ne.symm hqq0)]
        rw [← hold]
        have : (if l.length = env.msgNum then [sendBulkMsg env q0.1 msgType l] else []).filter (ofQueue q) = [] := by
          split
          · rw [List.filter_cons_of_neg (by rw [hbulk]; simpa using hqq0)]; rfl
          · rfl
        rw [this]; simp
    · intro bk hbk
      rw [h3, List.mem_append] at hbk
      rcases hbk with hbk | hbk
      · obtain ⟨e1, e2, q, e3, e4, e5, e6, e7⟩ := h.sent bk hbk
        refine ⟨e1, e2, q, e3, e4, e5, e6, ?_⟩
        intro x hx'
        obtain ⟨o', ho', hs⟩ := e7 x hx'
        exact ⟨o', by simp [ho'], hs⟩
      · split at hbk
        · rename_i hfull
          simp only [List.mem_singleton] at hbk
          subst hbk
          refine ⟨hfull, rfl, q0, hcol, rfl, by rw [hbulk]; simp, ?_, hmem⟩
          simp only [sendBulkMsg, hl', hx0, List.head?_cons, Option.bind_some, Option.map_some, Option.getD_some]
          obtain ⟨d1, d2⟩ := ho0r.dest b0 r0 hw0
          by_cases hb : r0.isBroadcast = true
          · rw [d1 hb]
            have : q0 = (q0.1, none) := by rw [← hqq]; simp [queueOf, hb]
            rw [this]; rfl
          · have hb' : r0.isBroadcast = false := by simpa using hb
            obtain ⟨d, hd⟩ := d2 hb'
            have : q0 = (q0.1, some d) := by rw [← hqq]; simp [queueOf, hb', hd]
            rw [this, hd]
            simp only [receivers, List.length_singleton, Nat.one_ne_zero, if_false]
            rcases hg : Map.get env.partyIDtoP2PID d with _ | p <;> simp [hg]
        · simp at hbk

theorem inv_run (env : Env P) (hn : 1 ≤ env.msgNum) (hinj : Function.Injective env.pstr) (msgType : MsgType)
    (outs : List (Sched × Output)) : ∀ (done : List Output) (s : St P), Inv env msgType done s → (∀ o ∈ done, Regular o) →
      (∀ e ∈ outs, Regular e.2 ∧ ∀ k, e.1.ok k = true) → Inv env msgType (done ++ outs.map Prod.snd) (runOut env msgType s outs) := by
  induction outs with
  | nil => intro done s h _ _; simpa [runOut] using h
  | cons e outs ih =>
    obtain ⟨sch, o⟩ := e
    intro done s h hd hr
    obtain ⟨hr1, hr2⟩ := hr (sch, o) (by simp)
    have := ih (done ++ [o]) _ (inv_step env hn hinj msgType sch hr2 o hr1 done hd s h) (by
      intro o' ho'
      rcases List.mem_append.1 ho' with ho' | ho'
      · exact hd o' ho'
      · simp at ho'; rw [ho']; exact hr1) (fun e he => hr e (by simp [he]))
    simpa [runOut] using this

/-- C37: for every sequence of protocol outputs, every batch size of at least one and every visiting order: for each type and
destination, the shares sent in bulk messages followed by fewer than a batch of waiting ones are exactly the shares produced, in
order; each bulk message has exactly as many shares as there are messages to sign, all of its own type and destination, and goes to
all peers (broadcast) or the peer of the destination (unicast). -/
theorem c37_batching (env : Env P) (hn : 1 ≤ env.msgNum) (hinj : Function.Injective env.pstr) (msgType : MsgType)
    (outs : List (Sched × Output)) (hreg : ∀ e ∈ outs, Regular e.2) (hok : ∀ e ∈ outs, ∀ k, e.1.ok k = true) :
    (∃ waiting : Queue → List BulkWireMsg, ∀ q, (waiting q).length < env.msgNum ∧
      ((runOut env msgType init outs).sent.filter (ofQueue q)).flatMap Bulk.shares ++ waiting q =
        (outs.map Prod.snd).filterMap (shareIn q)) ∧
    ∀ b ∈ (runOut env msgType init outs).sent, b.shares.length = env.msgNum ∧ b.msgType = msgType ∧
      ∃ q, b.roundInfo = q.1 ∧ ofQueue q b = true ∧ b.peers = receivers env q ∧
        ∀ x ∈ b.shares, ∃ e ∈ outs, shareIn q e.2 = some x := by
  have hinv := inv_run env hn hinj msgType outs [] init ⟨⟨Map.WF_nil, Map.WF_nil, by simp [init], by simp [init], by simp [init]⟩,
    (by rintro ⟨t, _ | d⟩ _ <;> simp [init, pend]), by simp [init]⟩ (by simp) (fun e he => ⟨hreg e he, hok e he⟩)
  rw [List.nil_append] at hinv
  generalize runOut env msgType init outs = s at *
  refine ⟨⟨fun q => if ':' ∈ q.1.toList then [] else pend env s q, ?_⟩, ?_⟩
  · intro q
    dsimp only
    by_cases hq : ':' ∈ q.1.toList
    · rw [if_pos hq]
      refine ⟨by simp; omega, ?_⟩
      have h1 : s.sent.filter (ofQueue q) = [] := by
        rw [List.filter_eq_nil_iff]
        intro b hb hbq
        obtain ⟨_, _, q', hq', hr, _⟩ := hinv.sent b hb
        unfold ofQueue at hbq
        rcases hbr : b.routing with _ | r
        · rw [hbr] at hbq; cases hbq
        · rw [hbr] at hbq
          have := of_decide_eq_true hbq
          rw [← this] at hq
          exact hq' (by rw [← hr]; exact hq)
      have h2 : (outs.map Prod.snd).filterMap (shareIn q) = [] := by
        rw [List.filterMap_eq_nil_iff]
        intro o ho
        rcases hs : shareIn q o with _ | x
        · rfl
        · obtain ⟨b, r, _, _, hqq⟩ := shareIn_routing hs
          obtain ⟨e, he, rfl⟩ := List.mem_map.1 ho
          rw [← hqq] at hq
          exact absurd hq (hreg e he).type
      rw [h1, h2]; rfl
    · rw [if_neg hq]
      exact ⟨hinv.tidy.pend_short hn q, hinv.split q hq⟩
  · intro b hb
    obtain ⟨e1, e2, q, _, e4, e5, e6, e7⟩ := hinv.sent b hb
    refine ⟨e1, e2, q, e4, e5, e6, ?_⟩
    intro x hx
    obtain ⟨o, ho, hs⟩ := e7 x hx
    obtain ⟨e, he, rfl⟩ := List.mem_map.1 ho
    exact ⟨e, he, hs⟩

/-! ## A concrete session: two messages to sign, three parties -/

/-- parties 1 and 2 are the others -/
def demoEnv : Env Nat := ⟨2, [71, 72], [(1, 71), (2, 72)], fun n => String.ofList (List.replicate n 'x')⟩

theorem demoEnv_inj : Function.Injective demoEnv.pstr := by
  intro a b h
  have := congrArg (fun s => s.toList.length) h
  simpa [demoEnv] using this

/-- all visits in order, all attempts succeed -/
def fine : Sched := ⟨Shuffle.id _, Shuffle.id _, fun _ => true⟩

def demoOut (type moniker : String) (b : UInt8) (bc : Bool) (d : List Nat) : Output := ⟨type, moniker, some ([b], ⟨none, d, bc⟩)⟩

def demoOuts : List (Sched × Output) :=
  [(fine, demoOut "R1" "m:0" 1 false [1]), (fine, demoOut "R1" "m:0" 2 false [2]), (fine, demoOut "R2" "m:0" 3 true []),
   (fine, demoOut "R1" "n:1" 4 false [1]), (fine, demoOut "R2" "n:1" 5 true [])]

theorem demo_regular : ∀ e ∈ demoOuts, Regular e.2 := by
  simp only [demoOuts, List.forall_mem_cons]
  refine ⟨?_, ?_, ?_, ?_, ?_, by simp⟩ <;>
    exact ⟨by simp [demoOut], by simp [demoOut], by rintro b r h; cases h; simp⟩

/-- the hypotheses of `c37_batching` are met -/
example := c37_batching demoEnv (by decide) demoEnv_inj TSSKeySignMsg demoOuts demo_regular (by
  simp only [demoOuts, List.forall_mem_cons]
  exact ⟨fun _ => rfl, fun _ => rfl, fun _ => rfl, fun _ => rfl, fun _ => rfl, by simp⟩)

/-- two bulk messages leave: the two shares for party 1, and the two broadcast shares; the share for party 2 waits -/
example : (runOut demoEnv TSSKeySignMsg init demoOuts).sent.map (fun b => (b.roundInfo, b.shares.map BulkWireMsg.wired, b.peers)) =
    [("R1", [[1], [4]], [71]), ("R2", [[3], [5]], [71, 72])] := by decide +kernel

/-- the statement of C37 without the provision that encoding and signing succeed -/
def AlwaysBatches : Prop :=
  ∀ (env : Env Nat) (msgType : MsgType) (outs : List (Sched × Output)), 1 ≤ env.msgNum → Function.Injective env.pstr →
    (∀ e ∈ outs, Regular e.2) → ∀ q, ∃ waiting : List BulkWireMsg, waiting.length < env.msgNum ∧
      ((runOut env msgType init outs).sent.filter (ofQueue q)).flatMap Bulk.shares ++ waiting = (outs.map Prod.snd).filterMap (shareIn q)

/-- every attempt fails -/
def failing : Sched := ⟨Shuffle.id _, Shuffle.id _, fun _ => false⟩

/-- C37, the provision is needed: when one attempt to send a full list fails, the list outgrows the batch size with the next share and
is never sent again, although all later attempts succeed. -/
theorem c37_failed_send_loses_queue : ¬ AlwaysBatches := by
  intro h
  obtain ⟨w, hw1, hw2⟩ := h demoEnv TSSKeySignMsg
    [(fine, demoOut "R2" "a" 1 true []), (failing, demoOut "R2" "b" 2 true []), (fine, demoOut "R2" "c" 3 true []),
     (fine, demoOut "R2" "d" 4 true [])] (by decide) demoEnv_inj (by
      simp only [List.forall_mem_cons]
      refine ⟨?_, ?_, ?_, ?_, by simp⟩ <;>
        exact ⟨by simp [demoOut], by simp [demoOut], by rintro b r h; cases h; simp⟩) ("R2", none)
  have e : (runOut demoEnv TSSKeySignMsg init
    [(fine, demoOut "R2" "a" 1 true []), (failing, demoOut "R2" "b" 2 true []), (fine, demoOut "R2" "c" 3 true []),
     (fine, demoOut "R2" "d" 4 true [])]).sent = [] := by decide +kernel
  rw [e] at hw2
  have := congrArg List.length hw2
  have e2 : (((([(fine, demoOut "R2" "a" 1 true []), (failing, demoOut "R2" "b" 2 true []), (fine, demoOut "R2" "c" 3 true []),
     (fine, demoOut "R2" "d" 4 true [])] : List (Sched × Output)).map Prod.snd).filterMap (shareIn ("R2", none)))).length = 4 := by
    decide +kernel
  rw [e2] at this
  simp at this
  have hd : demoEnv.msgNum = 2 := rfl
  omega

end Verif.Props.Outgoing
