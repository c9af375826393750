import Verif.Spec.SessNet
import Verif.Lemmas.Progress
import Verif.Props.C72_C73

/-! What the messages on the network of a session look like when all members behave. -/
set_option linter.unusedSectionVars false
namespace Verif.SessNet
open Verif.Go Verif.Conversion Verif.Messages Verif.Blame Verif.TssCommon Verif.Spec Verif.Props.Sent Verif.Threshold
open scoped List

variable {K P : Type} [DecidableEq K] [DecidableEq P]

theorem micro_sent {env : TssCommon.Env K P} {e : Event P} {s s' : TssCommon.St K P} (h : Micro env e s s') : s.sent <+: s'.sent := by
  cases h with
  | work id => rw [(stepJob_sent env id s).1]
  | ask => exact List.prefix_append _ _
  | sendConfirm => exact List.prefix_append _ _
  | sendAnswer => exact List.prefix_append _ _
  | queue => exact List.prefix_rfl
  | arrive => exact List.prefix_rfl
  | vote => exact List.prefix_rfl
  | blameOwner => exact List.prefix_rfl
  | blameSplit => exact List.prefix_rfl
  | dropMsg => exact List.prefix_rfl
  | store => exact List.prefix_rfl
  | unicast => exact List.prefix_rfl
  | forget => exact List.prefix_rfl
  | askSilent => exact List.prefix_rfl
  | answer => exact List.prefix_rfl
  | done => exact List.prefix_rfl
  | crash => exact List.prefix_rfl

theorem step_sent (env : TssCommon.Env K P) (s : TssCommon.St K P) (e : Event P) : s.sent <+: (TssCommon.step env s e).sent := by
  have h := step_micro env s e
  generalize TssCommon.step env s e = s' at h
  induction h with
  | refl => exact List.prefix_rfl
  | tail _ h ih => exact ih.trans (micro_sent h)

theorem drop_prefix {α : Type} {a b : List α} (h : a <+: b) : b = a ++ b.drop a.length := by
  obtain ⟨c, rfl⟩ := h
  simp

/-! ## bulks -/

/-- what a bulk of a node looks like -/
def BulkOf (env : OutBatch.Env P) (t : MsgType) (b : OutBatch.Bulk P) : Prop := ∃ k l, b = OutBatch.sendBulkMsg env k t l

theorem flush_sent (n : Nat) (mk : String → List BulkWireMsg → OutBatch.Bulk P) (σ : Shuffle (String × List BulkWireMsg)) (ok : String → Bool)
    (m : Map String (List BulkWireMsg)) (sent : List (OutBatch.Bulk P)) :
    ∃ new, (OutBatch.flush n mk σ ok m sent).2 = sent ++ new ∧ ∀ b ∈ new, ∃ k l, b = mk k l := by
  unfold OutBatch.flush
  generalize σ.f m = todo
  induction todo generalizing m sent with
  | nil => exact ⟨[], by simp, by simp⟩
  | cons e todo ih =>
    rw [List.foldl_cons]
    unfold OutBatch.visit
    split
    · split
      · obtain ⟨new, h1, h2⟩ := ih (Map.del m e.1) (sent ++ [mk e.1 e.2])
        refine ⟨mk e.1 e.2 :: new, ?_, ?_⟩
        · rw [List.append_assoc] at h1; exact h1
        · intro b hb
          rcases List.mem_cons.1 hb with rfl | hb
          · exact ⟨_, _, rfl⟩
          · exact h2 b hb
      · exact ih m sent
    · exact ih m sent

theorem processOut_sent (env : OutBatch.Env P) (sch : OutBatch.Sched) (o : OutBatch.Output) (t : MsgType) (s : OutBatch.St P) :
    ∃ new, (OutBatch.ProcessOutCh env sch o t s).1.sent = s.sent ++ new ∧ ∀ b ∈ new, BulkOf env t b := by
  unfold OutBatch.ProcessOutCh
  have fin : ∀ uni bro, ∃ new,
      (OutBatch.flush env.msgNum (fun key l => OutBatch.sendBulkMsg env key t l) sch.σb sch.ok bro
        (OutBatch.flush env.msgNum (fun key l => OutBatch.sendBulkMsg env (OutBatch.beforeColon key) t l) sch.σu sch.ok uni s.sent).2).2 =
        s.sent ++ new ∧ ∀ b ∈ new, BulkOf env t b := by
    intro uni bro
    obtain ⟨n1, h1, h2⟩ := flush_sent env.msgNum (fun key l => OutBatch.sendBulkMsg env (OutBatch.beforeColon key) t l) sch.σu sch.ok uni s.sent
    obtain ⟨n2, h3, h4⟩ := flush_sent env.msgNum (fun key l => OutBatch.sendBulkMsg env key t l) sch.σb sch.ok bro
      (OutBatch.flush env.msgNum (fun key l => OutBatch.sendBulkMsg env (OutBatch.beforeColon key) t l) sch.σu sch.ok uni s.sent).2
    refine ⟨n1 ++ n2, by rw [h3, h1, List.append_assoc], ?_⟩
    intro b hb
    rcases List.mem_append.1 hb with hb | hb
    · obtain ⟨k, l, rfl⟩ := h2 b hb; exact ⟨_, _, rfl⟩
    · obtain ⟨k, l, rfl⟩ := h4 b hb; exact ⟨_, _, rfl⟩
  rcases hw : o.wire with _ | ⟨data, r⟩
  · exact ⟨[], by simp, by simp⟩
  · dsimp only
    split
    · exact fin _ _
    · rcases r.to_ with _ | ⟨d, ds⟩
      · exact ⟨[], by simp, by simp⟩
      · exact fin _ _

/-! ## the messages meant for a node -/

/-- the messages which the other members send to `q`; `S` are the bulks of the members -/
def Meant (enc : Encoders P) (peers : Map Nat P) (site : P → Site K P) (S : P → List (OutBatch.Bulk P)) (q : P) (w : WireMessage) : Prop :=
  ∃ p, Member peers p ∧ p ≠ q ∧ ∃ b ∈ S p, q ∈ b.peers ∧ w = wireOf enc (site p) b

/-- what is assumed of the bulks -/
structure Bulks (base : TssCommon.Env K P) (peers : Map Nat P) (site : P → Site K P) (S : P → List (OutBatch.Bulk P)) : Prop where
  good : ∀ i q, Map.get peers i = some q → GoodBulks base i (S q)
  made : ∀ q, Member peers q → ∀ b ∈ S q, BulkOf (site q).out (site q).type b
  accepts : ∀ q p, Member peers q → Member peers p → p ≠ q → ∀ b ∈ S p, q ∈ b.peers → ∀ x ∈ b.shares, ∀ r i, x.routing = some r →
    r.sender = some i → ∀ log, (site q).env.upd log ⟨x.ident, i, r.isBroadcast, x.wired⟩ = none

section
variable {enc : Encoders P} {base : TssCommon.Env K P} {ids : Map Nat Party} {peers : Map Nat P} {site : P → Site K P}
  {S : P → List (OutBatch.Bulk P)}

theorem _root_.Verif.Spec.Setting.dec (hs : Setting enc base ids peers site) {q : P} (hq : Member peers q) : Lossless enc (site q).env := by
  rw [hs.env q hq]
  exact ⟨hs.lossless.wrap, hs.lossless.wire, hs.lossless.confirm, hs.lossless.control, hs.lossless.task, hs.lossless.bulk⟩

theorem _root_.Verif.Spec.Setting.loc (hs : Setting enc base ids peers site) {q : P} (hq : Member peers q) : (site q).env.localPeer = q := by
  rw [hs.env q hq]

theorem _root_.Verif.Spec.Setting.hash (hs : Setting enc base ids peers site) {q : P} (hq : Member peers q) : (site q).env.hash = base.hash := by
  rw [hs.env q hq]

theorem _root_.Verif.Spec.Setting.parties (hs : Setting enc base ids peers site) {q : P} (hq : Member peers q) : (site q).env.parties = base.parties := by
  rw [hs.env q hq]

theorem _root_.Verif.Spec.Setting.parse (hs : Setting enc base ids peers site) {q : P} (hq : Member peers q) : (site q).env.parse = base.parse := by
  rw [hs.env q hq]

theorem _root_.Verif.Spec.Setting.verify (hs : Setting enc base ids peers site) {q : P} (hq : Member peers q) :
    (site q).env.verify = base.verify ∧ (site q).env.msgID = base.msgID := by
  rw [hs.env q hq]; exact ⟨rfl, rfl⟩

theorem _root_.Verif.Spec.Setting.inj (hs : Setting enc base ids peers site) {i j : Nat} {p : P} (hi : Map.get peers i = some p) (hj : Map.get peers j = some p) :
    i = j := by
  have hc := hs.committee p ⟨i, hi⟩
  have h := hc.inj i j p
  rw [hs.peerMap p ⟨i, hi⟩, hs.peerMap p ⟨i, hi⟩] at h
  exact h hi hj

theorem _root_.Verif.Spec.Setting.party (hs : Setting enc base ids peers site) {i : Nat} {p : P} (hi : Map.get peers i = some p) :
    ∃ pt, Map.get ids i = some pt := by
  have hc := hs.committee p ⟨i, hi⟩
  have h := hc.same i
  rw [hs.idMap p ⟨i, hi⟩] at h
  have := h.1 (by rw [← Map.get_isSome_iff, hs.peerMap p ⟨i, hi⟩, hi]; rfl)
  rw [← Map.get_isSome_iff] at this
  exact Option.isSome_iff_exists.1 this

/-- the sender of a bulk -/
theorem wireOf_sender (hb : Bulks base peers site S) {i : Nat} {p : P} (hi : Map.get peers i = some p) {b : OutBatch.Bulk P}
    (h : b ∈ S p) : (wireOf enc (site p) b).sender = some i := by
  obtain ⟨r, h1, h2, -⟩ := (hb.good i p hi).routing b h
  simp [wireOf, WireMessage.sender, h1, h2]

theorem wireOf_broadcast {p : P} {b : OutBatch.Bulk P} :
    (wireOf enc (site p) b).isBroadcast = true ↔ ∃ r, b.routing = some r ∧ r.isBroadcast = true := by
  unfold wireOf WireMessage.isBroadcast
  rcases b.routing with _ | r <;> simp

/-- a broadcast goes to all the others -/
theorem broadcast_peers (hs : Setting enc base ids peers site) (hb : Bulks base peers site S) {p q : P} (hp : Member peers p) (hq : Member peers q)
    (hne : q ≠ p) {b : OutBatch.Bulk P} (h : b ∈ S p) (hbc : (wireOf enc (site p) b).isBroadcast = true) : q ∈ b.peers := by
  obtain ⟨i, hi⟩ := hp
  obtain ⟨r, h1, h2⟩ := wireOf_broadcast.1 hbc
  obtain ⟨r', h1', -, h3⟩ := (hb.good i p hi).routing b h
  rw [h1] at h1'; cases h1'
  obtain ⟨k, l, rfl⟩ := hb.made p ⟨i, hi⟩ b h
  have hr : l.head?.bind BulkWireMsg.routing = some r := h1
  simp only [OutBatch.sendBulkMsg, hr, Option.map_some, Option.getD_some, h3 h2, List.length_nil, if_true]
  rw [(hs.outPeers p ⟨i, hi⟩).1, hs.others p ⟨i, hi⟩]
  exact ⟨hq, hne⟩

theorem bulk_peers (hs : Setting enc base ids peers site) (hb : Bulks base peers site S) {p q : P} (hp : Member peers p)
    {b : OutBatch.Bulk P} (h : b ∈ S p) (hq : q ∈ b.peers) : Member peers q := by
  obtain ⟨k, l, rfl⟩ := hb.made p hp b h
  simp only [OutBatch.sendBulkMsg] at hq
  split at hq
  · rw [(hs.outPeers p hp).1, hs.others p hp] at hq
    exact hq.1
  · obtain ⟨j, -, hj⟩ := List.mem_filterMap.1 hq
    rw [(hs.outPeers p hp).2] at hj
    exact ⟨j, hj⟩

theorem Meant.other (_hs : Setting enc base ids peers site) (hb : Bulks base peers site S) {q : P} {w : WireMessage}
    (hw : Meant enc peers site S q w) : ∃ i p, Map.get peers i = some p ∧ p ≠ q ∧ w.sender = some i ∧ ∃ b ∈ S p, q ∈ b.peers ∧
      w = wireOf enc (site p) b := by
  obtain ⟨p, ⟨i, hi⟩, hne, b, h1, h2, rfl⟩ := hw
  exact ⟨i, p, hi, hne, wireOf_sender hb hi h1, b, h1, h2, rfl⟩

/-- a broadcast meant for one is meant for all but its owner -/
theorem Meant.all (hs : Setting enc base ids peers site) (hb : Bulks base peers site S) {q q' : P} {w : WireMessage} {i : Nat} {owner : P}
    (hw : Meant enc peers site S q w) (hbc : w.isBroadcast = true) (hi : w.sender = some i) (ho : Map.get peers i = some owner)
    (hq' : Member peers q') (hne : q' ≠ owner) : Meant enc peers site S q' w := by
  obtain ⟨j, p, h1, h2, h3, b, h4, h5, rfl⟩ := hw.other hs hb
  rw [hi] at h3; cases h3
  rw [ho] at h1; cases h1
  exact ⟨owner, ⟨i, ho⟩, hne.symm, b, h4, broadcast_peers hs hb ⟨i, ho⟩ hq' hne h4 hbc, rfl⟩

theorem wellMade (hs : Setting enc base ids peers site) (hb : Bulks base peers site S) {q : P} (hq : Member peers q) :
    WellMade (site q).env (site q).mgr (Meant enc peers site S q) := by
  refine ⟨?_, ?_, ?_, ?_⟩
  · intro w hw
    obtain ⟨i, p, h1, h2, h3, b, h4, h5, rfl⟩ := hw.other hs hb
    obtain ⟨pt, hpt⟩ := hs.party h1
    refine ⟨i, pt, p, b.shares, h3, by rw [hs.idMap q hq]; exact hpt, by rw [hs.peerMap q hq]; exact h1, by rw [hs.loc hq]; exact h2, ?_,
      (hs.dec hq).bulk _, ?_⟩
    · rw [(hs.verify hq).1, (hs.verify hq).2]
      exact hs.sign i p pt h1 hpt _
    · intro x hx
      obtain ⟨g1, r, ri, g2, g3, g4⟩ := (hb.good i p h1).shares b h4 x hx
      exact ⟨by rw [hs.parties hq]; exact g1, r, ri, g2, g3, by rw [hs.parse hq]; exact g4⟩
  · intro w w' hw hw' hbc hbc' hsd hri
    obtain ⟨i, p, h1, h2, h3, b, h4, h5, rfl⟩ := hw.other hs hb
    obtain ⟨i', p', h1', h2', h3', b', h4', h5', rfl⟩ := hw'.other hs hb
    rw [h3, h3'] at hsd; cases hsd
    rw [h1] at h1'; cases h1'
    rw [(hb.good i p h1).once b h4 b' h4' (wireOf_broadcast.1 hbc) (wireOf_broadcast.1 hbc') hri]
  · intro w w' bulk bulk' x x' hw hw' hd hd' hx hx' hsd hid hround
    obtain ⟨i, p, h1, h2, h3, b, h4, h5, rfl⟩ := hw.other hs hb
    obtain ⟨i', p', h1', h2', h3', b', h4', h5', rfl⟩ := hw'.other hs hb
    rw [h3, h3'] at hsd; cases hsd
    rw [h1] at h1'; cases h1'
    have e1 := (hs.dec hq).bulk b.shares
    have e2 := (hs.dec hq).bulk b'.shares
    simp only [wireOf] at hd hd'
    rw [e1] at hd; cases hd
    rw [e2] at hd'; cases hd'
    rw [hs.parse hq] at hround
    exact (hb.good i p h1).slots b h4 b' h4' q h5 h5' x hx x' hx' hid hround
  · rintro w log sh r hw ⟨bulk, x, rt, ri, c1, c2, c3, c4, c5, c6, c7, c8, -⟩
    obtain ⟨i, p, h1, h2, h3, b, h4, h5, rfl⟩ := hw.other hs hb
    have e1 := (hs.dec hq).bulk b.shares
    simp only [wireOf] at c1
    rw [e1] at c1; cases c1
    have := hb.accepts q p hq ⟨i, h1⟩ h2 b h4 h5 x c2 rt sh.from_ c6 c7 log
    rw [c3, c5, c8] at this
    exact this

/-! ## the messages on the network -/

/-- a message of `p` to `q` is as it should be -/
structure Fine (enc : Encoders P) (peers : Map Nat P) (site : P → Site K P) (S : P → List (OutBatch.Bulk P)) (p q : P) (raw : Bytes) : Prop where
  from_ : Member peers p
  dest : Member peers q
  other : p ≠ q
  behaves : ∀ sch, Behaves (site q).env (site q).mgr (Meant enc peers site S q) (.msg raw p sch)
  requests : ∀ sch peer c, Requests (site q).env (.msg raw p sch) peer c → ∃ w i, Meant enc peers site S p w ∧ w.isBroadcast = true ∧
    w.sender = some i ∧ c.reqKey = cacheKey i w.roundInfo

theorem mem_toPeers {me : P} {b : Bytes} {l : List P} {x : P × P × Bytes} (h : x ∈ toPeers me b l) : x.1 = me ∧ x.2.1 ∈ l ∧ x.2.1 ≠ me ∧ x.2.2 = b := by
  obtain ⟨p, hp, rfl⟩ := List.mem_map.1 h
  obtain ⟨h1, h2⟩ := List.mem_filter.1 hp
  exact ⟨rfl, h1, by simpa using h2, rfl⟩

theorem toPeers_mem {me q : P} {b : Bytes} {l : List P} (h : q ∈ l) (hne : q ≠ me) : (me, q, b) ∈ toPeers me b l :=
  List.mem_map.2 ⟨q, List.mem_filter.2 ⟨h, by simpa using hne⟩, rfl⟩

/-- a bulk on the network -/
theorem fine_bulk (hs : Setting enc base ids peers site) (hb : Bulks base peers site S) {p : P} (hp : Member peers p) {b : OutBatch.Bulk P}
    (h : b ∈ S p) : ∀ x ∈ renderBulk enc (site p) b, x.1 = p ∧ Fine enc peers site S p x.2.1 x.2.2 := by
  intro x hx
  obtain ⟨e1, e2, e3, e4⟩ := mem_toPeers hx
  rw [hs.loc hp] at e1 e3
  have hq := bulk_peers hs hb hp h e2
  have htype : b.msgType = TSSKeyGenMsg ∨ b.msgType = TSSKeySignMsg := by
    obtain ⟨k, l, rfl⟩ := hb.made p hp b h
    exact hs.type p hp
  have hdec := (hs.dec hq).wrap b.msgType (enc.wire (wireOf enc (site p) b))
  have hwire := (hs.dec hq).wire (wireOf enc (site p) b)
  refine ⟨e1, hp, hq, e3.symm, fun sch => ⟨?_, ?_⟩, ?_⟩
  · rintro w ⟨raw, p', sch', t, pl, he, hd, hw⟩
    cases he
    rw [e4, hdec] at hd; cases hd
    rcases hw with ⟨-, hw⟩ | ⟨ht, -⟩
    · rw [hwire] at hw; cases hw
      exact ⟨p, hp, e3.symm, b, h, e2, rfl⟩
    · rcases htype with h | h <;> (rw [h] at ht; exact absurd ht (by decide))
  · rintro p' key d ⟨raw, sch', t, pl, he, hd, ht, -⟩
    cases he
    rw [e4, hdec] at hd; cases hd
    rcases htype with h | h <;> (rw [h] at ht; exact absurd ht (by decide))
  · rintro sch peer c ⟨raw, sch', pl, he, hd, -⟩
    cases he
    rw [e4, hdec] at hd
    have hd := congrArg Prod.fst (Option.some.inj hd)
    dsimp only at hd
    rcases htype with h | h <;> (rw [h] at hd; exact absurd hd (by decide))

theorem fine_done (hs : Setting enc base ids peers site) {p : P} (hp : Member peers p) :
    ∀ x ∈ toPeers (site p).env.localPeer (enc.wrap TSSTaskDone (enc.task true)) (site p).env.p2pPeers,
      x.1 = p ∧ Fine enc peers site S p x.2.1 x.2.2 := by
  intro x hx
  obtain ⟨e1, e2, e3, e4⟩ := mem_toPeers hx
  rw [hs.loc hp] at e1 e3
  have hq := ((hs.others p hp _).1 e2).1
  have hdec := (hs.dec hq).wrap TSSTaskDone (enc.task true)
  refine ⟨e1, hp, hq, e3.symm, fun sch => ⟨?_, ?_⟩, ?_⟩
  · rintro w ⟨raw, p', sch', t, pl, he, hd, hw⟩
    cases he
    rw [e4, hdec] at hd; cases hd
    rcases hw with ⟨hw, -⟩ | ⟨ht, -⟩
    · exact absurd hw (by decide)
    · exact absurd ht (by decide)
  · rintro p' key d ⟨raw, sch', t, pl, he, hd, ht, -⟩
    cases he
    rw [e4, hdec] at hd; cases hd
    exact absurd ht (by decide)
  · rintro sch peer c ⟨raw, sch', pl, he, hd, -⟩
    cases he
    rw [e4] at hd
    rw [hdec] at hd
    have hd := congrArg Prod.fst (Option.some.inj hd)
    dsimp only at hd
    exact absurd hd (by decide)

/-- a history in which everything is as it should be -/
def FineHist (enc : Encoders P) (peers : Map Nat P) (site : P → Site K P) (S : P → List (OutBatch.Bulk P)) (q : P) (h : List (Event P)) : Prop :=
  ∀ raw p sch, Event.msg raw p sch ∈ h → Fine enc peers site S p q raw

theorem behaves_work {env : TssCommon.Env K P} {m : Manager K P} {W : WireMessage → Prop} (j : Nat) : Behaves env m W (.work j) := by
  refine ⟨?_, ?_⟩
  · rintro w ⟨raw, p, sch, t, pl, he, -⟩; cases he
  · rintro p key d ⟨raw, sch, t, pl, he, -⟩; cases he

theorem FineHist.behaves {q : P} {h : List (Event P)} (hf : FineHist enc peers site S q h) :
    ∀ e ∈ h, Behaves (site q).env (site q).mgr (Meant enc peers site S q) e := by
  intro e he
  cases e with
  | work j => exact behaves_work j
  | msg raw p sch => exact (hf raw p sch he).behaves sch

/-- what a node sends while it processes messages -/
theorem fine_sent (hs : Setting enc base ids peers site) (hb : Bulks base peers site S) {q : P} (hq : Member peers q) {h : List (Event P)}
    (hf : FineHist enc peers site S q h) (x : Sent P) (hx : x ∈ (run (site q).env (newTssCommon (site q).mgr) h).sent) :
    ∀ y ∈ renderSent enc (site q) x, y.1 = q ∧ Fine enc peers site S q y.2.1 y.2.2 := by
  intro y hy
  obtain ⟨e1, e2, e3, e4⟩ := mem_toPeers hy
  rw [hs.loc hq] at e1 e3
  refine ⟨e1, ?_⟩
  rcases c72_sent _ _ (hs.fresh q hq).2 h x hx with hc | ⟨d, hr⟩ | ha
  · -- a confirmation
    obtain ⟨e, he, t, w, i, owner, hdl, -, hi, hbc, ho, hpl, hpe⟩ := hc
    rw [hs.peerMap q hq] at ho
    have hWq : Meant enc peers site S q w := by
      refine (hf.behaves e he).carries w ?_
      obtain ⟨raw, p, sch, pl, g1, g2, g3, g4⟩ := hdl
      exact ⟨raw, p, sch, t, pl, g1, g2, Or.inl ⟨g3, g4⟩⟩
    obtain ⟨g1, g2⟩ := (hpe _).1 e2
    have hdest := ((hs.others q hq _).1 g1).1
    have hWp := hWq.all hs hb hbc hi ho hdest g2
    rw [hpl] at e4
    dsimp only at e4
    have hdec := (hs.dec hdest).wrap (confirmType t) (enc.confirm ⟨none, cacheKey i w.roundInfo, (site q).env.hash w.message⟩)
    have hcd := (hs.dec hdest).confirm ⟨none, cacheKey i w.roundInfo, (site q).env.hash w.message⟩
    have hty : confirmType t = TSSKeyGenVerMsg ∨ confirmType t = TSSKeySignVerMsg := by
      unfold confirmType; split
      · exact Or.inl rfl
      · exact Or.inr rfl
    refine ⟨hq, hdest, e3.symm, fun sch => ⟨?_, ?_⟩, ?_⟩
    · rintro w' ⟨raw, p', sch', t', pl, he', hd, hw⟩
      cases he'
      rw [e4, hdec] at hd; cases hd
      rcases hw with ⟨hw, -⟩ | ⟨hw, -⟩
      · rcases hty with h | h <;> (rw [h] at hw; exact absurd hw (by decide))
      · rcases hty with h | h <;> (rw [h] at hw; exact absurd hw (by decide))
    · rintro p' key d ⟨raw, sch', t', pl, he', hd, ht, b, hb1, hb2, hb3⟩
      cases he'
      rw [e4, hdec] at hd; cases hd
      rw [hcd] at hb1; cases hb1
      refine ⟨w, i, owner, hWp, hbc, hi, hb2.symm, ?_, by rw [hs.peerMap _ hdest]; exact ho, ?_⟩
      · rw [← hb3, hs.hash hq, hs.hash hdest]
      · obtain ⟨j, p, k1, k2, k3, -⟩ := hWq.other hs hb
        rw [hi] at k3; cases k3
        rw [ho] at k1; cases k1
        exact k2.symm
    · rintro sch peer c ⟨raw, sch', pl, he', hd, -⟩
      cases he'
      rw [e4, hdec] at hd
      have hd := congrArg Prod.fst (Option.some.inj hd)
      dsimp only at hd
      rcases hty with h | h <;> (rw [h] at hd; exact absurd hd (by decide))
  · -- a request
    obtain ⟨key, t, th, hpl, -, -, -, -, hvote⟩ := hr
    have hv := hvote _ e2
    have hkey : Member peers y.2.1 ∧ ∃ w i, Meant enc peers site S q w ∧ w.isBroadcast = true ∧ w.sender = some i ∧ key = cacheKey i w.roundInfo := by
      rcases hv with ⟨e, he, hc⟩ | ⟨hl, -⟩
      · obtain ⟨w, i, owner, b1, b2, b3, b4, -⟩ := (hf.behaves e he).confirms _ _ _ hc
        obtain ⟨raw, sch, t, pl, rfl, -⟩ := hc
        exact ⟨(hf _ _ _ he).from_, w, i, b1, b2, b3, b4⟩
      · rw [hs.loc hq] at hl; exact absurd hl e3
    obtain ⟨hdest, w, i, b1, b2, b3, b4⟩ := hkey
    rw [hpl] at e4
    dsimp only at e4
    have hdec := (hs.dec hdest).wrap TSSControlMsg (enc.control ⟨d, key, t, none⟩)
    have hcd := (hs.dec hdest).control ⟨d, key, t, none⟩
    refine ⟨hq, hdest, e3.symm, fun sch => ⟨?_, ?_⟩, ?_⟩
    · rintro w' ⟨raw, p', sch', t', pl, he', hd, hw⟩
      cases he'
      rw [e4, hdec] at hd
      cases hd
      rcases hw with ⟨hw, -⟩ | ⟨-, c, hc, hcm⟩
      · exact absurd hw (by decide)
      · rw [hcd] at hc; cases hc; cases hcm
    · rintro p' key d ⟨raw, sch', t', pl, he', hd, ht, -⟩
      cases he'
      rw [e4, hdec] at hd
      cases hd
      exact absurd ht (by decide)
    · rintro sch peer c ⟨raw, sch', pl, he', hd, hc, -⟩
      cases he'
      rw [e4, hdec] at hd
      cases hd
      rw [hcd] at hc; cases hc
      exact ⟨w, i, b1, b2, b3, b4⟩
  · -- an answer
    obtain ⟨e, he, peer, c, w, i, hreq, rfl, ⟨e', he', hcar⟩, -, -, hi, hbc, hkey⟩ := ha
    have hpeer : y.2.1 = peer := by simpa using e2
    have hWq := (hf.behaves e' he').carries w hcar
    have hev : ∃ raw sch, e = .msg raw peer sch := by
      obtain ⟨raw, sch, pl, h1, -⟩ := hreq
      exact ⟨raw, sch, h1⟩
    obtain ⟨raw0, sch0, rfl⟩ := hev
    have hfin := hf _ _ _ he
    obtain ⟨w', i', k1, k2, k3, k4⟩ := hfin.requests sch0 peer c hreq
    rw [hkey] at k4
    obtain ⟨rfl, -⟩ := cacheKey_inj k4
    obtain ⟨j, owner, m1, m2, m3, -⟩ := k1.other hs hb
    rw [k3] at m3; cases m3
    have hWp := hWq.all hs hb hbc hi m1 hfin.from_ m2.symm
    rw [hpeer] at e3 ⊢
    have hdest := hfin.from_
    have hdec := (hs.dec hdest).wrap TSSControlMsg (enc.control { c with msg := some w })
    have hcd := (hs.dec hdest).control { c with msg := some w }
    refine ⟨hq, hdest, e3.symm, fun sch => ⟨?_, ?_⟩, ?_⟩
    · rintro w' ⟨raw, p', sch', t', pl, he', hd, hw⟩
      cases he'
      rw [e4, hdec] at hd
      cases hd
      rcases hw with ⟨hw, -⟩ | ⟨-, c', hc, hcm⟩
      · exact absurd hw (by decide)
      · rw [hcd] at hc; cases hc; cases hcm
        exact hWp
    · rintro p' key d ⟨raw, sch', t', pl, he', hd, ht, -⟩
      cases he'
      rw [e4, hdec] at hd
      cases hd
      exact absurd ht (by decide)
    · rintro sch peer c' ⟨raw, sch', pl, he', hd, hc, hcn⟩
      cases he'
      rw [e4, hdec] at hd
      cases hd
      rw [hcd] at hc; cases hc; cases hcn

/-- a broadcast message that was delivered has been confirmed -/
theorem confirmed_sent (hs : Setting enc base ids peers site) (hb : Bulks base peers site S) {q : P} (hq : Member peers q) {h : List (Event P)}
    (hf : FineHist enc peers site S q h) {t : Int} (ht : GetThreshold (site q).mgr.partyIDMap.length = .ok t) {e : Event P} (he : e ∈ h)
    {w : WireMessage} {mt : MsgType} {i : Nat} {owner q' : P} (hdl : Delivers (site q).env e mt w)
    (hbc : w.isBroadcast = true) (hi : w.sender = some i) (ho : Map.get peers i = some owner) (hq' : Member peers q') (h1 : q' ≠ q)
    (h2 : q' ≠ owner) :
    ∃ x ∈ (run (site q).env (newTssCommon (site q).mgr) h).sent,
      x.payload = .confirm (getBroadcastMessageType mt) (cacheKey i w.roundInfo) ((site q).env.hash w.message) ∧ q' ∈ x.peers := by
  induction h using List.reverseRecOn with
  | nil => cases he
  | append_singleton h e' ih =>
    have hf' : FineHist enc peers site S q h := fun raw p sch hm => hf raw p sch (by simp [hm])
    rw [Verif.Props.SessionMore.run_snoc]
    rcases List.mem_append.1 he with he | he
    · obtain ⟨x, g1, g2⟩ := ih hf' he
      exact ⟨x, (step_sent _ _ e').subset g1, g2⟩
    · obtain rfl := List.mem_singleton.1 he
      have hrf := run_fine (wellMade hs hb hq) ht (hs.fresh q hq).1 h hf'.behaves
      have hst := step_fine (wellMade hs hb hq) ht hrf.core (Verif.Props.SessionMore.doneInv_run (site q).env (site q).mgr h) h e
        (hf.behaves e (by simp))
      have hw : Meant enc peers site S q w := by
        refine (hf.behaves e (by simp)).carries w ?_
        obtain ⟨raw, p, sch, pl, g1, g2, g3, g4⟩ := hdl
        exact ⟨raw, p, sch, mt, pl, g1, g2, Or.inl ⟨g3, g4⟩⟩
      have hmem : q' ∈ (site q).env.p2pPeers.filter (fun el => el ≠ owner) :=
        List.mem_filter.2 ⟨(hs.others q hq q').2 ⟨hq', h1⟩, by simpa using h2⟩
      rw [hst.sent w mt i owner hw hbc hi hdl (by rw [hs.peerMap q hq]; exact ho) (List.ne_nil_of_mem hmem)]
      exact ⟨_, List.mem_append.2 (Or.inr (List.mem_singleton.2 rfl)), rfl, hmem⟩

/-! ## the network -/

/-- the message is on its way, or has been processed by its receiver -/
def Acc (n : Net K P) (x : P × P × Bytes) : Prop := x ∈ n.pool ∨ ∃ sch, Event.msg x.2.2 x.1 sch ∈ (n.nodes x.2.1).hist

/-- the invariant of the network -/
structure NetInv (enc : Encoders P) (peers : Map Nat P) (site : P → Site K P) (S : P → List (OutBatch.Bulk P)) (h : List (NetEvent P))
    (n : Net K P) : Prop where
  ses : ∀ q, Member peers q → (n.nodes q).ses = run (site q).env (newTssCommon (site q).mgr) (n.nodes q).hist
  dead : ∀ q, Member peers q → (n.nodes q).dead = false
  hist : ∀ q, Member peers q → FineHist enc peers site S q (n.nodes q).hist
  pool : ∀ x ∈ n.pool, Fine enc peers site S x.1 x.2.1 x.2.2
  bulk : ∀ q, Member peers q → ∀ b ∈ (n.nodes q).out.sent, ∀ x ∈ renderBulk enc (site q) b, Acc n x
  sent : ∀ q, Member peers q → ∀ y ∈ (n.nodes q).ses.sent, ∀ x ∈ renderSent enc (site q) y, Acc n x
  done : ∀ q, Member peers q → .at_ q .notifyDone ∈ h → ∀ x ∈ toPeers (site q).env.localPeer (enc.wrap TSSTaskDone (enc.task true))
    (site q).env.p2pPeers, Acc n x

theorem NetInv.fine (hs : Setting enc base ids peers site) (hb : Bulks base peers site S) {h : List (NetEvent P)} {n : Net K P}
    (hi : NetInv enc peers site S h n) {q : P} (hq : Member peers q) {t : Int} (ht : GetThreshold (site q).mgr.partyIDMap.length = .ok t) :
    RunFine (site q).env (site q).mgr (Meant enc peers site S q) t (n.nodes q).hist (n.nodes q).ses := by
  rw [hi.ses q hq]
  exact run_fine (wellMade hs hb hq) ht (hs.fresh q hq).1 _ (hi.hist q hq).behaves

theorem Setting_threshold (hs : Setting enc base ids peers site) {q : P} (hq : Member peers q) :
    ∃ t, GetThreshold (site q).mgr.partyIDMap.length = .ok t := by
  obtain ⟨i, hi⟩ := hq
  obtain ⟨pt, hpt⟩ := hs.party hi
  rw [hs.idMap q ⟨i, hi⟩]
  have hpos : 1 ≤ ids.length := List.length_pos_of_mem (Map.mem_of_get hpt)
  obtain ⟨t, ht, -⟩ := Verif.Props.C01.signing_party_fits ids.length hpos (le_trans hs.size (by norm_num))
  exact ⟨t, ht⟩

theorem NetInv.alive (hs : Setting enc base ids peers site) (hb : Bulks base peers site S) {h : List (NetEvent P)} {n : Net K P}
    (hi : NetInv enc peers site S h n) {q : P} (hq : Member peers q) : (n.nodes q).alive = true := by
  obtain ⟨t, ht⟩ := Setting_threshold hs hq
  have := (hi.fine hs hb hq ht).core.crashed
  unfold Node.alive
  rw [hi.dead q hq, this]; rfl

/-- a node processes an event -/
theorem netInv_inbound (hs : Setting enc base ids peers site) (hb : Bulks base peers site S) {h : List (NetEvent P)} {n : Net K P}
    (hi : NetInv enc peers site S h n) {q : P} (hq : Member peers q) (e : Event P)
    (he : ∀ raw p sch, e = .msg raw p sch → Fine enc peers site S p q raw) (pool0 : List (P × P × Bytes))
    (hp1 : ∀ x ∈ pool0, Fine enc peers site S x.1 x.2.1 x.2.2)
    (hp2 : ∀ x ∈ n.pool, x ∈ pool0 ∨ (x.2.1 = q ∧ ∃ sch, e = .msg x.2.2 x.1 sch)) (ev : NetEvent P) (hev : ∀ q', ev ≠ .at_ q' .notifyDone) :
    NetInv enc peers site S (h ++ [ev])
      ⟨n.update q (inbound enc (site q) (n.nodes q) e).1, pool0 ++ (inbound enc (site q) (n.nodes q) e).2⟩ := by
  have hal := hi.alive hs hb hq
  have hin : inbound enc (site q) (n.nodes q) e =
      ({ n.nodes q with ses := TssCommon.step (site q).env (n.nodes q).ses e, hist := (n.nodes q).hist ++ [e] },
        ((TssCommon.step (site q).env (n.nodes q).ses e).sent.drop (n.nodes q).ses.sent.length).flatMap (renderSent enc (site q))) := by
    unfold inbound; rw [if_pos hal]
  rw [hin]
  have hses : TssCommon.step (site q).env (n.nodes q).ses e = run (site q).env (newTssCommon (site q).mgr) ((n.nodes q).hist ++ [e]) := by
    rw [Verif.Props.SessionMore.run_snoc, ← hi.ses q hq]
  have hfh : FineHist enc peers site S q ((n.nodes q).hist ++ [e]) := by
    intro raw p sch hm
    rcases List.mem_append.1 hm with hm | hm
    · exact hi.hist q hq raw p sch hm
    · exact he raw p sch (List.mem_singleton.1 hm).symm
  have hnew := step_sent (site q).env (n.nodes q).ses e
  generalize hs' : TssCommon.step (site q).env (n.nodes q).ses e = s' at hses hnew
  have hacc : ∀ x, Acc n x → Acc (⟨n.update q { n.nodes q with ses := s', hist := (n.nodes q).hist ++ [e] },
      pool0 ++ (s'.sent.drop (n.nodes q).ses.sent.length).flatMap (renderSent enc (site q))⟩ : Net K P) x := by
    rintro x (hx | ⟨sch, hx⟩)
    · rcases hp2 x hx with hx | ⟨hx, sch, rfl⟩
      · exact Or.inl (List.mem_append.2 (Or.inl hx))
      · refine Or.inr ⟨sch, ?_⟩
        simp [Net.update, hx]
    · refine Or.inr ⟨sch, ?_⟩
      simp only [Net.update]
      split
      · rename_i hxq; rw [hxq] at hx; simp [hx]
      · exact hx
  refine ⟨?_, ?_, ?_, ?_, ?_, ?_, ?_⟩
  · intro q' hq'
    simp only [Net.update]
    split
    · rename_i h; subst h; exact hses
    · exact hi.ses q' hq'
  · intro q' hq'
    simp only [Net.update]
    split
    · exact hi.dead q hq
    · exact hi.dead q' hq'
  · intro q' hq'
    simp only [Net.update]
    split
    · rename_i h; subst h; exact hfh
    · exact hi.hist q' hq'
  · intro x hx
    rcases List.mem_append.1 hx with hx | hx
    · exact hp1 x hx
    · obtain ⟨y, hy, hxy⟩ := List.mem_flatMap.1 hx
      have := fine_sent hs hb hq hfh y (by rw [← hses]; exact List.mem_of_mem_drop hy) x hxy
      rw [this.1]; exact this.2
  · intro q' hq' b hbm x hx
    refine hacc x (hi.bulk q' hq' b ?_ x hx)
    simp only [Net.update] at hbm
    split at hbm
    · rename_i h; subst h; exact hbm
    · exact hbm
  · intro q' hq' y hy x hx
    simp only [Net.update] at hy
    split at hy
    · rename_i h; subst h
      dsimp only at hy
      rw [drop_prefix hnew] at hy
      rcases List.mem_append.1 hy with hy | hy
      · exact hacc x (hi.sent _ hq y hy x hx)
      · exact Or.inl (List.mem_append.2 (Or.inr (List.mem_flatMap.2 ⟨y, hy, hx⟩)))
    · exact hacc x (hi.sent q' hq' y hy x hx)
  · intro q' hq' hm x hx
    rcases List.mem_append.1 hm with hm | hm
    · exact hacc x (hi.done q' hq' hm x hx)
    · exact absurd (List.mem_singleton.1 hm).symm (hev q')

/-- something is put on the network -/
theorem netInv_put {h : List (NetEvent P)} {n : Net K P} (hi : NetInv enc peers site S h n) {q : P} (hq : Member peers q)
    (out : OutBatch.St P) (signed : List Bytes) (new : List (OutBatch.Bulk P)) (hout : out.sent = (n.nodes q).out.sent ++ new)
    (hnew : ∀ b ∈ new, ∀ x ∈ renderBulk enc (site q) b, Fine enc peers site S x.1 x.2.1 x.2.2) (ev : NetEvent P)
    (hev : ∀ q', ev ≠ .at_ q' .notifyDone) :
    NetInv enc peers site S (h ++ [ev])
      ⟨n.update q { n.nodes q with out, dead := false, signed }, n.pool ++ new.flatMap (renderBulk enc (site q))⟩ := by
  have hacc : ∀ x, Acc n x → Acc (⟨n.update q { n.nodes q with out, dead := false, signed },
      n.pool ++ new.flatMap (renderBulk enc (site q))⟩ : Net K P) x := by
    rintro x (hx | ⟨sch, hx⟩)
    · exact Or.inl (List.mem_append.2 (Or.inl hx))
    · refine Or.inr ⟨sch, ?_⟩
      simp only [Net.update]
      split
      · rename_i hxq; rw [hxq] at hx; exact hx
      · exact hx
  refine ⟨?_, ?_, ?_, ?_, ?_, ?_, ?_⟩
  · intro q' hq'
    simp only [Net.update]
    split
    · rename_i h; subst h; exact hi.ses _ hq
    · exact hi.ses q' hq'
  · intro q' hq'
    simp only [Net.update]
    split
    · rfl
    · exact hi.dead q' hq'
  · intro q' hq'
    simp only [Net.update]
    split
    · rename_i h; subst h; exact hi.hist _ hq
    · exact hi.hist q' hq'
  · intro x hx
    rcases List.mem_append.1 hx with hx | hx
    · exact hi.pool x hx
    · obtain ⟨b, hb, hxb⟩ := List.mem_flatMap.1 hx
      exact hnew b hb x hxb
  · intro q' hq' b hbm x hx
    simp only [Net.update] at hbm
    split at hbm
    · rename_i h; subst h
      rw [hout] at hbm
      rcases List.mem_append.1 hbm with hbm | hbm
      · exact hacc x (hi.bulk _ hq b hbm x hx)
      · exact Or.inl (List.mem_append.2 (Or.inr (List.mem_flatMap.2 ⟨b, hbm, hx⟩)))
    · exact hacc x (hi.bulk q' hq' b hbm x hx)
  · intro q' hq' y hy x hx
    refine hacc x (hi.sent q' hq' y ?_ x hx)
    simp only [Net.update] at hy
    split at hy
    · rename_i h; subst h; exact hy
    · exact hy
  · intro q' hq' hm x hx
    rcases List.mem_append.1 hm with hm | hm
    · exact hacc x (hi.done q' hq' hm x hx)
    · exact absurd (List.mem_singleton.1 hm).symm (hev q')

theorem processOut_sound (env : OutBatch.Env P) (sch : OutBatch.Sched) (o : OutBatch.Output) (t : MsgType) (s : OutBatch.St P)
    (ho : ∀ data r, o.wire = some (data, r) → r.isBroadcast = false → r.to_ ≠ []) : (OutBatch.ProcessOutCh env sch o t s).2 ≠ .panic := by
  unfold OutBatch.ProcessOutCh
  rcases hw : o.wire with _ | ⟨data, r⟩
  · exact fun h => by cases h
  · dsimp only
    split
    · exact fun h => by cases h
    · rename_i hbc
      have := ho data r hw (by simpa using hbc)
      rcases hr : r.to_ with _ | ⟨d, ds⟩
      · exact absurd hr this
      · exact fun h => by cases h

/-- the bulks a node has sent stay -/
theorem netStep_sent (site : P → Site K P) (honest : P → Bool) (n : Net K P) (e : NetEvent P) (q : P) :
    (n.nodes q).out.sent <+: ((netStep enc site honest n e).nodes q).out.sent := by
  have hin : ∀ q' e', (n.nodes q).out.sent <+: (n.update q' (inbound enc (site q') (n.nodes q') e').1 q).out.sent := by
    intro q' e'
    simp only [Net.update]
    split
    · rename_i h; subst h
      unfold inbound
      split <;> exact List.prefix_rfl
    · exact List.prefix_rfl
  cases e with
  | at_ q' e =>
    unfold netStep
    dsimp only
    split
    · cases e with
      | work job => exact hin q' _
      | output sch o =>
        simp only [Net.update]
        split
        · rename_i h; subst h
          unfold localStep
          dsimp only
          split
          · obtain ⟨new, h1, -⟩ := processOut_sent (site q).out sch o (site q).type (n.nodes q).out
            dsimp only
            rw [h1]; exact List.prefix_append _ _
          · exact List.prefix_rfl
        · exact List.prefix_rfl
      | notifyDone =>
        simp only [Net.update]
        split
        · rename_i h; subst h
          unfold localStep
          dsimp only
          split <;> exact List.prefix_rfl
        · exact List.prefix_rfl
    · exact List.prefix_rfl
  | deliver i sch =>
    unfold netStep
    dsimp only
    rcases n.pool[i]? with _ | ⟨p, q', raw⟩
    · exact List.prefix_rfl
    · dsimp only
      split
      · exact hin q' _
      · exact List.prefix_rfl
  | foreign p q' raw sch =>
    unfold netStep
    dsimp only
    split
    · exact hin q' _
    · exact List.prefix_rfl

/-- every bulk a node has sent was made by `sendBulkMsg` -/
theorem netRun_made (site : P → Site K P) (honest : P → Bool) (h : List (NetEvent P)) (q : P) :
    ∀ b ∈ ((netRun enc site honest h).nodes q).out.sent, BulkOf (site q).out (site q).type b := by
  induction h using List.reverseRecOn with
  | nil => intro b hb; simp [netRun, start, OutBatch.init] at hb
  | append_singleton h e ih =>
    rw [netRun, List.foldl_append, List.foldl_cons, List.foldl_nil, ← netRun]
    generalize netRun enc site honest h = n at ih
    have hin : ∀ q' e', ∀ b ∈ (n.update q' (inbound enc (site q') (n.nodes q') e').1 q).out.sent, BulkOf (site q).out (site q).type b := by
      intro q' e' b hb
      refine ih b ?_
      simp only [Net.update] at hb
      split at hb
      · rename_i h; subst h
        unfold inbound at hb
        split at hb <;> exact hb
      · exact hb
    cases e with
    | at_ q' e =>
      unfold netStep
      dsimp only
      split
      · cases e with
        | work job => exact hin q' _
        | output sch o =>
          simp only [Net.update]
          split
          · rename_i h; subst h
            unfold localStep
            dsimp only
            split
            · obtain ⟨new, h1, h2⟩ := processOut_sent (site q).out sch o (site q).type (n.nodes q).out
              dsimp only
              rw [h1]
              intro b hb
              rcases List.mem_append.1 hb with hb | hb
              · exact ih b hb
              · exact h2 b hb
            · exact ih
          · exact ih
        | notifyDone =>
          simp only [Net.update]
          split
          · rename_i h; subst h
            unfold localStep
            dsimp only
            split <;> exact ih
          · exact ih
      · exact ih
    | deliver i sch =>
      unfold netStep
      dsimp only
      rcases n.pool[i]? with _ | ⟨p, q', raw⟩
      · exact ih
      · dsimp only
        split
        · exact hin q' _
        · exact ih
    | foreign p q' raw sch =>
      unfold netStep
      dsimp only
      split
      · exact hin q' _
      · exact ih

theorem netInv_run (hs : Setting enc base ids peers site) (hb : Bulks base peers site S) (honest : P → Bool)
    (hh : ∀ p, honest p = true ↔ Member peers p) (h : List (NetEvent P)) (hso : ∀ e ∈ h, Sound peers e)
    (hS : ∀ q, Member peers q → ∀ b ∈ ((netRun enc site honest h).nodes q).out.sent, b ∈ S q) :
    NetInv enc peers site S h (netRun enc site honest h) := by
  induction h using List.reverseRecOn with
  | nil =>
    refine ⟨fun q _ => rfl, fun q _ => rfl, ?_, ?_, ?_, ?_, ?_⟩
    · intro q _ raw p sch hm; cases hm
    · intro x hx; cases hx
    · intro q _ b hbm; cases hbm
    · intro q _ y hy; cases hy
    · intro q _ hm; cases hm
  | append_singleton h e ih =>
    have hrun : netRun enc site honest (h ++ [e]) = netStep enc site honest (netRun enc site honest h) e := by
      rw [netRun, List.foldl_append, List.foldl_cons, List.foldl_nil, ← netRun]
    have hi := ih (fun e' he' => hso e' (by simp [he'])) (fun q hq b hbm => hS q hq b (by
      rw [hrun]; exact (netStep_sent site honest _ e q).subset hbm))
    obtain ⟨hnf, hun⟩ := hso e (by simp)
    rw [hrun] at hS ⊢
    generalize netRun enc site honest h = n at hi hS
    have same : ∀ ev : NetEvent P, (∀ q, Member peers q → ev ≠ .at_ q .notifyDone) → NetInv enc peers site S (h ++ [ev]) n := by
      intro ev hev
      refine ⟨hi.ses, hi.dead, hi.hist, hi.pool, hi.bulk, hi.sent, ?_⟩
      intro q hq hm x hx
      rcases List.mem_append.1 hm with hm | hm
      · exact hi.done q hq hm x hx
      · exact absurd (List.mem_singleton.1 hm).symm (hev q hq)
    cases e with
    | at_ q e =>
      unfold netStep at hS ⊢
      dsimp only at hS ⊢
      by_cases hq : honest q = true
      · have hmem := (hh q).1 hq
        rw [if_pos hq] at hS ⊢
        have hal := hi.alive hs hb hmem
        cases e with
        | work job =>
          exact netInv_inbound hs hb hi hmem (.work job) (fun raw p sch h => by cases h) n.pool hi.pool (fun x hx => Or.inl hx) _
            (fun q' h => by cases h)
        | output sch o =>
          have hpn := processOut_sound (site q).out sch o (site q).type (n.nodes q).out (fun data r h1 h2 => hun q sch o data r hmem rfl h1 h2)
          obtain ⟨new, h1, h2⟩ := processOut_sent (site q).out sch o (site q).type (n.nodes q).out
          have hls : localStep enc (site q) (n.nodes q) (.output sch o) =
              ({ n.nodes q with
                  out := (OutBatch.ProcessOutCh (site q).out sch o (site q).type (n.nodes q).out).1
                  dead := false
                  signed := (n.nodes q).signed ++ new.map (fun b => enc.bulk b.shares) }, new.flatMap (renderBulk enc (site q))) := by
            unfold localStep
            dsimp only
            rw [if_pos hal, h1, List.drop_left, decide_eq_false hpn]
          rw [hls] at hS ⊢
          refine netInv_put hi hmem _ _ new h1 ?_ _ (fun q' h => by cases h)
          intro b hbn x hx
          have hbS : b ∈ S q := by
            refine hS q hmem b ?_
            simp only [Net.update, if_true]
            rw [h1]; simp [hbn]
          have := fine_bulk hs hb hmem hbS x hx
          rw [this.1]; exact this.2
        | notifyDone =>
          have hls : localStep enc (site q) (n.nodes q) .notifyDone =
              (n.nodes q, toPeers (site q).env.localPeer (enc.wrap TSSTaskDone (enc.task true)) (site q).env.p2pPeers) := by
            unfold localStep
            dsimp only
            rw [if_pos hal]
          rw [hls]
          dsimp only
          have hup : n.update q (n.nodes q) = n.nodes := by
            funext x
            simp only [Net.update]
            split
            · rename_i h; rw [h]
            · rfl
          rw [hup]
          have hacc : ∀ x, Acc n x → Acc (⟨n.nodes, n.pool ++ toPeers (site q).env.localPeer (enc.wrap TSSTaskDone (enc.task true))
              (site q).env.p2pPeers⟩ : Net K P) x := by
            rintro x (hx | hx)
            · exact Or.inl (List.mem_append.2 (Or.inl hx))
            · exact Or.inr hx
          refine ⟨hi.ses, hi.dead, hi.hist, ?_, fun q' hq' b hbm x hx => hacc x (hi.bulk q' hq' b hbm x hx),
            fun q' hq' y hy x hx => hacc x (hi.sent q' hq' y hy x hx), ?_⟩
          · intro x hx
            rcases List.mem_append.1 hx with hx | hx
            · exact hi.pool x hx
            · have := fine_done (S := S) hs hmem x hx
              rw [this.1]; exact this.2
          · intro q' hq' hm x hx
            rcases List.mem_append.1 hm with hm | hm
            · exact hacc x (hi.done q' hq' hm x hx)
            · have := List.mem_singleton.1 hm
              cases this
              exact Or.inl (List.mem_append.2 (Or.inr hx))
      · rw [if_neg hq]
        refine same _ ?_
        intro q' hq' h
        cases h
        exact hq ((hh _).2 hq')
    | deliver i sch =>
      unfold netStep
      dsimp only
      rcases hx : n.pool[i]? with _ | ⟨p, q, raw⟩
      · exact same _ (fun q _ h => by cases h)
      · have hxm : (p, q, raw) ∈ n.pool := List.mem_of_getElem? hx
        have hf := hi.pool _ hxm
        dsimp only
        rw [if_pos ((hh q).2 hf.dest)]
        refine netInv_inbound hs hb hi hf.dest (.msg raw p sch) ?_ _ (fun x hx => hi.pool x (List.mem_of_mem_eraseIdx hx)) ?_ _
          (fun q' h => by cases h)
        · intro raw' p' sch' h; cases h; exact hf
        · intro x hxp
          by_cases hxe : x = (p, q, raw)
          · subst hxe; exact Or.inr ⟨rfl, sch, rfl⟩
          · refine Or.inl ?_
            obtain ⟨j, hj⟩ := List.getElem?_of_mem hxp
            rw [List.mem_eraseIdx_iff_getElem?]
            refine ⟨j, ?_, hj⟩
            rintro rfl
            rw [hx] at hj
            exact hxe (Option.some.inj hj).symm
    | foreign p q raw sch => exact absurd rfl (hnf p q raw sch)

/-! ## the outputs of the local parties -/

theorem runOut_append (env : OutBatch.Env P) (t : MsgType) (s : OutBatch.St P) (a b : List (OutBatch.Sched × OutBatch.Output)) :
    OutBatch.runOut env t s (a ++ b) = OutBatch.runOut env t (OutBatch.runOut env t s a) b := by
  induction a generalizing s with
  | nil => rfl
  | cons x a ih => obtain ⟨sch, o⟩ := x; exact ih _

theorem inbound_dead (site : Site K P) (n : Node K P) (e : Event P) : (inbound enc site n e).1.alive = true → n.alive = true := by
  unfold inbound
  split
  · intro _; assumption
  · exact id

/-- the batching of a node has seen its outputs; all of them, if it is running -/
theorem netRun_out (site : P → Site K P) (honest : P → Bool) (q : P) (hq : honest q = true) (h : List (NetEvent P)) :
    (∃ l, l <+ outputsAt q h ∧ ((netRun enc site honest h).nodes q).out = OutBatch.runOut (site q).out (site q).type OutBatch.init l) ∧
    (((netRun enc site honest h).nodes q).alive = true →
      ((netRun enc site honest h).nodes q).out = OutBatch.runOut (site q).out (site q).type OutBatch.init (outputsAt q h)) := by
  induction h using List.reverseRecOn with
  | nil => exact ⟨⟨[], List.Sublist.refl _, rfl⟩, fun _ => rfl⟩
  | append_singleton h e ih =>
    have hrun : netRun enc site honest (h ++ [e]) = netStep enc site honest (netRun enc site honest h) e := by
      rw [netRun, List.foldl_append, List.foldl_cons, List.foldl_nil, ← netRun]
    rw [hrun]
    generalize netRun enc site honest h = n at ih
    obtain ⟨⟨l, hl, ho⟩, hal⟩ := ih
    -- events that leave the batching alone
    have same : ∀ (e : NetEvent P) (s : Node K P), outputsAt q (h ++ [e]) = outputsAt q h → s.out = (n.nodes q).out →
        (s.alive = true → (n.nodes q).alive = true) →
        (∃ l, l <+ outputsAt q (h ++ [e]) ∧ s.out = OutBatch.runOut (site q).out (site q).type OutBatch.init l) ∧
        (s.alive = true → s.out = OutBatch.runOut (site q).out (site q).type OutBatch.init (outputsAt q (h ++ [e]))) := by
      intro e s h1 h2 h3
      rw [h1, h2]
      exact ⟨⟨l, hl, ho⟩, fun h => hal (h3 h)⟩
    have hin : ∀ (e : NetEvent P) (q' : P) (ev : Event P), outputsAt q (h ++ [e]) = outputsAt q h →
        (∃ l, l <+ outputsAt q (h ++ [e]) ∧ (n.update q' (inbound enc (site q') (n.nodes q') ev).1 q).out =
          OutBatch.runOut (site q).out (site q).type OutBatch.init l) ∧
        ((n.update q' (inbound enc (site q') (n.nodes q') ev).1 q).alive = true → (n.update q' (inbound enc (site q') (n.nodes q') ev).1 q).out =
          OutBatch.runOut (site q).out (site q).type OutBatch.init (outputsAt q (h ++ [e]))) := by
      intro e q' ev h1
      refine same e _ h1 ?_ ?_
      · simp only [Net.update]
        split
        · rename_i hx; subst hx
          unfold inbound; split <;> rfl
        · rfl
      · simp only [Net.update]
        split
        · rename_i hx; subst hx
          exact inbound_dead _ _ _
        · exact id
    cases e with
    | at_ q' e =>
      unfold netStep
      dsimp only
      cases e with
      | work job =>
        have h1 : outputsAt q (h ++ [.at_ q' (.work job)]) = outputsAt q h := by simp [outputsAt]
        split
        · exact hin _ q' _ h1
        · exact same _ _ h1 rfl id
      | notifyDone =>
        have h1 : outputsAt q (h ++ [.at_ q' .notifyDone]) = outputsAt q h := by simp [outputsAt]
        split
        · refine same _ _ h1 ?_ ?_
          · simp only [Net.update]
            split
            · rename_i hx; subst hx
              unfold localStep; dsimp only; split <;> rfl
            · rfl
          · simp only [Net.update]
            split
            · rename_i hx; subst hx
              unfold localStep; dsimp only; split <;> exact id
            · exact id
        · exact same _ _ h1 rfl id
      | output sch o =>
        by_cases hqq : q' = q
        · subst hqq
          have h1 : outputsAt q' (h ++ [.at_ q' (.output sch o)]) = outputsAt q' h ++ [(sch, o)] := by simp [outputsAt]
          rw [if_pos hq, h1]
          simp only [Net.update, if_true]
          unfold localStep
          dsimp only
          split
          · rename_i ha
            dsimp only
            have hx := hal ha
            have : (OutBatch.ProcessOutCh (site q').out sch o (site q').type (n.nodes q').out).1 =
                OutBatch.runOut (site q').out (site q').type OutBatch.init (outputsAt q' h ++ [(sch, o)]) := by
              rw [runOut_append, ← hx]; rfl
            exact ⟨⟨_, List.Sublist.refl _, this⟩, fun _ => this⟩
          · rename_i ha
            exact ⟨⟨l, hl.trans (List.sublist_append_left _ _), ho⟩, fun h => absurd h ha⟩
        · have h1 : outputsAt q (h ++ [.at_ q' (.output sch o)]) = outputsAt q h := by simp [outputsAt, hqq]
          split
          · refine same _ _ h1 ?_ ?_
            · simp only [Net.update]; rw [if_neg (fun h => hqq h.symm)]
            · simp only [Net.update]; rw [if_neg (fun h => hqq h.symm)]; exact id
          · exact same _ _ h1 rfl id
    | deliver i sch =>
      have h1 : outputsAt q (h ++ [.deliver i sch]) = outputsAt q h := by simp [outputsAt]
      unfold netStep
      dsimp only
      rcases n.pool[i]? with _ | ⟨p, q', raw⟩
      · exact same _ _ h1 rfl id
      · dsimp only
        split
        · exact hin _ q' _ h1
        · exact same _ _ h1 rfl id
    | foreign p q' raw sch =>
      have h1 : outputsAt q (h ++ [.foreign p q' raw sch]) = outputsAt q h := by simp [outputsAt]
      unfold netStep
      dsimp only
      split
      · exact hin _ q' _ h1
      · exact same _ _ h1 rfl id

open Verif.Props.Outgoing in
theorem _root_.Verif.Spec.Proper.sub {base : TssCommon.Env K P} {out : OutBatch.Env P} {i : Nat} {outs l : List (OutBatch.Sched × OutBatch.Output)}
    (h : Proper base out i outs) (hl : l <+ outs) : Proper base out i l := by
  refine ⟨fun e he => h.regular e (hl.subset he), fun e he => h.owner e (hl.subset he), fun k => ?_,
    fun e he e' he' => h.slots e (hl.subset he) e' (hl.subset he')⟩
  exact le_trans ((hl.map Prod.snd).filterMap _).length_le (h.batch k)

theorem runOut_made (env : OutBatch.Env P) (t : MsgType) (l : List (OutBatch.Sched × OutBatch.Output)) :
    ∀ b ∈ (OutBatch.runOut env t OutBatch.init l).sent, BulkOf env t b := by
  induction l using List.reverseRecOn with
  | nil => intro b hb; cases hb
  | append_singleton l x ih =>
    obtain ⟨sch, o⟩ := x
    rw [runOut_append]
    show ∀ b ∈ (OutBatch.ProcessOutCh env sch o t _).1.sent, _
    obtain ⟨new, h1, h2⟩ := processOut_sent env sch o t (OutBatch.runOut env t OutBatch.init l)
    rw [h1]
    intro b hb
    rcases List.mem_append.1 hb with hb | hb
    · exact ih b hb
    · exact h2 b hb

open Verif.Props.Outgoing in
/-- proper outputs give good bulks -/
theorem goodBulks_of {base : TssCommon.Env K P} {out : OutBatch.Env P} {i : Nat} {l : List (OutBatch.Sched × OutBatch.Output)} (t : MsgType)
    (hn : 1 ≤ out.msgNum) (hinj : Function.Injective out.pstr) (h : Proper base out i l) :
    GoodBulks base i (OutBatch.runOut out t OutBatch.init l).sent ∧
    (∀ b ∈ (OutBatch.runOut out t OutBatch.init l).sent, ∀ p ∈ b.peers, ∀ x ∈ b.shares, ∃ e ∈ l, ∃ d r, e.2.wire = some (d, r) ∧
      x = ⟨d, e.2.moniker, some r⟩ ∧ r.sender = some i ∧ p ∈ receivers out (queueOf e.2.type r)) ∧
    (∀ e ∈ l, ∀ d r, e.2.wire = some (d, r) → ((l.map Prod.snd).filterMap (shareIn (queueOf e.2.type r))).length = out.msgNum →
      ∃ b ∈ (OutBatch.runOut out t OutBatch.init l).sent, b.peers = receivers out (queueOf e.2.type r) ∧
        (⟨d, e.2.moniker, some r⟩ : BulkWireMsg) ∈ b.shares ∧ b.roundInfo = e.2.type) := by
  obtain ⟨⟨waiting, hw⟩, hb⟩ := c37_batching out hn hinj t l (fun e he => (h.regular e he).1) (fun e he => (h.regular e he).2)
  generalize hsent : OutBatch.runOut out t OutBatch.init l = s at *
  -- at most one bulk in a queue
  have one : ∀ q, ∀ b ∈ s.sent, ∀ b' ∈ s.sent, ofQueue q b = true → ofQueue q b' = true → b = b' := by
    intro q b hbm b' hbm' h1 h2
    have hlen : ∀ b ∈ s.sent.filter (ofQueue q), b.shares.length = out.msgNum := fun b hx => (hb b (List.mem_filter.1 hx).1).1
    have hle := h.batch q
    rw [← (hw q).2, List.length_append, List.length_flatMap] at hle
    have m1 : b ∈ s.sent.filter (ofQueue q) := List.mem_filter.2 ⟨hbm, h1⟩
    have m2 : b' ∈ s.sent.filter (ofQueue q) := List.mem_filter.2 ⟨hbm', h2⟩
    generalize s.sent.filter (ofQueue q) = f at hlen hle m1 m2
    match f, hlen, hle, m1, m2 with
    | [x], _, _, m1, m2 => rw [List.mem_singleton.1 m1, List.mem_singleton.1 m2]
    | x :: y :: f, hlen, hle, _, _ =>
      have e1 := hlen x (by simp)
      have e2 := hlen y (by simp)
      simp only [List.map_cons, List.sum_cons] at hle
      omega
  have shape : ∀ b ∈ s.sent, ∃ q, b.roundInfo = q.1 ∧ ofQueue q b = true ∧ b.peers = receivers out q ∧
      ∀ x ∈ b.shares, ∃ e ∈ l, ∃ d r, e.2.wire = some (d, r) ∧ x = ⟨d, e.2.moniker, some r⟩ ∧ queueOf e.2.type r = q ∧ r.sender = some i := by
    intro b hbm
    obtain ⟨-, -, q, h1, h2, h3, h4⟩ := hb b hbm
    refine ⟨q, h1, h2, h3, ?_⟩
    intro x hx
    obtain ⟨e, he, hs⟩ := h4 x hx
    obtain ⟨d, r, k1, k2, k3⟩ := shareIn_routing hs
    exact ⟨e, he, d, r, k1, k2, k3, (h.owner e he d r k1).1⟩
  -- the routing of a bulk is that of its first share
  refine ⟨⟨?_, ?_, ?_, ?_⟩, ?_, ?_⟩
  · intro b hbm
    obtain ⟨q, -, -, -, h4⟩ := shape b hbm
    obtain ⟨k, m, rfl⟩ := runOut_made out t l b (hsent ▸ hbm)
    have hl := (hb _ hbm).1
    cases m with
    | nil => simp [OutBatch.sendBulkMsg] at hl; omega
    | cons x m =>
      obtain ⟨e, he, d, r, k1, rfl, k3, k4⟩ := h4 x (by simp [OutBatch.sendBulkMsg])
      exact ⟨r, rfl, k4, ((h.regular e he).1.dest d r k1).1⟩
  · intro b hbm x hx
    obtain ⟨q, -, -, -, h4⟩ := shape b hbm
    obtain ⟨e, he, d, r, k1, rfl, -, k4⟩ := h4 x hx
    obtain ⟨-, g2, ri, g3⟩ := h.owner e he d r k1
    exact ⟨g2, r, ri, rfl, k4, g3⟩
  · rintro b hbm b' hbm' ⟨r, hr, hbc⟩ ⟨r', hr', hbc'⟩ hri
    refine one (b.roundInfo, none) b hbm b' hbm' ?_ ?_
    · simp [ofQueue, hr, queueOf, hbc]
    · simp [ofQueue, hr', queueOf, hbc', hri]
  · intro b hbm b' hbm' p hp hp' x hx x' hx' hid hround
    obtain ⟨q, -, -, q3, h4⟩ := shape b hbm
    obtain ⟨q', -, -, q3', h4'⟩ := shape b' hbm'
    obtain ⟨e, he, d, r, k1, rfl, k3, k4⟩ := h4 x hx
    obtain ⟨e', he', d', r', k1', rfl, k3', k4'⟩ := h4' x' hx'
    obtain ⟨rfl, rfl⟩ := h.slots e he e' he' d r d' r' k1 k1' hid hround ⟨p, by rw [k3, ← q3]; exact hp, by rw [k3', ← q3']; exact hp'⟩
    dsimp only at hid
    rw [hid]
  · intro b hbm p hp x hx
    obtain ⟨q, -, -, q3, h4⟩ := shape b hbm
    obtain ⟨e, he, d, r, k1, k2, k3, k4⟩ := h4 x hx
    exact ⟨e, he, d, r, k1, k2, k4, by rw [k3, ← q3]; exact hp⟩
  · intro e he d r hwire hfull
    obtain ⟨w1, w2⟩ := hw (queueOf e.2.type r)
    have hmem : (⟨d, e.2.moniker, some r⟩ : BulkWireMsg) ∈ (l.map Prod.snd).filterMap (shareIn (queueOf e.2.type r)) :=
      List.mem_filterMap.2 ⟨e.2, List.mem_map.2 ⟨e, he, rfl⟩, by simp [shareIn, hwire]⟩
    rw [← w2] at hmem hfull
    have hlen : ∀ b ∈ s.sent.filter (ofQueue (queueOf e.2.type r)), b.shares.length = out.msgNum :=
      fun b hx => (hb b (List.mem_filter.1 hx).1).1
    have hwe : waiting (queueOf e.2.type r) = [] := by
      rw [List.length_append, List.length_flatMap] at hfull
      have hdvd : ((s.sent.filter (ofQueue (queueOf e.2.type r))).map (fun b => b.shares.length)).sum =
          (s.sent.filter (ofQueue (queueOf e.2.type r))).length * out.msgNum := by
        generalize s.sent.filter (ofQueue (queueOf e.2.type r)) = f at hlen
        induction f with
        | nil => simp
        | cons x f ih =>
          rw [List.map_cons, List.sum_cons, hlen x (by simp), ih (fun b hb => hlen b (by simp [hb])), List.length_cons, Nat.succ_mul, Nat.add_comm]
      have : ((s.sent.filter (ofQueue (queueOf e.2.type r))).map (fun b => b.shares.length)).sum = out.msgNum := by
        rw [hdvd] at hfull ⊢
        rcases hk : (s.sent.filter (ofQueue (queueOf e.2.type r))).length with _ | _ | k
        · rw [hk] at hfull; omega
        · omega
        · exfalso
          rw [hk] at hfull
          have : out.msgNum * 2 ≤ (k + 1 + 1) * out.msgNum := by
            rw [Nat.mul_comm]; exact Nat.mul_le_mul_right _ (by omega)
          omega
      exact List.length_eq_zero_iff.1 (by omega)
    rw [hwe, List.append_nil] at hmem
    obtain ⟨b, hbm, hx⟩ := List.mem_flatMap.1 hmem
    obtain ⟨hbs, hbq⟩ := List.mem_filter.1 hbm
    obtain ⟨q, q1, q2, q3, -⟩ := shape b hbs
    refine ⟨b, hbs, ?_, hx, ?_⟩
    swap
    · unfold ofQueue at hbq
      rcases hbr : b.routing with _ | r0
      · rw [hbr] at hbq; cases hbq
      · rw [hbr] at hbq
        exact congrArg Prod.fst (of_decide_eq_true hbq)
    have : q = queueOf e.2.type r := by
      unfold ofQueue at q2 hbq
      rcases hbr : b.routing with _ | r0
      · rw [hbr] at q2; cases q2
      · rw [hbr] at q2 hbq
        rw [← of_decide_eq_true q2, ← of_decide_eq_true hbq]
    rw [q3, this]

open Verif.Props.Outgoing in
/-- the shares of a bulk are of its type, and broadcast or unicast as the bulk is -/
theorem bulk_kinds {base : TssCommon.Env K P} {out : OutBatch.Env P} {i : Nat} {l : List (OutBatch.Sched × OutBatch.Output)} (t : MsgType)
    (hn : 1 ≤ out.msgNum) (hinj : Function.Injective out.pstr) (h : Proper base out i l) {b : OutBatch.Bulk P}
    (hbm : b ∈ (OutBatch.runOut out t OutBatch.init l).sent) :
    b.shares ≠ [] ∧ ∃ r0, b.routing = some r0 ∧ ∀ x ∈ b.shares, ∃ e ∈ l, ∃ d r, e.2.wire = some (d, r) ∧ x = ⟨d, e.2.moniker, some r⟩ ∧
      e.2.type = b.roundInfo ∧ r.isBroadcast = r0.isBroadcast ∧ b.peers = receivers out (queueOf e.2.type r) := by
  obtain ⟨-, hb⟩ := c37_batching out hn hinj t l (fun e he => (h.regular e he).1) (fun e he => (h.regular e he).2)
  obtain ⟨h1, -, q, h3, h4, h5, h6⟩ := hb b hbm
  have hne : b.shares ≠ [] := by
    intro h0; rw [h0] at h1; simp at h1; omega
  refine ⟨hne, ?_⟩
  have all : ∀ x ∈ b.shares, ∃ e ∈ l, ∃ d r, e.2.wire = some (d, r) ∧ x = ⟨d, e.2.moniker, some r⟩ ∧ queueOf e.2.type r = q := by
    intro x hx
    obtain ⟨e, he, hs⟩ := h6 x hx
    obtain ⟨d, r, k1, k2, k3⟩ := shareIn_routing hs
    exact ⟨e, he, d, r, k1, k2, k3⟩
  have kind : ∀ e ∈ l, ∀ d r, e.2.wire = some (d, r) → queueOf e.2.type r = q → (r.isBroadcast = true ↔ q.2 = none) := by
    intro e he d r hw hq
    rw [← hq]
    unfold queueOf
    cases hbc : r.isBroadcast with
    | true => simp
    | false =>
      obtain ⟨d', hd'⟩ := ((h.regular e he).1.dest d r hw).2 hbc
      simp [hd']
  obtain ⟨r0, hr0⟩ : ∃ r0, b.routing = some r0 := by
    unfold ofQueue at h4
    rcases hr : b.routing with _ | r0
    · rw [hr] at h4; cases h4
    · exact ⟨r0, rfl⟩
  refine ⟨r0, hr0, ?_⟩
  have hr0k : r0.isBroadcast = true ↔ q.2 = none := by
    obtain ⟨k, m, hm⟩ := runOut_made out t l b hbm
    cases m with
    | nil => rw [hm] at hne; simp [OutBatch.sendBulkMsg] at hne
    | cons x m =>
      obtain ⟨e, he, d, r, k1, k2, k3⟩ := all x (by rw [hm]; simp [OutBatch.sendBulkMsg])
      have : r0 = r := by
        rw [hm] at hr0
        simp only [OutBatch.sendBulkMsg, List.head?_cons, Option.bind_some, k2, Option.some.injEq] at hr0
        exact hr0.symm
      rw [this]
      exact kind e he d r k1 k3
  intro x hx
  obtain ⟨e, he, d, r, k1, k2, k3⟩ := all x hx
  refine ⟨e, he, d, r, k1, k2, ?_, ?_, by rw [h5, k3]⟩
  · rw [h3, ← k3]; rfl
  · rw [Bool.eq_iff_iff, hr0k]; exact kind e he d r k1 k3

/-! ## how much a message can cause -/

/-- how many messages a message can lead to, itself included; `N` is the number of members -/
def weight (env : TssCommon.Env K P) (N : Nat) (x : P × P × Bytes) : Nat :=
  match env.decWrapped x.2.2 with
  | none => 1
  | some (t, pl) =>
    if t = TSSKeyGenMsg ∨ t = TSSKeySignMsg then N * (2 * N + 1) + 1
    else if t = TSSKeyGenVerMsg ∨ t = TSSKeySignVerMsg then 2 * N + 1
    else if t = TSSControlMsg then
      match env.decControl pl with
      | none => 1
      | some c => if c.msg = none then 2 else 1
    else 1

theorem weight_pos (env : TssCommon.Env K P) (N : Nat) (x : P × P × Bytes) : 1 ≤ weight env N x := by
  unfold weight
  split
  · exact le_refl 1
  · split
    · omega
    · split
      · omega
      · split
        · split
          · exact le_refl 1
          · split <;> omega
        · exact le_refl 1

def total (env : TssCommon.Env K P) (N : Nat) (pool : List (P × P × Bytes)) : Nat := (pool.map (weight env N)).sum

theorem sum_le {l : List Nat} {b : Nat} (h : ∀ x ∈ l, x ≤ b) : l.sum ≤ l.length * b := by
  induction l with
  | nil => simp
  | cons x l ih =>
    have h1 := h x (by simp)
    have h2 := ih (fun y hy => h y (by simp [hy]))
    simp only [List.sum_cons, List.length_cons, Nat.add_mul, Nat.one_mul]
    omega

theorem members_le (_hs : Setting enc base ids peers site) {l : List P} (hn : l.Nodup) (hl : ∀ p ∈ l, Member peers p) : l.length ≤ peers.length := by
  have : l ⊆ peers.map Prod.snd := by
    intro p hp
    obtain ⟨i, hi⟩ := hl p hp
    exact List.mem_map.2 ⟨(i, p), Map.mem_of_get hi, rfl⟩
  have := (List.subperm_of_subset hn this).length_le
  rwa [List.length_map] at this

/-- what the processing of a message puts on the network weighs less than the message -/
theorem weight_inbound (hs : Setting enc base ids peers site) (hb : Bulks base peers site S) {h : List (NetEvent P)} {n : Net K P}
    (hi : NetInv enc peers site S h n) {p q : P} {raw : Bytes} (hf : Fine enc peers site S p q raw) (sch : TssCommon.Sched P) :
    total base peers.length (inbound enc (site q) (n.nodes q) (.msg raw p sch)).2 + 1 ≤ weight base peers.length (p, q, raw) := by
  have hq := hf.dest
  have hal := hi.alive hs hb hq
  have hin : (inbound enc (site q) (n.nodes q) (.msg raw p sch)).2 =
      ((TssCommon.step (site q).env (n.nodes q).ses (.msg raw p sch)).sent.drop (n.nodes q).ses.sent.length).flatMap (renderSent enc (site q)) := by
    unfold inbound; rw [if_pos hal]
  rw [hin]
  obtain ⟨t, ht⟩ := Setting_threshold hs hq
  have hcore := (hi.fine hs hb hq ht).core
  have hdone : Verif.Props.SessionMore.DoneInv (site q).mgr.partyIDMap.length (n.nodes q).ses := by
    rw [hi.ses q hq]; exact Verif.Props.SessionMore.doneInv_run _ _ _
  have hst := step_fine (wellMade hs hb hq) ht hcore hdone (n.nodes q).hist (.msg raw p sch) (hf.behaves sch)
  have hses : TssCommon.step (site q).env (n.nodes q).ses (.msg raw p sch) =
      run (site q).env (newTssCommon (site q).mgr) ((n.nodes q).hist ++ [.msg raw p sch]) := by
    rw [Verif.Props.SessionMore.run_snoc, ← hi.ses q hq]
  have hfh : FineHist enc peers site S q ((n.nodes q).hist ++ [.msg raw p sch]) := by
    intro raw' p' sch' hm
    rcases List.mem_append.1 hm with hm | hm
    · exact hi.hist q hq raw' p' sch' hm
    · cases List.mem_singleton.1 hm; exact hf
  have hdw : (site q).env.decWrapped = base.decWrapped := by rw [hs.env q hq]
  have hdc : (site q).env.decControl = base.decControl := by rw [hs.env q hq]
  have hpos := weight_pos base peers.length (p, q, raw)
  rcases hst.puts with hp | ⟨x, hp, hx⟩
  · rw [hp]
    simpa [total] using hpos
  · rw [hp, List.drop_left, List.flatMap_singleton]
    have hxs : x ∈ (run (site q).env (newTssCommon (site q).mgr) ((n.nodes q).hist ++ [.msg raw p sch])).sent := by
      rw [← hses, hp]; simp
    have hlen : ∀ b l, (toPeers (site q).env.localPeer b l).length ≤ l.length := by
      intro b l
      unfold toPeers
      rw [List.length_map]
      exact List.length_filter_le _ _
    rcases hx with ⟨⟨mt, w, hd⟩, ty, key, d, hpl, hty, hsub⟩ | ⟨⟨p', key, d, hcf⟩, c, hpl, hcm⟩ | ⟨⟨p', c', hrq⟩, c, hpl, hcm, hone⟩
    · have hw : weight base peers.length (p, q, raw) = peers.length * (2 * peers.length + 1) + 1 := by
        obtain ⟨raw', p', sch', pl, he, hr, h1, -⟩ := hd
        cases he
        rw [hdw] at hr
        unfold weight
        simp only [hr]
        rw [if_pos h1]
      rw [hw]
      have h1 : ∀ y ∈ (renderSent enc (site q) x).map (weight base peers.length), y ≤ 2 * peers.length + 1 := by
        intro y hy
        obtain ⟨z, hz, rfl⟩ := List.mem_map.1 hy
        have e4 := (mem_toPeers hz).2.2.2
        rw [hpl] at e4
        dsimp only at e4
        unfold weight
        rw [e4, hs.lossless.wrap]
        dsimp only
        rw [if_neg (by rcases hty with rfl | rfl <;> decide), if_pos hty]
      have h2 := sum_le h1
      have h3 : (renderSent enc (site q) x).length ≤ peers.length := by
        refine le_trans (hlen _ _) (le_trans hsub.length_le ?_)
        exact members_le hs (hs.distinct q hq) (fun p hp => ((hs.others q hq p).1 hp).1)
      rw [List.length_map] at h2
      have h4 := Nat.mul_le_mul_right (2 * peers.length + 1) h3
      unfold total
      omega
    · have hw : weight base peers.length (p, q, raw) = 2 * peers.length + 1 := by
        obtain ⟨raw', sch', t', pl, he, hr, h1, -⟩ := hcf
        cases he
        rw [hdw] at hr
        unfold weight
        simp only [hr]
        rw [if_neg (by rcases h1 with rfl | rfl <;> decide), if_pos h1]
      rw [hw]
      have h1 : ∀ y ∈ (renderSent enc (site q) x).map (weight base peers.length), y ≤ 2 := by
        intro y hy
        obtain ⟨z, hz, rfl⟩ := List.mem_map.1 hy
        have e4 := (mem_toPeers hz).2.2.2
        rw [hpl] at e4
        dsimp only at e4
        unfold weight
        rw [e4, hs.lossless.wrap]
        dsimp only
        rw [if_neg (by decide), if_neg (by decide), if_pos rfl, hs.lossless.control]
        dsimp only
        rw [if_pos hcm]
      have h2 := sum_le h1
      have h3 : (renderSent enc (site q) x).length ≤ peers.length := by
        have hnd : (x.peers.filter (fun p => p ≠ (site q).env.localPeer)).Nodup := by
          rcases c72_sent _ _ (hs.fresh q hq).2 _ x hxs with hc | ⟨d, hr⟩ | ha
          · obtain ⟨_, _, _, _, _, _, _, _, _, _, _, hpl', _⟩ := hc
            rw [hpl] at hpl'; cases hpl'
          · obtain ⟨_, _, _, _, _, _, hnd, _⟩ := hr
            exact hnd.filter _
          · obtain ⟨_, _, _, _, _, _, _, rfl, _⟩ := ha
            exact (List.nodup_singleton _).filter _
        unfold renderSent toPeers
        rw [List.length_map]
        refine members_le hs hnd ?_
        intro p' hp'
        obtain ⟨g1, g2⟩ := List.mem_filter.1 hp'
        have := fine_sent hs hb hq hfh x hxs _ (toPeers_mem (me := (site q).env.localPeer) g1 (by simpa using g2))
        exact this.2.dest
      rw [List.length_map] at h2
      have h4 := Nat.mul_le_mul_right 2 h3
      unfold total
      omega
    · have hw : weight base peers.length (p, q, raw) = 2 := by
        obtain ⟨raw', sch', pl, he, hr, h1, h2⟩ := hrq
        cases he
        rw [hdw] at hr
        rw [hdc] at h1
        unfold weight
        simp only [hr]
        rw [if_neg (by decide), if_neg (by decide), if_pos trivial, h1]
        dsimp only
        rw [if_pos h2]
      rw [hw]
      have h1 : ∀ y ∈ (renderSent enc (site q) x).map (weight base peers.length), y ≤ 1 := by
        intro y hy
        obtain ⟨z, hz, rfl⟩ := List.mem_map.1 hy
        have e4 := (mem_toPeers hz).2.2.2
        rw [hpl] at e4
        dsimp only at e4
        unfold weight
        rw [e4, hs.lossless.wrap]
        dsimp only
        rw [if_neg (by decide), if_neg (by decide), if_pos rfl, hs.lossless.control]
        dsimp only
        rw [if_neg hcm]
      have h2 := sum_le h1
      have h3 : (renderSent enc (site q) x).length ≤ 1 := le_trans (hlen _ _) (le_of_eq hone)
      rw [List.length_map] at h2
      unfold total
      omega

/-- the delivery of a message makes the network lighter -/
theorem total_deliver (hs : Setting enc base ids peers site) (hb : Bulks base peers site S) (honest : P → Bool)
    (hh : ∀ p, honest p = true ↔ Member peers p) {h : List (NetEvent P)} {n : Net K P} (hi : NetInv enc peers site S h n) (i : Nat)
    (sch : TssCommon.Sched P) (hlt : i < n.pool.length) :
    total base peers.length (netStep enc site honest n (.deliver i sch)).pool + 1 ≤ total base peers.length n.pool := by
  have hx : n.pool[i]? = some n.pool[i] := List.getElem?_eq_getElem hlt
  have hperm := List.getElem_cons_eraseIdx_perm hlt
  have hsum : total base peers.length n.pool = weight base peers.length n.pool[i] + total base peers.length (n.pool.eraseIdx i) := by
    unfold total
    rw [← (hperm.map _).sum_eq]
    simp
  have hf := hi.pool n.pool[i] (List.getElem_mem hlt)
  unfold netStep
  dsimp only
  rw [hx]
  generalize n.pool[i] = x at hf hsum
  obtain ⟨p, q, raw⟩ := x
  dsimp only at hf ⊢
  rw [if_pos ((hh q).2 hf.dest)]
  have := weight_inbound hs hb hi hf sch
  rw [hsum]
  dsimp only
  unfold total at this ⊢
  rw [List.map_append, List.sum_append]
  omega

theorem deliver_out (site : P → Site K P) (honest : P → Bool) (n : Net K P) (i : Nat) (sch : TssCommon.Sched P) (q : P) :
    ((netStep enc site honest n (.deliver i sch)).nodes q).out = (n.nodes q).out := by
  unfold netStep
  dsimp only
  rcases n.pool[i]? with _ | ⟨p, q', raw⟩
  · rfl
  · dsimp only
    split
    · simp only [Net.update]
      split
      · rename_i h; subst h
        unfold inbound
        split <;> rfl
      · rfl
    · rfl

end

end Verif.SessNet
