import Verif.Props.C102_C106
import Verif.Props.C92_C93
import Verif.Spec.DemoSessN

/-! # C122: whom a timeout blames when some members have stopped -/
set_option linter.unusedSectionVars false
namespace Verif.Props.Stopped
open Verif.Go Verif.Conversion Verif.Messages Verif.Blame Verif.TssCommon Verif.Spec Verif.Threshold Verif.SessNet Verif.Session
open Verif.Props.Timeouts Verif.Props.SessionNet Verif.Props.TimeoutVerdict
open scoped List

variable {K P : Type} [DecidableEq K] [DecidableEq P]

/-! ## Specification -/

/-- the local parties of `p` have produced a message of this round for `q`, as a broadcast or not -/
def Made (site : P → Site K P) (h : List (NetEvent P)) (p q : P) (round : String) (bc : Bool) : Prop :=
  ∃ e ∈ outputsAt p h, ∃ b r, e.2.wire = some (b, r) ∧ e.2.type = round ∧ r.isBroadcast = bc ∧
    q ∈ Verif.Props.Outgoing.receivers (site p).out (Verif.Props.Outgoing.queueOf round r)

/-- the local parties of `p` have all produced their message of this round for `q`, so that `p` sends them -/
def MadeAll (site : P → Site K P) (h : List (NetEvent P)) (p q : P) (round : String) (bc : Bool) : Prop :=
  ∃ e ∈ outputsAt p h, ∃ b r, e.2.wire = some (b, r) ∧ e.2.type = round ∧ r.isBroadcast = bc ∧
    q ∈ Verif.Props.Outgoing.receivers (site p).out (Verif.Props.Outgoing.queueOf round r) ∧ Full (site p).out (outputsAt p h) round r

/-- the rounds a timeout asks about: the unicast round `asked` and the broadcasts of the last round -/
def rounds (asked last : String) : List (String × Bool) := [(asked, false), (last, true)]

/-- `p` is not behind: of the rounds asked about, it has produced its messages for `q` if anybody has -/
def KeepsUp (peers : Map Nat P) (site : P → Site K P) (h : List (NetEvent P)) (q : P) (asked last : String) (p : P) : Prop :=
  ∀ x ∈ rounds asked last, (∃ p', Member peers p' ∧ p' ≠ q ∧ Made site h p' q x.1 x.2) → MadeAll site h p q x.1 x.2

/-- `p` misses one of the rounds asked about: it has produced nothing of it for `q`, although a member that keeps going has -/
def Misses (site : P → Site K P) (h : List (NetEvent P)) (live : List P) (q : P) (asked last : String) (p : P) : Prop :=
  ∃ x ∈ rounds asked last, ¬ Made site h p q x.1 x.2 ∧ ∃ p' ∈ live, p' ≠ q ∧ MadeAll site h p' q x.1 x.2

/-- the blame manager of node `q` when its session times out after the message `last` -/
def atTimeout (n : Net K P) (q : P) (last : String × Bool) : Manager K P := { (n.nodes q).ses.mgr with lastMsg := some last }

/-! ## proofs -/

variable {enc : Encoders P} {base : TssCommon.Env K P} {ids : Map Nat Party} {peers : Map Nat P} {site : P → Site K P} {honest : P → Bool}

theorem loopSes_run (env : TssCommon.Env K P) (m : Manager K P) (h : List (TssCommon.Event P)) :
    LoopSes env m h (TssCommon.run env (newTssCommon m) h) := by
  induction h using List.reverseRecOn with
  | nil => exact .init
  | append_singleton h e ih => rw [Verif.Props.SessionMore.run_snoc]; exact .inbound e ih

/-- a message meant for `q` was produced for it -/
theorem made_of_meant (hs : Setting enc base ids peers site) (hh : ∀ p, honest p = true ↔ Member peers p) (h : List (NetEvent P))
    (hp : ∀ i q, Map.get peers i = some q → Proper base (site q).out i (outputsAt q h))
    (hb : Bulks base peers site (fun q => ((netRun enc site honest h).nodes q).out.sent)) {q : P} {w : WireMessage}
    (hw : Meant enc peers site (fun q => ((netRun enc site honest h).nodes q).out.sent) q w) :
    ∃ i p, Map.get peers i = some p ∧ p ≠ q ∧ w.sender = some i ∧ Made site h p q w.roundInfo w.isBroadcast := by
  obtain ⟨i, p, k1, k2, k3, b, k4, k5, k6⟩ := Meant.other hs hb hw
  refine ⟨i, p, k1, k2, k3, ?_⟩
  obtain ⟨⟨l, hsub, hout⟩, -⟩ := netRun_out (enc := enc) site honest p ((hh p).2 ⟨i, k1⟩) h
  rw [hout] at k4
  obtain ⟨hne, r0, hr0, hall⟩ := bulk_kinds (site p).type (hs.batches p ⟨i, k1⟩).1 (hs.batches p ⟨i, k1⟩).2 ((hp i p k1).sub hsub) k4
  obtain ⟨x, hx⟩ := List.exists_mem_of_ne_nil _ hne
  obtain ⟨e, he, d, r, g1, -, g3, g4, g5⟩ := hall x hx
  refine ⟨e, hsub.subset he, d, r, g1, ?_, ?_, ?_⟩
  · rw [g3, k6]; rfl
  · rw [g4, k6]
    unfold WireMessage.isBroadcast wireOf
    rw [hr0]
  · have : w.roundInfo = e.2.type := by rw [g3, k6]; rfl
    rw [this, ← g5]; exact k5

/-- a message produced for `q` is on its way or has arrived -/
theorem bulk_of_made (hs : Setting enc base ids peers site) (hh : ∀ p, honest p = true ↔ Member peers p) (h : List (NetEvent P))
    (hp : ∀ i q, Map.get peers i = some q → Proper base (site q).out i (outputsAt q h)) {p q : P} (hpm : Member peers p)
    (hal : ((netRun enc site honest h).nodes p).alive = true) {round : String} {bc : Bool} (hm : MadeAll site h p q round bc) :
    ∃ b ∈ ((netRun enc site honest h).nodes p).out.sent, q ∈ b.peers ∧ (wireOf enc (site p) b).roundInfo = round ∧
      (wireOf enc (site p) b).isBroadcast = bc := by
  obtain ⟨i, hi⟩ := hpm
  obtain ⟨e, he, d, r, h1, h2, h3, h4, h5⟩ := hm
  have ho := (netRun_out (enc := enc) site honest p ((hh p).2 ⟨i, hi⟩) h).2 hal
  subst h2
  obtain ⟨b, hb1, hb2, hb3, hb4⟩ :=
    (goodBulks_of (site p).type (hs.batches p ⟨i, hi⟩).1 (hs.batches p ⟨i, hi⟩).2 (hp i p hi)).2.2 e he d r h1 h5
  obtain ⟨-, r0, hr0, hall⟩ := bulk_kinds (site p).type (hs.batches p ⟨i, hi⟩).1 (hs.batches p ⟨i, hi⟩).2 (hp i p hi) hb1
  obtain ⟨e', -, d', r', -, g2, -, g4, -⟩ := hall _ hb3
  have hr : r = r' := by
    have := congrArg BulkWireMsg.routing g2
    simpa using this
  rw [← hr] at g4
  refine ⟨b, by rw [ho]; exact hb1, by rw [hb2]; exact h4, hb4, ?_⟩
  unfold WireMessage.isBroadcast wireOf
  rw [hr0, ← h3]
  exact g4.symm

/-- C122. A session whose members are honest, but of which any number may stop at any point, so that what they sent arrives or not. The members
`live` keep going, there are more of them than the threshold, and the messages between them have arrived. One of them, `q`, times out; no member
that keeps going is behind, and some member misses a round asked about. Then whoever is blamed has stopped, and whoever misses a round asked about
is blamed. (`signing` tells which of the two loops runs.)

Missing: members that keep going but are behind, see `c122_blamed_behind`; and the case that nobody misses one of the two rounds asked about,
which is decided by the shares accepted (C42, C92). -/
theorem c122_stopped_partial (hs : Setting enc base ids peers site) (hh : ∀ p, honest p = true ↔ Member peers p) (h : List (NetEvent P))
    (hcl : Closed h) (hp : ∀ i q, Map.get peers i = some q → Proper base (site q).out i (outputsAt q h)) (hw : Welcome peers site h)
    (live : List P) (hg : Going peers ids.length (netRun enc site honest h) live) (q : P) (hq : q ∈ live)
    (hnew : (site q).mgr.lastUnicastPeer = [] ∧ (site q).mgr.blame.nodes = [] ∧ Map.get peers (site q).mgr.localPartyID = some q)
    (signing : Bool) (last asked : String) (b : Bool)
    (ha : if signing then (last, b, asked) ∈ askedAfter else asked = "KGRound2Message1") (sch : BlameSched P)
    (hup : ∀ p ∈ live, p ≠ q → KeepsUp peers site h q asked last p)
    (hmiss : ∃ p, Member peers p ∧ p ≠ q ∧ Misses site h live q asked last p) :
    ∃ m', (if signing then keysignTimeout base.codec sch (site q).env.p2pPeers.length (atTimeout (netRun enc site honest h) q (last, b))
        else keygenTimeout base.codec sch (site q).env.p2pPeers.length (atTimeout (netRun enc site honest h) q (last, b))) = .ok m' ∧
      (∀ k, Blamed m' k → ∃ i p, Map.get peers i = some p ∧ p ∉ live ∧ Named base.codec ids i k) ∧
      ∀ i p, Map.get peers i = some p → p ≠ q → Misses site h live q asked last p → ∀ k, Named base.codec ids i k → Blamed m' k := by
  obtain ⟨h1, h2, h3⟩ := derived hs hh h hcl hp hw
  have hb := bulks_of h h2 h3
  have hi := netInv_run hs hb honest hh h h1 (fun q _ b hb => hb)
  have hfree := c103_fault_free (enc := enc) hs hh h hcl hp hw
  have hqm := hg.member q hq
  have hcodec : (site q).env.codec = base.codec := by rw [hs.env q hqm]
  have hblame : ((netRun enc site honest h).nodes q).ses.mgr.blame = (site q).mgr.blame := (hfree q hqm).1.2.1
  have hal := fun p hpm => (hfree p hpm).1.1
  have hmade : ∀ w, Meant enc peers site (fun q => ((netRun enc site honest h).nodes q).out.sent) q w →
      ∃ i p, Map.get peers i = some p ∧ p ≠ q ∧ w.sender = some i ∧ Made site h p q w.roundInfo w.isBroadcast :=
    fun w hw => made_of_meant hs hh h hp hb hw
  have hsend : ∀ p ∈ live, ∀ round bc, MadeAll site h p q round bc → ∃ b ∈ ((netRun enc site honest h).nodes p).out.sent, q ∈ b.peers ∧
      (wireOf enc (site p) b).roundInfo = round ∧ (wireOf enc (site p) b).isBroadcast = bc :=
    fun p hpl round bc hm => bulk_of_made hs hh h hp (hg.member p hpl) (hal p (hg.member p hpl)) hm
  have hdeal : ∀ p ∈ live, p ≠ q → ∀ b ∈ ((netRun enc site honest h).nodes p).out.sent, q ∈ b.peers → _ :=
    fun p hpl hne b hbm hqb => dealt_live hs hb hi (fun _ => rfl) hg hq hpl hne hbm hqb
  have hwm := wellMade hs hb hqm
  have hbeh := (hi.hist q hqm).behaves
  have hlive := hal q hqm
  have hses := hi.ses q hqm
  generalize netRun enc site honest h = n at *
  have hcr : (n.nodes q).ses.crashed = false := by
    unfold Node.alive at hlive
    simp only [Bool.and_eq_true, Bool.not_eq_true'] at hlive
    exact hlive.2
  -- the session as the loop sees it
  have hloop : LoopSes (site q).env (site q).mgr (n.nodes q).hist { (n.nodes q).ses with mgr := atTimeout n q (last, b) } := by
    have := LoopSes.adjust (some (last, b)) (n.nodes q).ses.mgr.blame (loopSes_run (site q).env (site q).mgr (n.nodes q).hist)
    rw [← hses] at this
    exact this
  have hsd := sound_of_loop (hs.fresh q hqm).2 hnew.1 hloop
  have hcom := hs.committee q hqm
  obtain ⟨g1, g2, g3⟩ := loop_manager hcom (hs.fresh q hqm).2 hnew.1 hloop
  have hlen : (site q).env.p2pPeers.length + 1 = ids.length := others_length hs hqm
  have hsz : (site q).env.p2pPeers.length + 1 ≤ 2 ^ 50 := by rw [hlen]; exact hs.size
  have hids : (atTimeout n q (last, b)).partyIDMap = ids := by
    have := hsd.good.ids; dsimp only at this; rw [this, hs.idMap q hqm]
  have hlocal : (atTimeout n q (last, b)).localPartyID = (site q).mgr.localPartyID := hsd.loc
  obtain ⟨U, B, v1, v2, v3⟩ : ∃ U B, SilentUnicast (atTimeout n q (last, b)) asked U ∧ SilentBroadcast (atTimeout n q (last, b)) last B ∧
      (Evidence ((site q).env.p2pPeers.length + 1) U B (atTimeout n q (last, b)) →
        ∃ m', (if signing then keysignTimeout base.codec sch (site q).env.p2pPeers.length (atTimeout n q (last, b))
          else keygenTimeout base.codec sch (site q).env.p2pPeers.length (atTimeout n q (last, b))) = .ok m' ∧
          Verdict base.codec ((site q).env.p2pPeers.length + 1) U B (atTimeout n q (last, b)) m') := by
    cases signing with
    | true =>
      obtain ⟨U, B, v1, v2, v3⟩ := c92_keysign base.codec _ g1 g2 g3 sch last asked b rfl (by simpa using ha) _ hsz
      exact ⟨U, B, v1, v2, fun he => by simpa using v3 he⟩
    | false =>
      simp only [Bool.false_eq_true, if_false] at ha
      subst ha
      obtain ⟨U, B, v1, v2, v3⟩ := c92_keygen base.codec _ g1 g2 g3 sch last b rfl _ hsz
      exact ⟨U, B, v1, v2, fun he => by simpa using v3 he⟩
  have hsil := silent_history hcom (hs.fresh q hqm).2 hnew.1 hloop hcr v1
  -- who was heard
  have gotMade : ∀ i, GotUnicast (site q).env (site q).mgr (n.nodes q).hist asked i → ∃ p, Map.get peers i = some p ∧ p ≠ q ∧ Made site h p q asked false := by
    rintro i ⟨e, he, w, hc, -, hsi, hbc, hri⟩
    obtain ⟨i', p, k1, k2, k3, k4⟩ := hmade w ((hbeh e he).carries w hc)
    rw [hsi] at k3; cases k3
    rw [hri, hbc] at k4
    exact ⟨p, k1, k2, k4⟩
  have heardMade : ∀ i, Heard (atTimeout n q (last, b)) last i → ∃ p, Map.get peers i = some p ∧ p ≠ q ∧ Made site h p q last true := by
    rintro i ⟨key, w, hk, hri, hsi⟩
    obtain ⟨hj, hbc, -⟩ := hsd.good.stored (hs.fresh q hqm).2 key w hk
    obtain ⟨e, he, hc⟩ := hj.carried
    obtain ⟨i', p, k1, k2, k3, k4⟩ := hmade w ((hbeh e he).carries w hc)
    rw [hsi] at k3; cases k3
    rw [hri, hbc] at k4
    exact ⟨p, k1, k2, k4⟩
  have sentUni : ∀ i p, Map.get peers i = some p → p ∈ live → p ≠ q → MadeAll site h p q asked false →
      SentUnicast (site q).env (site q).mgr (n.nodes q).hist asked i := by
    intro i p hpi hpl hne hm
    obtain ⟨b, hbm, hqb, hri, hbc⟩ := hsend p hpl _ _ hm
    obtain ⟨⟨e, he, mt, hdl⟩, -⟩ := hdeal p hpl hne b hbm hqb
    have hmeant : Meant enc peers site (fun q => (n.nodes q).out.sent) q (wireOf enc (site p) b) := ⟨p, hg.member p hpl, hne, b, hbm, hqb, rfl⟩
    obtain ⟨i', pt, peer, bulk, m1, m2, m3, m4, m5, -⟩ := hwm.made _ hmeant
    have hsi := wireOf_sender (enc := enc) hb hpi hbm
    rw [hsi] at m1; cases m1
    exact ⟨e, he, mt, _, hdl, ⟨i, pt, hsi, m2, m5⟩, hsi, hbc, hri⟩
  have heard : ∀ i p, Map.get peers i = some p → p ∈ live → p ≠ q → MadeAll site h p q last true → Heard (atTimeout n q (last, b)) last i := by
    intro i p hpi hpl hne hm
    obtain ⟨b', hbm, hqb, hri, hbc⟩ := hsend p hpl _ _ hm
    obtain ⟨w', hst⟩ := (hdeal p hpl hne b' hbm hqb).2.2 hbc i hpi
    obtain ⟨-, -, i', hsi, hk⟩ := hsd.good.stored (hs.fresh q hqm).2 _ w' hst
    obtain ⟨e1, e2⟩ := cacheKey_inj hk
    subst e1
    refine ⟨_, w', hst, ?_, hsi⟩
    rw [← e2]; exact hri
  have key : ∀ i, i ∈ Map.keys ids → ∃ p, Map.get peers i = some p := by
    intro i hk
    have : i ∈ Map.keys (site q).mgr.partyIDtoP2PID := (hcom.same i).2 (by rw [hs.idMap q hqm]; exact hk)
    obtain ⟨p, hp'⟩ := Option.isSome_iff_exists.1 ((Map.get_isSome_iff _ i).2 this)
    exact ⟨p, by rw [← hs.peerMap q hqm]; exact hp'⟩
  have keyOf : ∀ i p, Map.get peers i = some p → i ∈ Map.keys ids := by
    intro i p hi'
    rw [← hs.peerMap q hqm] at hi'
    have := (hcom.same i).1 ((Map.get_isSome_iff _ i).1 (by rw [hi']; rfl))
    rw [hs.idMap q hqm] at this
    exact this
  have notq : ∀ i p, Map.get peers i = some p → (p ≠ q ↔ i ≠ (site q).mgr.localPartyID) := by
    intro i p hi'
    constructor
    · rintro hne rfl
      rw [hnew.2.2] at hi'; cases hi'; exact hne rfl
    · rintro hne rfl
      exact hne (hs.inj hi' hnew.2.2)
  -- only stopped members are silent
  have onlyU : ∀ i ∈ U, ∃ p, Map.get peers i = some p ∧ p ∉ live := by
    intro i hiU
    obtain ⟨hk, hnl⟩ := hsil.member i hiU
    rw [hs.idMap q hqm] at hk
    obtain ⟨p, hpi⟩ := key i hk
    refine ⟨p, hpi, fun hpl => ?_⟩
    have hne := (notq i p hpi).2 hnl
    obtain ⟨j, hj⟩ : ∃ j, GotUnicast (site q).env (site q).mgr (n.nodes q).hist asked j := by
      by_contra hno
      have := hsil.noone (fun j hj => hno ⟨j, hj⟩)
      rw [this] at hiU; cases hiU
    obtain ⟨p', k1, k2, k3⟩ := gotMade j hj
    exact hsil.silent i hiU (sentUni i p hpi hpl hne (hup p hpl hne (asked, false) (by simp [rounds]) ⟨p', ⟨j, k1⟩, k2, k3⟩))
  have onlyB : ∀ i ∈ B, ∃ p, Map.get peers i = some p ∧ p ∉ live := by
    intro i hiB
    obtain ⟨-, b2, b3⟩ := v2
    by_cases hex : ∃ j, Heard (atTimeout n q (last, b)) last j
    · obtain ⟨hk, hnl, hnh⟩ := (b2 hex i).1 hiB
      rw [hids] at hk
      rw [hlocal] at hnl
      obtain ⟨p, hpi⟩ := key i hk
      refine ⟨p, hpi, fun hpl => hnh ?_⟩
      obtain ⟨j, hj⟩ := hex
      obtain ⟨p', k1, k2, k3⟩ := heardMade j hj
      have hne := (notq i p hpi).2 hnl
      exact heard i p hpi hpl hne (hup p hpl hne (last, true) (by simp [rounds]) ⟨p', ⟨j, k1⟩, k2, k3⟩)
    · rw [b3 hex] at hiB; cases hiB
  -- there are few of them
  have hsmall : small ((site q).env.p2pPeers.length + 1) U = U := by
    unfold small
    rw [if_pos]
    rw [hlen]
    obtain ⟨t, ht, hlt⟩ := hg.enough
    have hex := Verif.Props.C01.threshold_exact ids.length (le_trans hs.size (by norm_num))
    rw [hex] at ht
    have hte : ⌈(2 * (ids.length : ℚ)) / 3⌉ - 1 = t := by cases ht; rfl
    have hc3 : 2 * (ids.length : ℤ) ≤ 3 * ⌈(2 * (ids.length : ℚ)) / 3⌉ := by
      have h5 := Int.le_ceil ((2 * (ids.length : ℚ)) / 3)
      have h6 : (2 * (ids.length : ℚ)) ≤ 3 * (⌈(2 * (ids.length : ℚ)) / 3⌉ : ℚ) := by linarith
      exact_mod_cast h6
    have hcount : U.length + live.length ≤ ids.length := by
      have hpU : ∃ l : List P, l.length = U.length ∧ l.Nodup ∧ ∀ p ∈ l, Member peers p ∧ p ∉ live := by
        have hnd := hsil.nodup
        clear v1 v3 hsil
        induction U with
        | nil => exact ⟨[], rfl, List.nodup_nil, by simp⟩
        | cons i U ih =>
          obtain ⟨l, l1, l2, l3, l4⟩ : ∃ l : List P, l.length = U.length ∧ l.Nodup ∧ (∀ p ∈ l, Member peers p ∧ p ∉ live) ∧
              ∀ p ∈ l, ∃ j ∈ U, Map.get peers j = some p := by
            have := fun j hj => onlyU j (List.mem_cons_of_mem i hj)
            have hnd' := (List.nodup_cons.1 hnd).2
            clear ih onlyU hnd
            induction U with
            | nil => exact ⟨[], rfl, List.nodup_nil, by simp, by simp⟩
            | cons j U ih =>
              obtain ⟨l, l1, l2, l3, l4⟩ := ih (fun j hj => this j (List.mem_cons_of_mem _ hj)) (List.nodup_cons.1 hnd').2
              obtain ⟨p, hp1, hp2⟩ := this j (by simp)
              refine ⟨p :: l, by simp [l1], List.nodup_cons.2 ⟨?_, l2⟩, ?_, ?_⟩
              · intro hpl
                obtain ⟨j', hj', hg'⟩ := l4 p hpl
                rw [hs.inj hg' hp1] at hj'
                exact (List.nodup_cons.1 hnd').1 hj'
              · intro p' hp'
                rcases List.mem_cons.1 hp' with rfl | hp'
                · exact ⟨⟨j, hp1⟩, hp2⟩
                · exact l3 p' hp'
              · intro p' hp'
                rcases List.mem_cons.1 hp' with rfl | hp'
                · exact ⟨j, by simp, hp1⟩
                · obtain ⟨j', hj', hg'⟩ := l4 p' hp'
                  exact ⟨j', by simp [hj'], hg'⟩
          obtain ⟨p, hp1, hp2⟩ := onlyU i (by simp)
          refine ⟨p :: l, by simp [l1], List.nodup_cons.2 ⟨?_, l2⟩, ?_⟩
          · intro hpl
            obtain ⟨j', hj', hg'⟩ := l4 p hpl
            rw [hs.inj hg' hp1] at hj'
            exact (List.nodup_cons.1 hnd).1 hj'
          · intro p' hp'
            rcases List.mem_cons.1 hp' with rfl | hp'
            · exact ⟨⟨i, hp1⟩, hp2⟩
            · exact l3 p' hp'
      obtain ⟨l, l1, l2, l3⟩ := hpU
      have hnd : (l ++ live).Nodup := List.nodup_append.2 ⟨l2, hg.nodup, by
        rintro a ha b hb' rfl
        exact (l3 a ha).2 hb'⟩
      have hsub : ∀ p ∈ l ++ live, p ∈ (site q).mgr.partyIDtoP2PID.map Prod.snd := by
        intro p hp'
        have hm : Member peers p := by
          rcases List.mem_append.1 hp' with h5 | h5
          · exact (l3 p h5).1
          · exact hg.member p h5
        obtain ⟨i, hi'⟩ := hm
        rw [← hs.peerMap q hqm] at hi'
        exact List.mem_map.2 ⟨(i, p), Map.mem_of_get hi', rfl⟩
      have hle := (List.subperm_of_subset hnd hsub).length_le
      have hcard : (site q).mgr.partyIDtoP2PID.length = ids.length := by
        have h1 : (Map.keys (site q).mgr.partyIDtoP2PID).Perm (Map.keys (site q).mgr.partyIDMap) :=
          (List.perm_ext_iff_of_nodup hcom.wfp hcom.wf).2 hcom.same
        rw [← hs.idMap q hqm]
        simpa [Map.keys] using h1.length_eq
      rw [List.length_append, List.length_map, hcard, l1] at hle
      exact hle
    rw [hte]
    have := List.length_pos_of_mem hq
    omega
  -- who misses a round is found
  have found : ∀ i p, Map.get peers i = some p → p ≠ q → Misses site h live q asked last p → i ∈ U ∨ i ∈ B := by
    rintro i p hpi hne ⟨x, hx, hno, p', hp'l, hne', hm⟩
    simp only [rounds, List.mem_cons, List.not_mem_nil, or_false] at hx
    obtain ⟨j, hj⟩ := hg.member p' hp'l
    rcases hx with rfl | rfl
    · left
      refine hsil.all j (sentUni j p' hj hp'l hne' hm) i (by rw [hs.idMap q hqm]; exact keyOf i p hpi) ((notq i p hpi).1 hne) ?_
      intro hgot
      obtain ⟨p2, k1, k2, k3⟩ := gotMade i hgot
      rw [hpi] at k1; cases k1
      exact hno k3
    · right
      obtain ⟨-, b2, -⟩ := v2
      refine (b2 ⟨j, heard j p' hj hp'l hne' hm⟩ i).2 ⟨by rw [hids]; exact keyOf i p hpi, by rw [hlocal]; exact (notq i p hpi).1 hne, ?_⟩
      intro hh'
      obtain ⟨p2, k1, k2, k3⟩ := heardMade i hh'
      rw [hpi] at k1; cases k1
      exact hno k3
  obtain ⟨m', hm', hv⟩ := v3 (by
    obtain ⟨p, ⟨i, hpi⟩, hne, hms⟩ := hmiss
    rw [Evidence, hsmall]
    rcases found i p hpi hne hms with h5 | h5
    · exact Or.inr (Or.inl (List.ne_nil_of_mem h5))
    · exact Or.inr (Or.inr (List.ne_nil_of_mem h5)))
  refine ⟨m', hm', ?_, ?_⟩
  · intro k hk
    rcases (hv.blamed k).1 hk with ⟨nd, hnd, -⟩ | ⟨i, hiUB, hnm⟩
    · have : (atTimeout n q (last, b)).blame = (site q).mgr.blame := hblame
      rw [this, hnew.2.1] at hnd
      cases hnd
    · rw [hsmall] at hiUB
      rw [hids] at hnm
      obtain ⟨p, h5, h6⟩ := hiUB.elim (onlyU i) (onlyB i)
      exact ⟨i, p, h5, h6, hnm⟩
  · intro i p hpi hne hms k hk
    refine (hv.blamed k).2 (Or.inr ⟨i, ?_, by rw [hids]; exact hk⟩)
    rw [hsmall]
    exact found i p hpi hne hms


/-! ## examples -/

section checks

variable {S : P → Site K P} {h : List (NetEvent P)} {p q : P} {round : String} {bc : Bool}

/-- a check for `Made` -/
def madeB (site : P → Site K P) (h : List (NetEvent P)) (p q : P) (round : String) (bc : Bool) : Bool :=
  (outputsAt p h).any fun e => match e.2.wire with
    | some (_, r) => decide (e.2.type = round) && (r.isBroadcast == bc) &&
        decide (q ∈ Verif.Props.Outgoing.receivers (site p).out (Verif.Props.Outgoing.queueOf round r))
    | none => false

/-- a check for `MadeAll` -/
def madeAllB (site : P → Site K P) (h : List (NetEvent P)) (p q : P) (round : String) (bc : Bool) : Bool :=
  (outputsAt p h).any fun e => match e.2.wire with
    | some (_, r) => decide (e.2.type = round) && (r.isBroadcast == bc) &&
        decide (q ∈ Verif.Props.Outgoing.receivers (site p).out (Verif.Props.Outgoing.queueOf round r)) &&
        decide (((outputsAt p h).map Prod.snd).filterMap (Verif.Props.Outgoing.shareIn (Verif.Props.Outgoing.queueOf round r)) |>.length |> (· = (site p).out.msgNum))
    | none => false

theorem made_iff : Made S h p q round bc ↔ madeB S h p q round bc = true := by
  unfold Made madeB
  rw [List.any_eq_true]
  constructor
  · rintro ⟨e, he, b, r, h1, h2, h3, h4⟩
    refine ⟨e, he, ?_⟩
    rw [h1]
    simp [h2, h3, h4]
  · rintro ⟨e, he, h1⟩
    rcases hw : e.2.wire with _ | ⟨b, r⟩
    · rw [hw] at h1; cases h1
    · rw [hw] at h1
      simp only [Bool.and_eq_true, decide_eq_true_eq, beq_iff_eq] at h1
      exact ⟨e, he, b, r, hw, h1.1.1, h1.1.2, h1.2⟩

theorem madeAll_iff : MadeAll S h p q round bc ↔ madeAllB S h p q round bc = true := by
  unfold MadeAll madeAllB
  rw [List.any_eq_true]
  constructor
  · rintro ⟨e, he, b, r, h1, h2, h3, h4, h5⟩
    refine ⟨e, he, ?_⟩
    rw [h1]
    unfold Full at h5
    simp only [h2, h3, h4, h5, decide_true, beq_self_eq_true, Bool.and_self]
  · rintro ⟨e, he, h1⟩
    rcases hw : e.2.wire with _ | ⟨b, r⟩
    · rw [hw] at h1; cases h1
    · rw [hw] at h1
      simp only [Bool.and_eq_true, decide_eq_true_eq, beq_iff_eq] at h1
      exact ⟨e, he, b, r, hw, h1.1.1.1, h1.1.1.2, h1.1.2, h1.2⟩

end checks

/-- four members whose local parties accept everything -/
def four : Nat → Site Nat Nat := siteN 4 (fun _ _ => none)

/-- the members are honest -/
def all4 (p : Nat) : Bool := decide (10 ≤ p ∧ p < 14)

theorem all4_iff (p : Nat) : all4 p = true ↔ Member (peersN 4) p := by rw [memberN]; simp [all4]

/-- member `i` produces these messages -/
def puts (i : Nat) (l : List (String × Option Nat × Bytes)) : List (NetEvent Nat) := l.map fun x => .at_ (i + 10) (.output plainOut (outN i x))

/-- the message of round 1 of member `i` -/
def round1 (i : Nat) : List (String × Option Nat × Bytes) := [("KGRound1Message", none, [0, UInt8.ofNat i])]

/-- the messages of round 2 of member `i` to the members `to_` and to all -/
def round2 (i : Nat) (to_ : List Nat) : List (String × Option Nat × Bytes) :=
  to_.map (fun j => ("KGRound2Message1", some j, [1, UInt8.ofNat i, UInt8.ofNat j])) ++ [("KGRound2Message2", none, [2, UInt8.ofNat i])]

/-- the message of round 3 of member `i` -/
def round3 (i : Nat) : List (String × Option Nat × Bytes) := [("KGRound3Message", none, [3, UInt8.ofNat i])]

/-- `n` messages arrive, of those sent the first `k` excepted -/
def arrive (k n : Nat) : List (NetEvent Nat) := List.replicate n (.deliver k ⟨Shuffle.id _, Shuffle.id _, Shuffle.id _, []⟩)

/-- member 3 stops after round 1, the others go on to round 2 -/
def stops : List (NetEvent Nat) :=
  puts 0 (round1 0) ++ puts 1 (round1 1) ++ puts 2 (round1 2) ++ puts 3 (round1 3) ++ arrive 0 60 ++
  puts 0 (round2 0 [1, 2, 3]) ++ puts 1 (round2 1 [0, 2, 3]) ++ puts 2 (round2 2 [0, 1, 3]) ++ arrive 0 60

/-- all go on to round 2, and member 3 stops before its message to member 2 has arrived; members 0 and 1 have all they need and go on to round 3 -/
def cutOff : List (NetEvent Nat) :=
  puts 0 (round1 0) ++ puts 1 (round1 1) ++ puts 2 (round1 2) ++ puts 3 (round1 3) ++ arrive 0 60 ++
  puts 3 (round2 3 [2, 0, 1]) ++ puts 0 (round2 0 [1, 2, 3]) ++ puts 1 (round2 1 [0, 2, 3]) ++ puts 2 (round2 2 [0, 1, 3]) ++ arrive 1 80

/-- and then -/
def behind : List (NetEvent Nat) := cutOff ++ puts 0 (round3 0) ++ puts 1 (round3 1) ++ arrive 1 60

/-- what member `i` produces is proper -/
theorem proper4 (i q : Nat) (l : List (String × Option Nat × Bytes))
    (h1 : ∀ x ∈ l, ':' ∉ x.1.toList ∧ (GetMsgRound baseN.parse x.2.2).isSome)
    (h2 : ∀ x ∈ l, ∀ y ∈ l, GetMsgRound baseN.parse x.2.2 = GetMsgRound baseN.parse y.2.2 →
      x = y ∨ (x.2.1.isSome ∧ y.2.1.isSome ∧ x.2.1 ≠ y.2.1))
    (h3 : (l.map fun x => (x.1, x.2.1)).Nodup) : Proper baseN (four q).out i (l.map fun x => (plainOut, outN i x)) := by
  refine properN' 4 i q _ l h1 ?_ h3
  intro x hx y hy hr
  rcases h2 x hx y hy hr with h | ⟨h4, h5, h6⟩
  · exact Or.inl h
  · obtain ⟨a, ha⟩ := Option.isSome_iff_exists.1 h4
    obtain ⟨b, hb⟩ := Option.isSome_iff_exists.1 h5
    exact Or.inr ⟨a, b, ha, hb, fun hab => h6 (by rw [ha, hb, hab])⟩

/-- what the members produce in `stops` -/
def stopsOuts (i : Nat) : List (String × Option Nat × Bytes) :=
  match i with
  | 0 => round1 0 ++ round2 0 [1, 2, 3]
  | 1 => round1 1 ++ round2 1 [0, 2, 3]
  | 2 => round1 2 ++ round2 2 [0, 1, 3]
  | _ => round1 3

/-- what the members produce in `behind` -/
def behindOuts (i : Nat) : List (String × Option Nat × Bytes) :=
  match i with
  | 0 => round1 0 ++ round2 0 [1, 2, 3] ++ round3 0
  | 1 => round1 1 ++ round2 1 [0, 2, 3] ++ round3 1
  | 2 => round1 2 ++ round2 2 [0, 1, 3]
  | _ => round1 3 ++ round2 3 [2, 0, 1]

theorem stops_proper (i q : Nat) (hi : Map.get (peersN 4) i = some q) : Proper baseN (four q).out i (outputsAt q stops) := by
  obtain ⟨rfl, hi⟩ := peersN_get hi
  have hl : outputsAt (i + 10) stops = (stopsOuts i).map fun x => (plainOut, outN i x) := by
    obtain rfl | rfl | rfl | rfl : i = 0 ∨ i = 1 ∨ i = 2 ∨ i = 3 := by omega
    all_goals rfl
  rw [hl]
  obtain rfl | rfl | rfl | rfl : i = 0 ∨ i = 1 ∨ i = 2 ∨ i = 3 := by omega
  all_goals exact proper4 _ _ _ (by decide +kernel) (by decide +kernel) (by decide +kernel)

theorem behind_proper (i q : Nat) (hi : Map.get (peersN 4) i = some q) : Proper baseN (four q).out i (outputsAt q behind) := by
  obtain ⟨rfl, hi⟩ := peersN_get hi
  have hl : outputsAt (i + 10) behind = (behindOuts i).map fun x => (plainOut, outN i x) := by
    obtain rfl | rfl | rfl | rfl : i = 0 ∨ i = 1 ∨ i = 2 ∨ i = 3 := by omega
    all_goals rfl
  rw [hl]
  obtain rfl | rfl | rfl | rfl : i = 0 ∨ i = 1 ∨ i = 2 ∨ i = 3 := by omega
  all_goals exact proper4 _ _ _ (by decide +kernel) (by decide +kernel) (by decide +kernel)

theorem welcome4 (h : List (NetEvent Nat)) : Welcome (peersN 4) four h := by
  intro i p q _ _ _ e _ b r _ _ log
  rfl

theorem closed_of {h : List (NetEvent Nat)} (hc : (h.all fun e => match e with | .foreign .. => false | _ => true) = true) : Closed h := by
  rintro e he p q raw sch rfl
  have := List.all_eq_true.1 hc _ he
  cases this

theorem stops_closed : Closed stops := closed_of (by decide +kernel)
theorem behind_closed : Closed behind := closed_of (by decide +kernel)

/-- the members that keep going -/
def going : List Nat := [10, 11, 12]

theorem threshold4 : GetThreshold (idsN 4).length = .ok 2 := by decide +kernel

theorem going_of {n : Net Nat Nat} (h : (n.pool.all fun x => !(decide (x.1 ∈ going) && decide (x.2.1 ∈ going))) = true) :
    Going (peersN 4) (idsN 4).length n going where
  member p hp := by
    rw [memberN]
    simp [going] at hp
    omega
  nodup := by decide
  arrived x hx := by
    have := List.all_eq_true.1 h x hx
    intro ⟨h1, h2⟩
    simp [h1, h2] at this
  enough := ⟨2, threshold4, by decide⟩

theorem stops_going : Going (peersN 4) (idsN 4).length (netRun demoEnc four all4 stops) going := going_of (by decide +kernel)
theorem behind_going : Going (peersN 4) (idsN 4).length (netRun demoEnc four all4 behind) going := going_of (by decide +kernel)

/-- the hypotheses of `c122_stopped_partial` are met: member 3 stops after round 1, the others go on to round 2, where member 0 times out; it blames
member 3 (key 23) and no one else -/
example (sch : BlameSched Nat) : ∃ m', keygenTimeout baseN.codec sch 3
    (atTimeout (netRun demoEnc four all4 stops) 10 ("KGRound2Message2", true)) = .ok m' ∧ ∀ k, Blamed m' k ↔ k = 23 := by
  have hmiss : Misses four stops going 10 "KGRound2Message1" "KGRound2Message2" 13 :=
    ⟨("KGRound2Message1", false), by simp [rounds], by rw [made_iff]; decide +kernel, 11, by decide, by decide, by rw [madeAll_iff]; decide +kernel⟩
  obtain ⟨m', h1, h2, h3⟩ := c122_stopped_partial (settingN (by decide) _) all4_iff stops stops_closed stops_proper (welcome4 _) going stops_going 10
    (by decide) ⟨rfl, rfl, rfl⟩ false "KGRound2Message2" "KGRound2Message1" true rfl sch
    (by
      intro p hp hne x hx _
      rw [madeAll_iff]
      have : ∀ p ∈ going, p ≠ 10 → ∀ x ∈ rounds "KGRound2Message1" "KGRound2Message2", madeAllB four stops p 10 x.1 x.2 = true := by decide +kernel
      exact this p hp hne x hx)
    ⟨13, ⟨3, rfl⟩, by decide, hmiss⟩
  have named : Named baseN.codec (idsN 4) 3 23 := ⟨⟨3, [4], 3⟩, by decide +kernel, by decide +kernel⟩
  refine ⟨m', h1, fun k => ⟨fun hk => ?_, ?_⟩⟩
  · obtain ⟨i, p, hi, hp, pt, hpt, hk⟩ := h2 k hk
    obtain ⟨rfl, hlt⟩ := peersN_get hi
    simp [going] at hp
    have : i = 3 := by omega
    subst this
    obtain ⟨pt', hpt', hk'⟩ := named
    rw [hpt] at hpt'; cases hpt'
    rw [hk] at hk'
    cases hk'; rfl
  · rintro rfl
    exact h3 3 13 rfl (by decide) hmiss _ named

/-- C122 fails as stated: member 3 stops, and its message of round 2 for member 2 does not arrive; members 0 and 1 have what they need for round 3,
member 2 does not, although it has done all it could. When member 0 times out, whatever the order in which it looks at its maps, it blames member
2 (peer 12, key 22) together with member 3, although member 2 keeps going, is honest, and everything it sent has arrived. -/
theorem c122_blamed_behind : Setting demoEnc baseN (idsN 4) (peersN 4) four ∧ Closed behind ∧ Welcome (peersN 4) four behind ∧
    (∀ i q, Map.get (peersN 4) i = some q → Proper baseN (four q).out i (outputsAt q behind)) ∧
    Going (peersN 4) (idsN 4).length (netRun demoEnc four all4 behind) going ∧
    (∀ i ∈ [0, 1, 3], ∃ p, Map.get (peersN 4) i = some p ∧ Made four behind p 12 "KGRound1Message" true ∧
      Made four behind p 12 "KGRound2Message1" false ∧ Made four behind p 12 "KGRound2Message2" true) ∧
    (∀ en ∈ ((netRun demoEnc four all4 behind).nodes 12).ses.log, en.share.from_ = 3 → en.round.roundMsg ≠ "KGRound2Message1") ∧
    ∀ sch, ∃ m', keygenTimeout baseN.codec sch 3 (atTimeout (netRun demoEnc four all4 behind) 10 ("KGRound3Message", true)) = .ok m' ∧
      12 ∈ going ∧ Named baseN.codec (idsN 4) 2 22 ∧ Blamed m' 22 := by
  refine ⟨settingN (by decide) _, behind_closed, welcome4 _, behind_proper, behind_going, ?_, by decide +kernel, ?_⟩
  · have : ∀ i ∈ [0, 1, 3], madeB four behind (i + 10) 12 "KGRound1Message" true = true ∧ madeB four behind (i + 10) 12 "KGRound2Message1" false = true ∧
        madeB four behind (i + 10) 12 "KGRound2Message2" true = true := by decide +kernel
    intro i hi
    obtain ⟨h1, h2, h3⟩ := this i hi
    refine ⟨i + 10, ?_, made_iff.2 h1, made_iff.2 h2, made_iff.2 h3⟩
    simp at hi
    obtain rfl | rfl | rfl := hi <;> rfl
  · intro sch
    have named : Named baseN.codec (idsN 4) 2 22 := ⟨⟨2, [3], 2⟩, by decide +kernel, by decide +kernel⟩
    have hloop : LoopSes (four 10).env (four 10).mgr ((netRun demoEnc four all4 behind).nodes 10).hist
        { ((netRun demoEnc four all4 behind).nodes 10).ses with mgr := atTimeout (netRun demoEnc four all4 behind) 10 ("KGRound3Message", true) } := by
      have hs : Setting demoEnc baseN (idsN 4) (peersN 4) four := settingN (by decide) _
      obtain ⟨h1, h2, h3⟩ := derived hs all4_iff behind behind_closed behind_proper (welcome4 _)
      have hi := netInv_run hs (bulks_of behind h2 h3) all4 all4_iff behind h1 (fun q _ b hb => hb)
      have := LoopSes.adjust (some ("KGRound3Message", true)) ((netRun demoEnc four all4 behind).nodes 10).ses.mgr.blame
        (loopSes_run (four 10).env (four 10).mgr ((netRun demoEnc four all4 behind).nodes 10).hist)
      rw [← hi.ses 10 ⟨0, rfl⟩] at this
      exact this
    have hstored : ((netRun demoEnc four all4 behind).nodes 10).ses.mgr.storedMsg.all
        (fun e => !(decide (e.2.roundInfo = "KGRound3Message") && decide (e.2.sender = some 2))) = true ∧
        ((netRun demoEnc four all4 behind).nodes 10).ses.mgr.storedMsg.any
        (fun e => decide (e.2.roundInfo = "KGRound3Message") && decide (e.2.sender = some 1)) = true ∧
        Map.keys ((netRun demoEnc four all4 behind).nodes 10).ses.mgr.partyIDMap = [0, 1, 2, 3] ∧
        ((netRun demoEnc four all4 behind).nodes 10).ses.mgr.localPartyID = 0 ∧
        ((netRun demoEnc four all4 behind).nodes 10).ses.mgr.partyIDMap = idsN 4 := by decide +kernel
    generalize netRun demoEnc four all4 behind = N at hloop hstored ⊢
    obtain ⟨g1, g2, g3⟩ := loop_manager (committeeN (n := 4) (loc := 0) (by decide) (by decide)) rfl rfl hloop
    obtain ⟨U, B, v1, v2, v3⟩ := c92_keygen baseN.codec _ g1 g2 g3 sch "KGRound3Message" true rfl 3 (by norm_num)
    obtain ⟨k1, k2, k3, k4, k5⟩ := hstored
    have hB : 2 ∈ B := by
      obtain ⟨e, he, hee⟩ := List.any_eq_true.1 k2
      simp only [Bool.and_eq_true, decide_eq_true_eq] at hee
      refine (v2.2.1 ⟨1, e.1, e.2, Map.get_of_mem g2 he, hee.1, hee.2⟩ 2).2 ⟨?_, ?_, ?_⟩
      · show 2 ∈ Map.keys (N.nodes 10).ses.mgr.partyIDMap
        rw [k3]; decide
      · show 2 ≠ (N.nodes 10).ses.mgr.localPartyID
        rw [k4]; decide
      · rintro ⟨key, w, h1, h2, h3⟩
        have := List.all_eq_true.1 k1 (key, w) (Map.mem_of_get h1)
        simp [h2, h3] at this
    obtain ⟨m', hm', hv⟩ := v3 (Or.inr (Or.inr (List.ne_nil_of_mem hB)))
    refine ⟨m', hm', by decide, named, (hv.blamed 22).2 (Or.inr ⟨2, Or.inr hB, ?_⟩)⟩
    show Named baseN.codec (N.nodes 10).ses.mgr.partyIDMap 2 22
    rw [k5]; exact named

end Verif.Props.Stopped
