import Verif.Props.C102_C106
import Verif.Props.C72_C73
import Verif.Spec.DemoSessN

/-!
# C120: who can be blamed in a session in which some nodes are not honest
-/
set_option linter.unusedSectionVars false
namespace Verif.Props.Framed
open Verif.Go Verif.Conversion Verif.Messages Verif.Blame Verif.TssCommon Verif.Spec Verif.Threshold Verif.SessNet
open scoped List

variable {K P : Type} [DecidableEq K] [DecidableEq P]

/-! ## why a session blames a member -/

/-- a signed broadcast message of member `i` was received, and `i`'s peer confirmed it itself, or is the local node, or two peers reported other
digests -/
def HashCause (env : Env K P) (m : Manager K P) (h : List (Event P)) (i : Nat) : Prop :=
  ∃ w op, w.sender = some i ∧ (∃ e ∈ h, Carries env e w) ∧ Signed env m.partyIDMap w ∧ w.isBroadcast = true ∧
    Map.get m.partyIDtoP2PID i = some op ∧
    ((∃ e ∈ h, ∃ d, Confirms env e op (cacheKey i w.roundInfo) d) ∨ op = env.localPeer ∨
     ∃ p q dp dq, p ≠ q ∧ Voted env m.partyIDMap h p (cacheKey i w.roundInfo) dp ∧
       Voted env m.partyIDMap h q (cacheKey i w.roundInfo) dq ∧ dp ≠ env.hash w.message ∧ dq ≠ env.hash w.message)

/-- the local parties refused a share and named `i` as a culprit -/
def BrokenCause (env : Env K P) (log : List Entry) (i : Nat) : Prop :=
  ∃ pre en post cs, log = pre ++ en :: post ∧ env.upd pre en.share = some cs ∧ i ∈ cs.map Culprit.id

theorem HashCause.mono {env : Env K P} {m : Manager K P} {h : List (Event P)} {i : Nat} (e : Event P) (hx : HashCause env m h i) :
    HashCause env m (h ++ [e]) i := by
  obtain ⟨w, op, h1, ⟨e', he', h2⟩, h3, h4, h5, h6⟩ := hx
  refine ⟨w, op, h1, ⟨e', by simp [he'], h2⟩, h3, h4, h5, ?_⟩
  rcases h6 with ⟨e', he', d, hd⟩ | h6 | ⟨p, q, dp, dq, a, b, c, d⟩
  · exact Or.inl ⟨e', by simp [he'], d, hd⟩
  · exact Or.inr (Or.inl h6)
  · exact Or.inr (Or.inr ⟨p, q, dp, dq, a, b.mono e, c.mono e, d⟩)

theorem BrokenCause.mono {env : Env K P} {log : List Entry} {i : Nat} (en : Entry) (hx : BrokenCause env log i) :
    BrokenCause env (log ++ [en]) i := by
  obtain ⟨pre, e, post, cs, rfl, h⟩ := hx
  exact ⟨pre, e, post ++ [en], cs, by simp, h⟩

structure Causes (env : Env K P) (m : Manager K P) (h : List (Event P)) (s : St K P) : Prop where
  nodes : ∀ n ∈ s.mgr.blame.nodes, ∃ i, Named env.codec m.partyIDMap i n.pubkey ∧ (HashCause env m h i ∨ BrokenCause env s.log i)
  jobs : ∀ j ∈ s.jobs, ∀ cs, j.outcome = some (some cs) → ∀ c ∈ cs, BrokenCause env s.log c.id

theorem causes_stepJob {env : Env K P} {m : Manager K P} {h : List (Event P)} {s : St K P} (id : Nat)
    (hg : Good env m h s) (hI : Causes env m h s) : Causes env m h (stepJob env id s) := by
  rcases hf : s.jobs.find? (fun j => j.id = id) with _ | j
  · rw [stepJob_none hf]; exact hI
  · have hjm : j ∈ s.jobs := List.mem_of_find?_eq_some hf
    rcases ho : j.outcome with _ | _ | cs
    · rw [stepJob_wait hf ho]
      refine ⟨?_, ?_⟩
      · intro n hn
        obtain ⟨i, h1, h2 | h2⟩ := hI.nodes n hn
        · exact ⟨i, h1, Or.inl h2⟩
        · exact ⟨i, h1, Or.inr (h2.mono _)⟩
      · intro k hk cs hcs c hc
        obtain ⟨k', hk', rfl⟩ := List.mem_map.1 hk
        dsimp only at hcs ⊢
        split at hcs
        · simp only [Option.some.injEq] at hcs
          exact ⟨s.log, ⟨j.share, j.round, j.carrier, _⟩, [], cs, rfl, hcs, List.mem_map.2 ⟨c, hc, rfl⟩⟩
        · exact (hI.jobs k' hk' cs hcs c hc).mono _
    · rw [stepJob_ok hf ho]
      refine ⟨?_, ?_⟩
      · dsimp only
        rw [(updateAcceptShare_maps _ _ _).2.2.2.1]
        exact hI.nodes
      · intro k hk
        exact hI.jobs k (List.mem_filter.1 hk).1
    · rw [stepJob_bad hf ho]
      have hcul := hI.jobs j hjm cs ho
      unfold processInvalidMsgBlame
      dsimp only
      refine ⟨?_, ?_⟩
      · split
        · rename_i ks hks
          intro n hn
          simp only [Blame.setBlame, List.mem_append, List.mem_map] at hn
          rcases hn with hn | ⟨⟨pk, o⟩, hz, rfl⟩
          · exact hI.nodes n hn
          · rw [accPubKeys_ok_iff, hg.ids] at hks
            have key : ∀ (cs : List Culprit) (ks : List K), Names env.codec m.partyIDMap (cs.map Culprit.id) ks → pk ∈ ks →
                ∃ c ∈ cs, Named env.codec m.partyIDMap c.id pk := by
              intro cs
              induction cs with
              | nil => intro ks hn hz; cases hn; cases hz
              | cons c cs ih =>
                intro ks hn hz
                cases hn with
                | cons h1 h2 =>
                  rcases List.mem_cons.1 hz with rfl | hz
                  · exact ⟨c, by simp, h1⟩
                  · obtain ⟨c', hc', h⟩ := ih _ h2 hz
                    exact ⟨c', by simp [hc'], h⟩
            obtain ⟨c, hc, hnm⟩ := key cs ks hks (List.of_mem_zip hz).1
            refine ⟨c.id, ?_, Or.inr (hcul c hc)⟩
            cases o <;> exact hnm
        · intro n hn
          simp only [Blame.setBlame, List.append_nil] at hn
          exact hI.nodes n hn
      · split <;> exact fun k hk => hI.jobs k (List.mem_filter.1 hk).1

theorem causes_run (env : Env K P) (m : Manager K P) (hc : Committee env.codec m) (hb : m.blame.nodes = []) (h : List (Event P)) :
    Causes env m h (run env (newTssCommon m) h) := by
  refine run_invariant_good env m (fun h s => Causes env m h s) ⟨?_, ?_⟩ ?_ ?_ h
  · intro n hn; simp [newTssCommon, hb] at hn
  · intro j hj; simp [newTssCommon] at hj
  · intro h e s hI
    refine ⟨fun n hn => ?_, hI.jobs⟩
    obtain ⟨i, h1, h2 | h2⟩ := hI.nodes n hn
    · exact ⟨i, h1, Or.inl (h2.mono e)⟩
    · exact ⟨i, h1, Or.inr h2⟩
  · intro h e s s' hg hI hmic
    cases hmic with
    | work id => exact causes_stepJob id hg hI
    | queue w bulk mm r i p round hs hb hm hp hr hi hip hround hdup hcc =>
      refine ⟨hI.nodes, fun j hj cs ho => ?_⟩
      rcases List.mem_append.1 hj with hj | hj
      · exact hI.jobs j hj cs ho
      · rw [List.mem_singleton.1 hj] at ho; cases ho
    | blameOwner key item w i peer t hk hm hi hp ht hn hv =>
      obtain ⟨op, pk, hop, hpk, hbl⟩ := Verif.Props.Session.hashBlame_cases hc hg hk hm hi
      have hgi := hg.cache key item hk
      obtain ⟨h1, h2, h3, ⟨i', hi', hkey⟩, hhash⟩ := hgi.msg w hm
      rw [hi] at hi'; cases hi'
      rw [hg.peers, hop] at hp; cases hp
      refine ⟨?_, hI.jobs⟩
      intro n hn
      dsimp only at hn
      rw [hbl] at hn
      simp only [Blame.setBlame, List.mem_append, List.mem_singleton] at hn
      rcases hn with hn | rfl
      · exact hI.nodes n hn
      · refine ⟨i, hpk, Or.inl ⟨w, peer, hi, h1, h2, h3, hop, ?_⟩⟩
        obtain ⟨d, hd⟩ := Option.isSome_iff_exists.1 ((Map.get_isSome_iff _ _).2 hv)
        rcases hgi.votes peer d hd with ⟨e', he', hc'⟩ | ⟨hl, _⟩
        · exact Or.inl ⟨e', he', d, by rw [← hkey]; exact hc'⟩
        · exact Or.inr (Or.inl hl)
    | blameSplit key item w i t hk hm hi ht hn =>
      obtain ⟨op, pk, hop, hpk, hbl⟩ := Verif.Props.Session.hashBlame_cases hc hg hk hm hi
      have hgi := hg.cache key item hk
      obtain ⟨h1, h2, h3, ⟨i', hi', hkey⟩, hhash⟩ := hgi.msg w hm
      rw [hi] at hi'; cases hi'
      refine ⟨?_, hI.jobs⟩
      intro n hn'
      dsimp only at hn'
      rw [hbl] at hn'
      simp only [Blame.setBlame, List.mem_append, List.mem_singleton] at hn'
      rcases hn' with hn' | rfl
      · exact hI.nodes n hn'
      · refine ⟨i, hpk, Or.inl ⟨w, op, hi, h1, h2, h3, hop, Or.inr (Or.inr ?_)⟩⟩
        rcases hn with hn | ⟨hn1, hn2⟩
        · rw [hg.peers, hop] at hn; cases hn
        · obtain ⟨p, q, dp, dq, hpq, hpm, hqm, hdp, hdq⟩ :=
            Verif.Props.Session.two_disagree item.confirmed hgi.wf (env.hash w.message) t hn1 (hn2 _)
          refine ⟨p, q, dp, dq, hpq, ?_, ?_, hdp, hdq⟩
          · rw [← hkey]; exact hgi.votes p dp (Map.get_of_mem hgi.wf hpm)
          · rw [← hkey]; exact hgi.votes q dq (Map.get_of_mem hgi.wf hqm)
    | unicast =>
      refine ⟨?_, hI.jobs⟩
      dsimp only; rw [(setLastUnicastPeer_maps _ _ _).2.2.2.1]; exact hI.nodes
    | _ => exact ⟨hI.nodes, hI.jobs⟩

/-! ## the network -/

variable {enc : Encoders P} {base : TssCommon.Env K P} {ids : Map Nat Party} {peers : Map Nat P} {site : P → Site K P} {honest : P → Bool}

/-- Specification: messages of honest members reach honest nodes as they were sent: a message received by `q` that is signed by an honest member `o`
is one which `o` sent to `q` in this session, with the same payload, the same routing and for the same round -/
def AsSent (enc : Encoders P) (site : P → Site K P) (honest : P → Bool) (n : Net K P) : Prop :=
  ∀ q, honest q = true → ∀ e ∈ (n.nodes q).hist, ∀ w i o, Carries (site q).env e w → Signed (site q).env (site q).mgr.partyIDMap w →
    w.sender = some i → Map.get (site q).mgr.partyIDtoP2PID i = some o → honest o = true →
    q ≠ o ∧ ∃ b ∈ (n.nodes o).out.sent, q ∈ b.peers ∧ w.message = enc.bulk b.shares ∧ w.routing = b.routing ∧ w.roundInfo = b.roundInfo

/-- Specification: members that are not honest do not send shares in the name of honest ones -/
def OwnName (site : P → Site K P) (honest : P → Bool) (n : Net K P) : Prop :=
  ∀ q, honest q = true → ∀ e ∈ (n.nodes q).hist, ∀ w j p, Carries (site q).env e w → w.sender = some j →
    Map.get (site q).mgr.partyIDtoP2PID j = some p → honest p = false →
    ∀ bulk, (site q).env.decBulk w.message = some bulk → ∀ x ∈ bulk, ∀ r i o, x.routing = some r → r.sender = some i →
      Map.get (site q).mgr.partyIDtoP2PID i = some o → honest o = false

/-- Specification: of the nodes that are not honest at most one reports digests to a given honest node -/
def OneLiar (site : P → Site K P) (honest : P → Bool) (n : Net K P) : Prop :=
  ∀ q, honest q = true → ∀ p p' key d d', honest p = false → honest p' = false →
    (∃ e ∈ (n.nodes q).hist, Confirms (site q).env e p key d) → (∃ e ∈ (n.nodes q).hist, Confirms (site q).env e p' key d') → p = p'

/-- Specification: the share `sh` was sent by `o` to `q` -/
def SentTo (n : Net K P) (o q : P) (sh : Share) : Prop :=
  ∃ b ∈ (n.nodes o).out.sent, q ∈ b.peers ∧ q ≠ o ∧ ∃ x ∈ b.shares, ∃ r, x.ident = sh.ident ∧ x.wired = sh.bytes ∧ x.routing = some r ∧
    r.sender = some sh.from_ ∧ r.isBroadcast = sh.isBroadcast

/-- Specification: the local parties (tss-lib) name an honest member as a culprit only when a share was handed to them in its name which it did not
send to this node -/
def Fair (site : P → Site K P) (honest : P → Bool) (n : Net K P) : Prop :=
  ∀ q, honest q = true → ∀ pre en post cs, (n.nodes q).ses.log = pre ++ en :: post → (site q).env.upd pre en.share = some cs → ∀ c ∈ cs, ∀ o,
    Map.get (site q).mgr.partyIDtoP2PID c.id = some o → honest o = true →
    ∃ en' ∈ pre ++ [en], en'.share.from_ = c.id ∧ ¬ SentTo n o q en'.share

/-- what an honest node confirms, it has received -/
theorem confirm_origin (hs : Setting enc base ids peers site) (hm : ∀ p, honest p = true → Member peers p) (h : List (NetEvent P))
    {q p : P} (hq : honest q = true) (hp : honest p = true) {e : Event P} (he : e ∈ ((netRun enc site honest h).nodes q).hist) {key d : String}
    (hc : Confirms (site q).env e p key d) :
    ∃ e' ∈ ((netRun enc site honest h).nodes p).hist, ∃ w i, Carries (site p).env e' w ∧ Signed (site p).env (site p).mgr.partyIDMap w ∧
      w.sender = some i ∧ w.isBroadcast = true ∧ key = cacheKey i w.roundInfo ∧ d = (site p).env.hash w.message := by
  obtain ⟨raw, sch, t, pl, rfl, hd, ht, b, hb1, hb2, hb3⟩ := hc
  have hl : ∀ q, honest q = true → (site q).env.localPeer = q := fun q hq => hs.loc (hm q hq)
  have hor := origins_run (enc := enc) (site := site) (honest := honest) hl h
  have hdec := hs.dec (hm q hq)
  rcases hor.hist q hq raw p sch he with ⟨-, h2⟩ | ⟨h1, -⟩
  · have nope : ∀ t' pl', raw = enc.wrap t' pl' → t' = t ∧ pl' = pl := by
      rintro t' pl' rfl
      rw [hdec.wrap] at hd
      cases hd; exact ⟨rfl, rfl⟩
    rcases h2 with ⟨b', hb', hx⟩ | ⟨y, hy, hx⟩ | ⟨-, hx⟩
    · obtain ⟨-, -, -, hx⟩ := mem_toPeers hx
      obtain ⟨k, l, rfl⟩ := netRun_made (enc := enc) site honest h p b' hb'
      have hty := (nope _ _ hx).1
      rw [show (OutBatch.sendBulkMsg (site p).out k (site p).type l).msgType = (site p).type from rfl] at hty
      rcases hs.type p (hm p hp) with h3 | h3 <;> (rw [h3] at hty; subst hty; rcases ht with ht | ht <;> exact absurd ht (by decide))
    · obtain ⟨-, -, -, hx⟩ := mem_toPeers hx
      have hy' := hor.ses p hp ▸ hy
      rcases Verif.Props.Sent.c72_sent _ _ (hs.fresh p (hm p hp)).2 _ y hy' with hc | ⟨d', hr⟩ | ha
      · obtain ⟨e', he', t', w, i, owner, ⟨raw', pe, sch', pl', k1, k2, k3, k4⟩, hsg, hi, hbc, ho, hpl, hpe⟩ := hc
        rw [hpl] at hx
        obtain ⟨-, rfl⟩ := nope _ _ hx
        rw [hdec.confirm] at hb1
        cases hb1
        exact ⟨e', he', w, i, ⟨raw', pe, sch', t', pl', k1, k2, Or.inl ⟨k3, k4⟩⟩, hsg, hi, hbc, hb2.symm, hb3.symm⟩
      · obtain ⟨key', t', th, hpl, -⟩ := hr
        rw [hpl] at hx
        obtain ⟨h3, -⟩ := nope _ _ hx
        subst h3
        rcases ht with ht | ht <;> exact absurd ht (by decide)
      · obtain ⟨e', he', peer, c, w, i, -, hpl, -⟩ := ha
        rw [hpl] at hx
        obtain ⟨h3, -⟩ := nope _ _ hx
        subst h3
        rcases ht with ht | ht <;> exact absurd ht (by decide)
    · obtain ⟨-, -, -, hx⟩ := mem_toPeers hx
      obtain ⟨h3, -⟩ := nope _ _ hx
      subst h3
      rcases ht with ht | ht <;> exact absurd ht (by decide)
  · rw [hp] at h1; cases h1

/-- C120, the part that holds. In a network with any number of nodes that are not honest, every member an honest node blames while it processes
messages is one that is not honest, provided that messages of honest members reach honest nodes only as they were sent, that nobody sends shares
in the name of an honest member, that at most one node that is not honest reports digests to a given node, and that the local parties report
culprits correctly.

Missing: each of these provisos can be broken without forging a signature, see `c120_returned`, `c120_relabelled`, `c120_forwarded`,
`c120_impersonated` and `c120_two_liars`. -/
theorem c120_not_framed_partial (hs : Setting enc base ids peers site) (hm : ∀ p, honest p = true → Member peers p) (h : List (NetEvent P))
    (hp : ∀ i q, Map.get peers i = some q → honest q = true → Proper base (site q).out i (outputsAt q h))
    (hb : ∀ q, honest q = true → (site q).mgr.blame.nodes = [])
    (has : AsSent enc site honest (netRun enc site honest h)) (hon : OwnName site honest (netRun enc site honest h))
    (h1 : OneLiar site honest (netRun enc site honest h)) (hf : Fair site honest (netRun enc site honest h))
    (q : P) (hq : honest q = true) :
    ∀ n ∈ ((netRun enc site honest h).nodes q).ses.mgr.blame.nodes, ∃ i o, Named base.codec ids i n.pubkey ∧ Map.get peers i = some o ∧
      honest o = false := by
  intro n hn
  have hl : ∀ q, honest q = true → (site q).env.localPeer = q := fun q hq => hs.loc (hm q hq)
  have hor := origins_run (enc := enc) (site := site) (honest := honest) hl h
  have hgood : ∀ i o, Map.get peers i = some o → honest o = true → GoodBulks base i ((netRun enc site honest h).nodes o).out.sent := by
    intro i o hi ho
    obtain ⟨⟨l, hsub, hout⟩, -⟩ := netRun_out (enc := enc) site honest o ho h
    rw [hout]
    exact (goodBulks_of (site o).type (hs.batches o ⟨i, hi⟩).1 (hs.batches o ⟨i, hi⟩).2 ((hp i o hi ho).sub hsub)).1
  have hqm := hm q hq
  have henv : ∀ p, honest p = true → (site p).env.hash = base.hash ∧ (site p).env.codec = base.codec := fun p hp => by
    rw [hs.env p (hm p hp)]; exact ⟨rfl, rfl⟩
  have hc0 : Committee (site q).env.codec (site q).mgr := by rw [(henv q hq).2]; exact hs.committee q hqm
  have hca := causes_run (site q).env (site q).mgr hc0 (hb q hq) ((netRun enc site honest h).nodes q).hist
  rw [← hor.ses q hq] at hca
  obtain ⟨i, hnm, hcause⟩ := hca.nodes n hn
  rw [hs.idMap q hqm, (henv q hq).2] at hnm
  obtain ⟨pt, hpt, hpk⟩ := hnm
  have hik : i ∈ Map.keys (site q).mgr.partyIDtoP2PID := by
    rw [hc0.same, hs.idMap q hqm]
    exact (Map.get_isSome_iff _ _).1 (by rw [hpt]; rfl)
  obtain ⟨o, ho⟩ := Option.isSome_iff_exists.1 ((Map.get_isSome_iff _ _).2 hik)
  have ho' : Map.get peers i = some o := by rw [← hs.peerMap q hqm]; exact ho
  refine ⟨i, o, ⟨pt, hpt, hpk⟩, ho', ?_⟩
  by_contra hne
  have hoh : honest o = true := by simpa using hne
  have hgb := hgood i o ho' hoh
  -- two broadcast messages of `o` for the same round are the same
  have same : ∀ p p' e e' w w', honest p = true → honest p' = true → e ∈ ((netRun enc site honest h).nodes p).hist →
      e' ∈ ((netRun enc site honest h).nodes p').hist → Carries (site p).env e w → Carries (site p').env e' w' →
      Signed (site p).env (site p).mgr.partyIDMap w → Signed (site p').env (site p').mgr.partyIDMap w' → w.sender = some i → w'.sender = some i →
      w.isBroadcast = true → w'.isBroadcast = true → w.roundInfo = w'.roundInfo → w.message = w'.message := by
    intro p p' e e' w w' hp1 hp2 he he' c1 c2 s1 s2 i1 i2 b1 b2 hri
    obtain ⟨-, b, hbm, -, m1, m2, m3⟩ := has p hp1 e he w i o c1 s1 i1 (by rw [hs.peerMap p (hm p hp1)]; exact ho') hoh
    obtain ⟨-, b', hbm', -, m1', m2', m3'⟩ := has p' hp2 e' he' w' i o c2 s2 i2 (by rw [hs.peerMap p' (hm p' hp2)]; exact ho') hoh
    have isb : ∀ (w : WireMessage) (b : OutBatch.Bulk P), w.routing = b.routing → w.isBroadcast = true →
        ∃ r, b.routing = some r ∧ r.isBroadcast = true := by
      intro w b hr hbc
      unfold WireMessage.isBroadcast at hbc
      rw [hr] at hbc
      rcases hr' : b.routing with _ | r
      · rw [hr'] at hbc; cases hbc
      · rw [hr'] at hbc; exact ⟨r, rfl, hbc⟩
    have := hgb.once b hbm b' hbm' (isb w b m2 b1) (isb w' b' m2' b2) (by rw [← m3, ← m3', hri])
    rw [m1, m1', this]
  rcases hcause with ⟨w, op, hi, ⟨e, he, hcar⟩, hsg, hbc, hop, hwhy⟩ | ⟨pre, en, post, cs, hlog, hupd, hcul⟩
  · rw [ho] at hop
    cases hop
    have hqo := (has q hq e he w i o hcar hsg hi ho hoh).1
    rcases hwhy with ⟨e', he', d, hcf⟩ | hloc | ⟨p, p', dp, dp', hpp, hv, hv', hd, hd'⟩
    · obtain ⟨e2, he2, w2, i2, c2, s2, hi2, -, hkey, -⟩ := confirm_origin hs hm h hq hoh he' hcf
      obtain ⟨rfl, -⟩ := cacheKey_inj hkey
      exact (has o hoh e2 he2 w2 i o c2 s2 hi2 (by rw [hs.peerMap o ⟨i, ho'⟩]; exact ho') hoh).1 rfl
    · rw [hl q hq] at hloc
      exact hqo hloc.symm
    · -- an honest voter reports the digest of what `o` sent
      have honestVote : ∀ p dp, Voted (site q).env (site q).mgr.partyIDMap ((netRun enc site honest h).nodes q).hist p (cacheKey i w.roundInfo) dp →
          dp ≠ (site q).env.hash w.message →
          honest p = false ∧ ∃ e ∈ ((netRun enc site honest h).nodes q).hist, Confirms (site q).env e p (cacheKey i w.roundInfo) dp := by
        intro p dp hv hd
        rcases hv with ⟨e2, he2, hcf⟩ | ⟨-, e2, he2, w2, i2, c2, s2, hi2, hb2, hkey, hdp⟩
        · refine ⟨?_, e2, he2, hcf⟩
          by_contra hph
          have hph' : honest p = true := by simpa using hph
          obtain ⟨e3, he3, w3, i3, c3, s3, hi3, hb3, hkey, hdp⟩ := confirm_origin hs hm h hq hph' he2 hcf
          obtain ⟨rfl, hri⟩ := cacheKey_inj hkey
          have := same q p e e3 w w3 hq hph' he he3 hcar c3 hsg s3 hi hi3 hbc hb3 hri
          apply hd
          rw [hdp, (henv p hph').1, (henv q hq).1, this]
        · obtain ⟨rfl, hri⟩ := cacheKey_inj hkey
          have := same q q e e2 w w2 hq hq he he2 hcar c2 hsg s2 hi hi2 hbc hb2 hri
          exact absurd (by rw [hdp, this]) hd
      obtain ⟨n1, c1⟩ := honestVote p dp hv hd
      obtain ⟨n2, c2⟩ := honestVote p' dp' hv' hd'
      exact hpp (h1 q hq p p' _ dp dp' n1 n2 c1 c2)
  · obtain ⟨c, hc, rfl⟩ := List.mem_map.1 hcul
    obtain ⟨en', hen', hfrom, hnot⟩ := hf q hq pre en post cs hlog hupd c hc o ho hoh
    have hen : en' ∈ ((netRun enc site honest h).nodes q).ses.log := by
      rw [hlog]
      rcases List.mem_append.1 hen' with hx | hx
      · exact List.mem_append_left _ hx
      · rw [List.mem_singleton.1 hx]; simp
    rw [hor.ses q hq] at hen
    obtain ⟨e, he, hcar, hsg, hcn⟩ := Verif.Props.Session.c25_applied_signed _ _ _ en' hen
    obtain ⟨bulk, x, r, ri, k1, k2, k3, -, k5, k6, k7, k8, -⟩ := hcn
    obtain ⟨j, pj, hj, hpj, hver⟩ := id hsg
    have hjk : j ∈ Map.keys (site q).mgr.partyIDtoP2PID := by
      rw [hc0.same]
      exact (Map.get_isSome_iff _ _).1 (by rw [hpj]; rfl)
    obtain ⟨oj, hoj⟩ := Option.isSome_iff_exists.1 ((Map.get_isSome_iff _ _).2 hjk)
    by_cases hjh : honest oj = true
    · obtain ⟨hqj, b, hbm, hqb, m1, m2, m3⟩ := has q hq e he _ j oj hcar hsg hj hoj hjh
      rw [m1, (hs.dec hqm).bulk] at k1
      cases k1
      have hoj' : Map.get peers j = some oj := by rw [← hs.peerMap q hqm]; exact hoj
      obtain ⟨-, r', ri', g1, g2, -⟩ := (hgood j oj hoj' hjh).shares b hbm x k2
      rw [k6] at g1
      cases g1
      rw [k7] at g2
      cases g2
      rw [hfrom] at hoj'
      rw [ho'] at hoj'
      cases hoj'
      exact hnot ⟨b, hbm, hqb, hqj, x, k2, r, k3, k5, k6, k7, k8⟩
    · have := hon q hq e he _ j oj hcar hj hoj (by simpa using hjh) bulk k1 x k2 r en'.share.from_ o k6 k7 (by rw [hfrom]; exact ho)
      rw [hoh] at this
      cases this

/-! ## examples and counterexamples -/

open Verif.Props.SessionNet (Unforged carried carried_of)

/-- the first `k` members are honest, nobody else is -/
def first (k p : Nat) : Bool := decide (10 ≤ p) && decide (p < k + 10)

theorem first_member {n k : Nat} (h : k ≤ n) (p : Nat) (hp : first k p = true) : Member (peersN n) p := by
  rw [memberN]
  simp only [first, Bool.and_eq_true, decide_eq_true_eq] at hp
  omega

theorem first_mem {k p : Nat} (h : first k p = true) : p ∈ (List.range k).map (· + 10) := by
  simp only [first, Bool.and_eq_true, decide_eq_true_eq] at h
  exact List.mem_map.2 ⟨p - 10, List.mem_range.2 (by omega), by omega⟩

section checks

variable (n k : Nat) (upd : List Entry → Share → Option (List Culprit))

/-- a check that implies `Unforged` -/
def checkUnforged (net : Net Nat Nat) : Bool :=
  ((List.range k).map (· + 10)).all fun q => (net.nodes q).hist.all fun e => match carried (siteN n upd q).env e with
    | none => true
    | some w => match w.sender.bind (Map.get (peersN n)) with
      | none => true
      | some o => !first k o || decide (w.message ∈ (net.nodes o).signed)

theorem unforgedN {net : Net Nat Nat} (h : checkUnforged n k upd net = true) : Unforged (siteN n upd) (first k) net := by
  intro q hq e he w i o hc _ hs ho hh
  have h1 := List.all_eq_true.1 (List.all_eq_true.1 h q (first_mem hq)) e he
  rw [carried_of hc] at h1
  have h2 : Map.get (peersN n) i = some o := ho
  simp only [hs, Option.bind_some, h2, hh, Bool.not_true, Bool.false_or, decide_eq_true_eq] at h1
  exact h1

/-- a check that implies `AsSent` -/
def checkAsSent (net : Net Nat Nat) : Bool :=
  ((List.range k).map (· + 10)).all fun q => (net.nodes q).hist.all fun e => match carried (siteN n upd q).env e with
    | none => true
    | some w => match w.sender.bind (Map.get (peersN n)) with
      | none => true
      | some o => !first k o || (decide (q ≠ o) && (net.nodes o).out.sent.any fun b => decide (q ∈ b.peers) &&
          decide (w.message = demoEnc.bulk b.shares) && decide (w.routing = b.routing) && decide (w.roundInfo = b.roundInfo))

theorem asSentN {net : Net Nat Nat} (h : checkAsSent n k upd net = true) : AsSent demoEnc (siteN n upd) (first k) net := by
  intro q hq e he w i o hc _ hs ho hh
  have h1 := List.all_eq_true.1 (List.all_eq_true.1 h q (first_mem hq)) e he
  rw [carried_of hc] at h1
  have h2 : Map.get (peersN n) i = some o := ho
  simp only [hs, Option.bind_some, h2, hh, Bool.not_true, Bool.false_or, Bool.and_eq_true, decide_eq_true_eq, List.any_eq_true] at h1
  obtain ⟨h3, b, hb, ⟨⟨h4, h5⟩, h6⟩, h7⟩ := h1
  exact ⟨h3, b, hb, h4, h5, h6, h7⟩

/-- a check that implies `OwnName` -/
def checkOwnName (net : Net Nat Nat) : Bool :=
  ((List.range k).map (· + 10)).all fun q => (net.nodes q).hist.all fun e => match carried (siteN n upd q).env e with
    | none => true
    | some w => match w.sender.bind (Map.get (peersN n)) with
      | none => true
      | some o => first k o || match (siteN n upd q).env.decBulk w.message with
        | none => true
        | some bulk => bulk.all fun x => match (x.routing.bind Routing.sender).bind (Map.get (peersN n)) with
          | none => true
          | some p => !first k p

theorem ownNameN {net : Net Nat Nat} (h : checkOwnName n k upd net = true) : OwnName (siteN n upd) (first k) net := by
  intro q hq e he w j p hc hj hp hh bulk hb x hx r i o hr hi ho
  have h1 := List.all_eq_true.1 (List.all_eq_true.1 h q (first_mem hq)) e he
  rw [carried_of hc] at h1
  have h2 : Map.get (peersN n) j = some p := hp
  have h3 : Map.get (peersN n) i = some o := ho
  simp only [hj, Option.bind_some, h2, hh, Bool.false_or, hb] at h1
  have h4 := List.all_eq_true.1 h1 x hx
  simp only [hr, Option.bind_some, hi, h3, Bool.not_eq_true'] at h4
  exact h4

/-- whether the event is a confirmation by somebody who is not honest, and by whom -/
def liar (env : TssCommon.Env Nat Nat) : Event Nat → Option Nat
  | .msg raw p _ => match env.decWrapped raw with
    | some (t, _) => if (t = TSSKeyGenVerMsg ∨ t = TSSKeySignVerMsg) ∧ first k p = false then some p else none
    | none => none
  | .work _ => none

/-- a check that implies `OneLiar` -/
def checkOneLiar (net : Net Nat Nat) : Bool :=
  ((List.range k).map (· + 10)).all fun q => (net.nodes q).hist.all fun e => (net.nodes q).hist.all fun e' =>
    match liar k (siteN n upd q).env e, liar k (siteN n upd q).env e' with
    | some p, some p' => decide (p = p')
    | _, _ => true

theorem liar_of {env : TssCommon.Env Nat Nat} {e : Event Nat} {p : Nat} {key d : String} (hp : first k p = false) (h : Confirms env e p key d) :
    liar k env e = some p := by
  obtain ⟨raw, sch, t, pl, rfl, h1, h2, -⟩ := h
  simp only [liar, h1]
  rw [if_pos ⟨h2, hp⟩]

theorem oneLiarN {net : Net Nat Nat} (h : checkOneLiar n k upd net = true) : OneLiar (siteN n upd) (first k) net := by
  rintro q hq p p' key d d' hp hp' ⟨e, he, hc⟩ ⟨e', he', hc'⟩
  have h1 := List.all_eq_true.1 (List.all_eq_true.1 (List.all_eq_true.1 h q (first_mem hq)) e he) e' he'
  rw [liar_of k hp hc, liar_of k hp' hc'] at h1
  simpa using h1

/-- whether `o` has sent the share to `q` -/
def checkSent (net : Net Nat Nat) (o q : Nat) (sh : Share) : Bool :=
  (net.nodes o).out.sent.any fun b => decide (q ∈ b.peers) && decide (q ≠ o) && b.shares.any fun x => match x.routing with
    | none => false
    | some r => decide (x.ident = sh.ident) && decide (x.wired = sh.bytes) && decide (r.sender = some sh.from_) &&
      decide (r.isBroadcast = sh.isBroadcast)

theorem checkSent_of {net : Net Nat Nat} {o q : Nat} {sh : Share} (h : SentTo net o q sh) : checkSent net o q sh = true := by
  obtain ⟨b, hb, h1, h2, x, hx, r, h3, h4, h5, h6, h7⟩ := h
  refine List.any_eq_true.2 ⟨b, hb, ?_⟩
  simp only [Bool.and_eq_true, decide_eq_true_eq]
  refine ⟨⟨h1, h2⟩, List.any_eq_true.2 ⟨x, hx, ?_⟩⟩
  simp only [h5, Bool.and_eq_true, decide_eq_true_eq]
  exact ⟨⟨⟨h3, h4⟩, h6⟩, h7⟩

/-- a check that implies `Fair` -/
def checkFair (net : Net Nat Nat) : Bool :=
  ((List.range k).map (· + 10)).all fun q => (List.range (net.nodes q).ses.log.length).all fun j =>
    match (net.nodes q).ses.log[j]? with
    | none => true
    | some en => match upd ((net.nodes q).ses.log.take j) en.share with
      | none => true
      | some cs => cs.all fun c => match Map.get (peersN n) c.id with
        | none => true
        | some o => !first k o || ((net.nodes q).ses.log.take j ++ [en]).any fun en' =>
            decide (en'.share.from_ = c.id) && !checkSent net o q en'.share

theorem fairN {net : Net Nat Nat} (h : checkFair n k upd net = true) : Fair (siteN n upd) (first k) net := by
  intro q hq pre en post cs hlog hupd c hc o ho hh
  have hj : pre.length ∈ List.range (net.nodes q).ses.log.length := by
    rw [hlog]; simp
  have h1 := List.all_eq_true.1 (List.all_eq_true.1 h q (first_mem hq)) _ hj
  have e1 : (net.nodes q).ses.log[pre.length]? = some en := by rw [hlog]; simp
  have e2 : (net.nodes q).ses.log.take pre.length = pre := by rw [hlog]; simp
  have e3 : upd pre en.share = some cs := hupd
  simp only [e1, e2, e3] at h1
  have h2 := List.all_eq_true.1 h1 c hc
  have h3 : Map.get (peersN n) c.id = some o := ho
  simp only [h3, hh, Bool.not_true, Bool.false_or, List.any_eq_true, Bool.and_eq_true, decide_eq_true_eq, Bool.not_eq_true'] at h2
  obtain ⟨en', he', h4, h5⟩ := h2
  refine ⟨en', he', h4, fun hs => ?_⟩
  rw [checkSent_of hs] at h5
  cases h5

end checks

/-- Specification: in the session of the `n` members, of whom the first `k` are honest, an honest member's local parties work as they should, no
signature is forged, and yet the honest node `q` blames the honest member `i` -/
structure FramedIn (n k : Nat) (upd : List Entry → Share → Option (List Culprit)) (h : List (NetEvent Nat)) (q i : Nat) : Prop where
  setting : Setting demoEnc baseN (idsN n) (peersN n) (siteN n upd)
  proper : ∀ i q, Map.get (peersN n) i = some q → first k q = true → Proper baseN (siteN n upd q).out i (outputsAt q h)
  unforged : Unforged (siteN n upd) (first k) (netRun demoEnc (siteN n upd) (first k) h)
  honest : first k q = true ∧ first k (i + 10) = true ∧ Map.get (peersN n) i = some (i + 10) ∧ q ≠ i + 10
  blamed : ∃ nd ∈ ((netRun demoEnc (siteN n upd) (first k) h).nodes q).ses.mgr.blame.nodes, Named baseN.codec (idsN n) i nd.pubkey

/-- messages arrive in the order in which they were sent -/
def fifo (n : Nat) : List (NetEvent Nat) := List.replicate n (.deliver 0 plain)

/-- the bytes which member `i` sends for an output -/
def bytesOf (n i : Nat) (x : String × Option Nat × Bytes) : WireMessage :=
  wireOf demoEnc (siteN n (fun _ _ => none) (i + 10)) (OutBatch.sendBulkMsg (siteN n (fun _ _ => none) (i + 10)).out x.1 TSSKeyGenMsg
    [⟨x.2.2, "m", some ⟨some (some i), x.2.1.toList, x.2.1.isNone⟩⟩])

def onWire (w : WireMessage) : Bytes := demoEnc.wrap TSSKeyGenMsg (demoEnc.wire w)

def shareA : String × Option Nat × Bytes := ("KGRound1Message", none, [0, 50])

def shareB : String × Option Nat × Bytes := ("KGRound2Message2", none, [2, 51])

def shareC : String × Option Nat × Bytes := ("KGRound3Message", none, [3, 52])

def shareD : String × Option Nat × Bytes := ("KGRound2Message1", some 4, [1, 60])

/-- member 1 broadcasts a share, and member 4 sends it back to it -/
def returned : List (NetEvent Nat) :=
  [.at_ 11 (.output plainOut (outN 1 shareA)), .foreign 14 11 (onWire (bytesOf 5 1 shareA)) plain] ++ fifo 20

/-- member 1 broadcasts its shares of three rounds; member 4 passes that of the second round on to member 2 and that of the third round to member 3,
in messages that say that they are of the first round -/
def relabelled : List (NetEvent Nat) :=
  [.at_ 11 (.output plainOut (outN 1 shareA)), .at_ 11 (.output plainOut (outN 1 shareB)), .at_ 11 (.output plainOut (outN 1 shareC)),
    .foreign 14 12 (onWire { bytesOf 5 1 shareB with roundInfo := "KGRound1Message" }) plain,
    .foreign 14 13 (onWire { bytesOf 5 1 shareC with roundInfo := "KGRound1Message" }) plain] ++ fifo 40

/-- local parties that refuse a share made for somebody else, or made up -/
def refuse (_ : List Entry) (sh : Share) : Option (List Culprit) := if sh.bytes.head? = some 1 then some [⟨sh.from_, true⟩] else none

/-- member 1 produces a share for member 4, who passes it on to member 0 -/
def forwarded : List (NetEvent Nat) := [.at_ 11 (.output plainOut (outN 1 shareD)), .foreign 14 10 (onWire (bytesOf 5 1 shareD)) plain]

/-- member 4 signs a message with a share in the name of member 1 and sends it to member 0 -/
def impersonated : List (NetEvent Nat) :=
  [.at_ 11 (.output plainOut (outN 1 shareA)),
    .foreign 14 10 (onWire ⟨some ⟨some (some 4), [0], false⟩, "KGRound2Message1", demoEnc.bulk [⟨[1, 70], "m", some ⟨some (some 1), [0], false⟩⟩], [5]⟩)
      plain] ++ fifo 4

/-- members 3 and 4 both report that they have received something else from member 1 -/
def twoLiars : List (NetEvent Nat) :=
  [.at_ 11 (.output plainOut (outN 1 shareA)),
    .foreign 13 10 (demoEnc.wrap TSSKeyGenVerMsg (demoEnc.confirm ⟨none, "1-KGRound1Message", "x"⟩)) plain,
    .foreign 14 10 (demoEnc.wrap TSSKeyGenVerMsg (demoEnc.confirm ⟨none, "1-KGRound1Message", "y"⟩)) plain] ++ fifo 4

/-- member 4 sends a share which it has made up, in its own name -/
def guilty : List (NetEvent Nat) :=
  [.at_ 11 (.output plainOut (outN 1 shareA)),
    .foreign 14 10 (onWire ⟨some ⟨some (some 4), [0], false⟩, "KGRound2Message1", demoEnc.bulk [⟨[1, 70], "m", some ⟨some (some 4), [0], false⟩⟩], [5]⟩)
      plain] ++ fifo 20

theorem properOf {n k : Nat} {upd : List Entry → Share → Option (List Culprit)} {h : List (NetEvent Nat)} (l : List (String × Option Nat × Bytes))
    (h1 : outputsAt 11 h = l.map fun x => (plainOut, outN 1 x)) (h2 : ∀ q ∈ [10, 12, 13], outputsAt q h = []) (hk : k ≤ 4)
    (h3 : ∀ x ∈ l, ':' ∉ x.1.toList ∧ (GetMsgRound baseN.parse x.2.2).isSome) (h4 : (l.map fun x => GetMsgRound baseN.parse x.2.2).Nodup)
    (h5 : (l.map fun x => (x.1, x.2.1)).Nodup) (i q : Nat) (hi : Map.get (peersN n) i = some q) (hq : first k q = true) :
    Proper baseN (siteN n upd q).out i (outputsAt q h) := by
  obtain ⟨rfl, -⟩ := peersN_get hi
  simp only [first, Bool.and_eq_true, decide_eq_true_eq] at hq
  by_cases h11 : i = 1
  · subst h11
    rw [h1]
    exact properN n 1 11 upd l h3 h4 h5
  · rw [h2 (i + 10) (by simp; omega)]
    exact properN n i (i + 10) upd [] (by simp) (by simp) (by simp)

theorem namedOne {n : Nat} (hn : 2 ≤ n) : Named baseN.codec (idsN n) 1 21 := by
  refine ⟨⟨1, [2], 1⟩, ?_, by decide⟩
  unfold idsN
  rw [getN (fun i => (⟨i, [UInt8.ofNat (i + 1)], i⟩ : Party)), if_pos (by omega)]
  rfl

/-- C120 fails: a node that is not honest sends the broadcast message of the honest member 1 back to it. Member 1 confirms it like any other, and
is blamed by member 0 for confirming its own message. -/
theorem c120_returned : FramedIn 5 4 (fun _ _ => none) returned 10 1 ∧
    OwnName (siteN 5 fun _ _ => none) (first 4) (netRun demoEnc (siteN 5 fun _ _ => none) (first 4) returned) ∧
    OneLiar (siteN 5 fun _ _ => none) (first 4) (netRun demoEnc (siteN 5 fun _ _ => none) (first 4) returned) ∧
    Fair (siteN 5 fun _ _ => none) (first 4) (netRun demoEnc (siteN 5 fun _ _ => none) (first 4) returned) :=
  ⟨⟨settingN (by decide) _, properOf [shareA] rfl (by decide +kernel) (by decide) (by decide +kernel) (by decide +kernel) (by decide +kernel),
    unforgedN _ _ _ (by decide +kernel), by decide +kernel,
    ⟨⟨21, demoEnc.bulk [⟨[0, 50], "m", some ⟨some (some 1), [], true⟩⟩], [2]⟩, by decide +kernel, namedOne (by decide)⟩⟩,
    ownNameN _ _ _ (by decide +kernel), oneLiarN _ _ _ (by decide +kernel), fairN _ _ _ (by decide +kernel)⟩

/-- C120 fails: the round a message is said to be of is not covered by its signature. A single node that is not honest shows two honest nodes
genuine messages of member 1 under the name of another round; what they report about it makes member 0 blame member 1. -/
theorem c120_relabelled : FramedIn 5 4 (fun _ _ => none) relabelled 10 1 ∧
    OwnName (siteN 5 fun _ _ => none) (first 4) (netRun demoEnc (siteN 5 fun _ _ => none) (first 4) relabelled) ∧
    OneLiar (siteN 5 fun _ _ => none) (first 4) (netRun demoEnc (siteN 5 fun _ _ => none) (first 4) relabelled) ∧
    Fair (siteN 5 fun _ _ => none) (first 4) (netRun demoEnc (siteN 5 fun _ _ => none) (first 4) relabelled) :=
  ⟨⟨settingN (by decide) _, properOf [shareA, shareB, shareC] rfl (by decide +kernel) (by decide) (by decide +kernel) (by decide +kernel)
      (by decide +kernel), unforgedN _ _ _ (by decide +kernel), by decide +kernel,
    ⟨⟨21, demoEnc.bulk [⟨[0, 50], "m", some ⟨some (some 1), [], true⟩⟩], [2]⟩, by decide +kernel, namedOne (by decide)⟩⟩,
    ownNameN _ _ _ (by decide +kernel), oneLiarN _ _ _ (by decide +kernel), fairN _ _ _ (by decide +kernel)⟩

/-- C120 fails: a share which the honest member 1 made for member 4 is passed on to member 0, whose local parties refuse it: it is not for them. -/
theorem c120_forwarded : FramedIn 5 4 refuse forwarded 10 1 ∧
    OwnName (siteN 5 refuse) (first 4) (netRun demoEnc (siteN 5 refuse) (first 4) forwarded) ∧
    OneLiar (siteN 5 refuse) (first 4) (netRun demoEnc (siteN 5 refuse) (first 4) forwarded) ∧
    Fair (siteN 5 refuse) (first 4) (netRun demoEnc (siteN 5 refuse) (first 4) forwarded) :=
  ⟨⟨settingN (by decide) _, properOf [shareD] rfl (by decide +kernel) (by decide) (by decide +kernel) (by decide +kernel) (by decide +kernel),
    unforgedN _ _ _ (by decide +kernel), by decide +kernel,
    ⟨⟨21, [], []⟩, by decide +kernel, namedOne (by decide)⟩⟩,
    ownNameN _ _ _ (by decide +kernel), oneLiarN _ _ _ (by decide +kernel), fairN _ _ _ (by decide +kernel)⟩

/-- C120 fails: the sender named inside a message need not be the member who signed it. A share in the name of member 1, made up and signed by
member 4, is refused by the local parties of member 0, and member 1 is blamed. -/
theorem c120_impersonated : FramedIn 5 4 refuse impersonated 10 1 ∧
    AsSent demoEnc (siteN 5 refuse) (first 4) (netRun demoEnc (siteN 5 refuse) (first 4) impersonated) ∧
    OneLiar (siteN 5 refuse) (first 4) (netRun demoEnc (siteN 5 refuse) (first 4) impersonated) ∧
    Fair (siteN 5 refuse) (first 4) (netRun demoEnc (siteN 5 refuse) (first 4) impersonated) :=
  ⟨⟨settingN (by decide) _, properOf [shareA] rfl (by decide +kernel) (by decide) (by decide +kernel) (by decide +kernel) (by decide +kernel),
    unforgedN _ _ _ (by decide +kernel), by decide +kernel,
    ⟨⟨21, [], []⟩, by decide +kernel, namedOne (by decide)⟩⟩,
    asSentN _ _ _ (by decide +kernel), oneLiarN _ _ _ (by decide +kernel), fairN _ _ _ (by decide +kernel)⟩

/-- C120 fails: two nodes that are not honest say that they have received something else from member 1. -/
theorem c120_two_liars : FramedIn 5 3 (fun _ _ => none) twoLiars 10 1 ∧
    AsSent demoEnc (siteN 5 fun _ _ => none) (first 3) (netRun demoEnc (siteN 5 fun _ _ => none) (first 3) twoLiars) ∧
    OwnName (siteN 5 fun _ _ => none) (first 3) (netRun demoEnc (siteN 5 fun _ _ => none) (first 3) twoLiars) ∧
    Fair (siteN 5 fun _ _ => none) (first 3) (netRun demoEnc (siteN 5 fun _ _ => none) (first 3) twoLiars) :=
  ⟨⟨settingN (by decide) _, properOf [shareA] rfl (by decide +kernel) (by decide) (by decide +kernel) (by decide +kernel) (by decide +kernel),
    unforgedN _ _ _ (by decide +kernel), by decide +kernel,
    ⟨⟨21, demoEnc.bulk [⟨[0, 50], "m", some ⟨some (some 1), [], true⟩⟩], [2]⟩, by decide +kernel, namedOne (by decide)⟩⟩,
    asSentN _ _ _ (by decide +kernel), ownNameN _ _ _ (by decide +kernel), fairN _ _ _ (by decide +kernel)⟩

/-- the hypotheses of `c120_not_framed_partial` hold of a session in which member 4 sends a bad share, for which member 0 blames it, while the
broadcast share of member 1 is applied by all -/
example : (∀ nd ∈ ((netRun demoEnc (siteN 5 refuse) (first 4) guilty).nodes 10).ses.mgr.blame.nodes, ∃ i o, Named baseN.codec (idsN 5) i nd.pubkey ∧
      Map.get (peersN 5) i = some o ∧ first 4 o = false) ∧
    ((netRun demoEnc (siteN 5 refuse) (first 4) guilty).nodes 10).ses.mgr.blame.nodes = [⟨24, [], []⟩] ∧
    ((netRun demoEnc (siteN 5 refuse) (first 4) guilty).nodes 10).ses.log.map (fun en => (en.share.from_, en.ok)) = [(4, false), (1, true)] :=
  ⟨c120_not_framed_partial (settingN (by decide) _) (first_member (by decide)) guilty
    (properOf [shareA] rfl (by decide +kernel) (by decide) (by decide +kernel) (by decide +kernel) (by decide +kernel)) (fun _ _ => rfl)
    (asSentN _ _ _ (by decide +kernel)) (ownNameN _ _ _ (by decide +kernel)) (oneLiarN _ _ _ (by decide +kernel)) (fairN _ _ _ (by decide +kernel))
    10 rfl, by decide +kernel, by decide +kernel⟩

end Verif.Props.Framed
