import Verif.Props.C120

/-!
# C121: two honest nodes do not apply different broadcast messages of a member in a round
-/
set_option linter.unusedSectionVars false
namespace Verif.Props.Agreement
open Verif.Go Verif.Conversion Verif.Messages Verif.Blame Verif.TssCommon Verif.Spec Verif.Threshold Verif.SessNet Verif.Props.Framed
open scoped List

variable {K P : Type} [DecidableEq K] [DecidableEq P]
variable {enc : Encoders P} {base : TssCommon.Env K P} {ids : Map Nat Party} {peers : Map Nat P} {site : P → Site K P} {honest : P → Bool}

/-- Specification: confirmations come from members only -/
def Inside (peers : Map Nat P) (site : P → Site K P) (honest : P → Bool) (n : Net K P) : Prop :=
  ∀ q, honest q = true → ∀ e ∈ (n.nodes q).hist, ∀ p key d, Confirms (site q).env e p key d → Member peers p

/-- Specification: no honest node receives two different broadcast messages with the signature of the same member for the same round -/
def OneEach (site : P → Site K P) (honest : P → Bool) (n : Net K P) : Prop :=
  ∀ q, honest q = true → ∀ e ∈ (n.nodes q).hist, ∀ e' ∈ (n.nodes q).hist, ∀ w w', Carries (site q).env e w → Carries (site q).env e' w' →
    Signed (site q).env (site q).mgr.partyIDMap w → Signed (site q).env (site q).mgr.partyIDMap w' → w.isBroadcast = true → w'.isBroadcast = true →
    w.sender = w'.sender → w.roundInfo = w'.roundInfo → w.message = w'.message

/-- what an honest node reports, it has received -/
theorem vote_origin (hs : Setting enc base ids peers site) (hm : ∀ p, honest p = true → Member peers p) (h : List (NetEvent P))
    {q p : P} (hq : honest q = true) (hp : honest p = true) {key d : String}
    (hv : Voted (site q).env (site q).mgr.partyIDMap ((netRun enc site honest h).nodes q).hist p key d) :
    ∃ e' ∈ ((netRun enc site honest h).nodes p).hist, ∃ w i, Carries (site p).env e' w ∧ Signed (site p).env (site p).mgr.partyIDMap w ∧
      w.sender = some i ∧ w.isBroadcast = true ∧ key = cacheKey i w.roundInfo ∧ d = (site p).env.hash w.message := by
  rcases hv with ⟨e, he, hc⟩ | ⟨hl, e, he, w, i, h1, h2, h3, h4, h5, h6⟩
  · exact confirm_origin hs hm h hq hp he hc
  · rw [hs.loc (hm q hq)] at hl
    subst hl
    exact ⟨e, he, w, i, h1, h2, h3, h4, h5, h6⟩

/-- C121, the part that holds. In a session of `n` members with threshold `t`, at most `f` of them not honest, with `2 (t - 1) > (n - 1) + f`: if two
honest nodes apply broadcast messages of the same member for the same round, the messages are the same, provided that only members send
confirmations and that no honest node receives two different messages of one member for one round.

Missing: an honest node that receives two messages confirms both, see `c121_both_confirmed`; and smaller committees, see
`Verif.Props.Session.c30_two_shares`. -/
theorem c121_same_partial (hs : Setting enc base ids peers site) (hm : ∀ p, honest p = true → Member peers p) (h : List (NetEvent P))
    (liars : Finset P) (hf : ∀ p, Member peers p → honest p = false → p ∈ liars)
    (t : Int) (ht : GetThreshold ids.length = .ok t) (hbig : 2 * (t - 1) > (ids.length : Int) - 1 + liars.card)
    (hin : Inside peers site honest (netRun enc site honest h)) (hone : OneEach site honest (netRun enc site honest h))
    (a b : P) (ha : honest a = true) (hb : honest b = true) (ea eb : Entry)
    (hea : ea ∈ ((netRun enc site honest h).nodes a).ses.log) (heb : eb ∈ ((netRun enc site honest h).nodes b).ses.log)
    (hba : ea.carrier.isBroadcast = true) (hbb : eb.carrier.isBroadcast = true)
    (hsame : ea.carrier.sender = eb.carrier.sender) (hround : ea.carrier.roundInfo = eb.carrier.roundInfo)
    (hinj : base.hash ea.carrier.message = base.hash eb.carrier.message → ea.carrier.message = eb.carrier.message) :
    ea.carrier.message = eb.carrier.message := by
  have hl : ∀ q, honest q = true → (site q).env.localPeer = q := fun q hq => hs.loc (hm q hq)
  have hor := origins_run (enc := enc) (site := site) (honest := honest) hl h
  have henv : ∀ p, honest p = true → (site p).env.hash = base.hash ∧ (site p).env.codec = base.codec := fun p hp => by
    rw [hs.env p (hm p hp)]; exact ⟨rfl, rfl⟩
  have hmem : ∀ q, honest q = true → ∀ p key d,
      Voted (site q).env (site q).mgr.partyIDMap ((netRun enc site honest h).nodes q).hist p key d → Member peers p := by
    intro q hq p key d hv
    rcases hv with ⟨e, he, hc⟩ | ⟨hl', -⟩
    · exact hin q hq e he p key d hc
    · rw [hl', hl q hq]; exact hm q hq
  rw [hor.ses a ha] at hea
  rw [hor.ses b hb] at heb
  -- the agreement of the votes
  have agree : ∀ p key d d', p ∉ liars →
      Voted (site a).env (site a).mgr.partyIDMap ((netRun enc site honest h).nodes a).hist p key d →
      Voted (site b).env (site b).mgr.partyIDMap ((netRun enc site honest h).nodes b).hist p key d' → d = d' := by
    intro p key d d' hp hv hv'
    have hph : honest p = true := by
      by_contra hne
      exact hp (hf p (hmem a ha p key d hv) (by simpa using hne))
    obtain ⟨e, he, w, i, c1, s1, i1, b1, k1, d1⟩ := vote_origin hs hm h ha hph hv
    obtain ⟨e', he', w', i', c2, s2, i2, b2, k2, d2⟩ := vote_origin hs hm h hb hph hv'
    rw [k1] at k2
    obtain ⟨rfl, hri⟩ := cacheKey_inj k2
    rw [d1, d2, hone p hph e he e' he' w w' c1 c2 s1 s2 b1 b2 (i1.trans i2.symm) hri]
  have hca : Committee (site a).env.codec (site a).mgr := by rw [(henv a ha).2]; exact hs.committee a (hm a ha)
  have hidx : ∀ q, honest q = true → (site q).mgr.partyIDMap = ids := fun q hq => hs.idMap q (hm q hq)
  refine Verif.Props.Session.c30_agreement_partial (site a).env (site b).env (site a).mgr (site b).mgr _ _ hca ?_ ?_ ea eb hea heb hba hbb hsame
    hround ?_ liars agree t ?_ ?_ ?_
  · rw [hidx a ha, hidx b hb]
  · intro i; rw [hs.peerMap a (hm a ha), hs.peerMap b (hm b hb)]
  · intro p key d hv
    obtain ⟨i, hi⟩ : Member peers p := by
      rcases hv with hv | hv
      · exact hmem a ha p key d hv
      · exact hmem b hb p key d hv
    exact ⟨i, by rw [hs.peerMap a (hm a ha)]; exact hi⟩
  · rw [hidx a ha]; exact ht
  · rw [hidx a ha]; exact hbig
  · intro hxy
    rw [(henv a ha).1, (henv b hb).1] at hxy
    exact hinj hxy

theorem round_id {parse : Bytes → Option Content} {b : Bytes} {ri : RoundInfo} (h : GetMsgRound parse b = some ri) : ri.msgIdentifier = "" := by
  unfold GetMsgRound at h
  rcases hp : parse b with _ | c
  · rw [hp] at h; cases h
  · rw [hp] at h
    cases c <;> simp [contentRound] at h <;> rw [← h]

/-- C121, for the messages of honest members, without conditions on thresholds or on what other nodes do: two honest nodes that apply, from messages
of the honest member `i`, broadcast shares for the same party and round apply the same bytes. -/
theorem c121_honest_owner (hs : Setting enc base ids peers site) (hm : ∀ p, honest p = true → Member peers p) (h : List (NetEvent P))
    (hp : ∀ i q, Map.get peers i = some q → honest q = true → Proper base (site q).out i (outputsAt q h))
    (hu : SessionNet.Unforged site honest (netRun enc site honest h))
    (a b o : P) (i : Nat) (ha : honest a = true) (hb : honest b = true) (ho : honest o = true) (hi : Map.get peers i = some o) (hao : a ≠ o)
    (ea eb : Entry) (hea : ea ∈ ((netRun enc site honest h).nodes a).ses.log) (heb : eb ∈ ((netRun enc site honest h).nodes b).ses.log)
    (hsa : ea.carrier.sender = some i) (hsb : eb.carrier.sender = some i) (hround : ea.round = eb.round)
    (hba : ea.share.isBroadcast = true) (hbb : eb.share.isBroadcast = true) :
    ea.share = eb.share := by
  have hl : ∀ q, honest q = true → (site q).env.localPeer = q := fun q hq => hs.loc (hm q hq)
  have hor := origins_run (enc := enc) (site := site) (honest := honest) hl h
  have hd : ∀ q, honest q = true → ∀ l, (site q).env.decBulk (enc.bulk l) = some l := fun q hq => (hs.dec (hm q hq)).bulk
  have find : ∀ q en, honest q = true → en ∈ ((netRun enc site honest h).nodes q).ses.log → en.carrier.sender = some i →
      (∃ e ∈ outputsAt o h, ∃ r, e.2.wire = some (en.share.bytes, r) ∧ e.2.moniker = en.share.ident ∧ r.isBroadcast = en.share.isBroadcast ∧
        r.sender = some en.share.from_) ∧
      ∃ ri, GetMsgRound base.parse en.share.bytes = some ri ∧ en.round = { ri with msgIdentifier := en.share.ident } := by
    intro q en hq hen hsn
    refine ⟨SessionNet.c102_authentic hl hd h hu q o i hq ho (by rw [hs.peerMap q (hm q hq)]; exact hi) en hen hsn, ?_⟩
    rw [hor.ses q hq] at hen
    obtain ⟨e, he, hc, hsg, hcn⟩ := Verif.Props.Session.c25_applied_signed _ _ _ en hen
    obtain ⟨bulk, x, r, ri, -, -, c3, -, c5, -, -, -, -, c9, c10⟩ := hcn
    refine ⟨ri, ?_, by rw [c10, c3]⟩
    rw [hs.env q (hm q hq)] at c9
    rw [← c5]
    exact c9
  obtain ⟨⟨e, he, r, k1, k2, k3, k4⟩, ri, k5, k6⟩ := find a ea ha hea hsa
  obtain ⟨⟨e', he', r', k1', k2', k3', k4'⟩, ri', k5', k6'⟩ := find b eb hb heb hsb
  have hrr : ri = ri' ∧ ea.share.ident = eb.share.ident := by
    have h1 := round_id k5
    have h2 := round_id k5'
    rw [k6, k6'] at hround
    obtain ⟨x, y, z⟩ := ri
    obtain ⟨x', y', z'⟩ := ri'
    simp only [RoundInfo.mk.injEq] at hround h1 h2
    obtain ⟨rfl, rfl, h3⟩ := hround
    rw [h1, h2]
    exact ⟨rfl, h3⟩
  have hpo := hp i o hi ho
  have hrecv : ∀ type (r : Routing), r.isBroadcast = true → a ∈ Verif.Props.Outgoing.receivers (site o).out (Verif.Props.Outgoing.queueOf type r) := by
    intro type r hr
    unfold Verif.Props.Outgoing.queueOf
    rw [if_pos hr]
    show a ∈ (site o).out.p2pPeers
    rw [(hs.outPeers o ⟨i, hi⟩).1, hs.others o ⟨i, hi⟩]
    exact ⟨hm a ha, hao⟩
  obtain ⟨hbytes, rfl⟩ := hpo.slots e he e' he' _ r _ r' k1 k1' (by rw [k2, k2', hrr.2]) (by rw [k5, k5', hrr.1])
    ⟨a, hrecv _ _ (by rw [k3, hba]), hrecv _ _ (by rw [k3', hbb])⟩
  rw [k4] at k4'
  have ext : ∀ x y : Share, x.ident = y.ident → x.from_ = y.from_ → x.isBroadcast = y.isBroadcast → x.bytes = y.bytes → x = y := by
    rintro ⟨_, _, _, _⟩ ⟨_, _, _, _⟩ rfl rfl rfl rfl; rfl
  exact ext _ _ hrr.2 (Option.some.inj k4') (by rw [hba, hbb]) hbytes

/-! ## examples and counterexamples -/

/-- the message of member 12 with share `b` -/
def msg (b : UInt8) : WireMessage :=
  ⟨some ⟨some (some 12), [], true⟩, "KGRound1Message", demoEnc.bulk [⟨[0, b], "m", some ⟨some (some 12), [], true⟩⟩], [13]⟩

/-- Member 12 sends one message to member 0 and another one to member 1, and then both of them to members 2 to 8, one after the other. They confirm
what they receive; member 0 learns of the confirmations of the first message, member 1 of those of the second one. -/
def bothConfirmed : List (NetEvent Nat) :=
  [.foreign 22 10 (onWire (msg 50)) plain, .foreign 22 11 (onWire (msg 51)) plain] ++
  (List.range 7).flatMap (fun j => [.foreign 22 (12 + j) (onWire (msg 50)) plain, .deliver (22 + 10 * j) plain]) ++
  (List.range 7).flatMap (fun j => [.foreign 22 (12 + j) (onWire (msg 51)) plain, .deliver (92 + 10 * j + 1) plain])

/-- Member 12 sends one message to members 0 to 8 and another one to member 9; all messages arrive. -/
def oneEach : List (NetEvent Nat) :=
  (List.range 9).map (fun j => .foreign 22 (10 + j) (onWire (msg 50)) plain) ++ [.foreign 22 19 (onWire (msg 51)) plain] ++ fifo 120

section checks

variable (n k : Nat) (upd : List Entry → Share → Option (List Culprit))

/-- a check that implies `Inside` -/
def checkInside (net : Net Nat Nat) : Bool :=
  ((List.range k).map (· + 10)).all fun q => (net.nodes q).hist.all fun e => (liar k (siteN n upd q).env e).isNone

theorem insideN (hk : k ≤ n) {net : Net Nat Nat} (h : checkInside n k upd net = true) : Inside (peersN n) (siteN n upd) (first k) net := by
  intro q hq e he p key d hc
  by_cases hp : first k p = true
  · exact first_member hk p hp
  · have h1 := List.all_eq_true.1 (List.all_eq_true.1 h q (first_mem hq)) e he
    rw [liar_of k (by simpa using hp) hc] at h1
    cases h1

/-- a check that implies `OneEach` -/
def checkOneEach (net : Net Nat Nat) : Bool :=
  ((List.range k).map (· + 10)).all fun q => (net.nodes q).hist.all fun e => (net.nodes q).hist.all fun e' =>
    match SessionNet.carried (siteN n upd q).env e, SessionNet.carried (siteN n upd q).env e' with
    | some w, some w' => decide (w.message = w'.message)
    | _, _ => true

theorem oneEachN {net : Net Nat Nat} (h : checkOneEach n k upd net = true) : OneEach (siteN n upd) (first k) net := by
  intro q hq e he e' he' w w' hc hc' _ _ _ _ _ _
  have h1 := List.all_eq_true.1 (List.all_eq_true.1 (List.all_eq_true.1 h q (first_mem hq)) e he) e' he'
  rw [SessionNet.carried_of hc, SessionNet.carried_of hc'] at h1
  simpa using h1

end checks

/-- C121 fails with a single member that is not honest, however large the threshold is compared to it: an honest node confirms every message it
receives, also a second one of the same member for the same round, so that the honest nodes confirm one message to member 0 and another one to
member 1, who apply different shares. Thirteen members, threshold 8, `2 (t - 1) = 14 > 13 = (n - 1) + f`. -/
theorem c121_both_confirmed : Setting demoEnc baseN (idsN 13) (peersN 13) (siteN 13 fun _ _ => none) ∧
    (∀ p, Member (peersN 13) p → first 12 p = false → p = 22) ∧ GetThreshold (idsN 13).length = .ok 8 ∧
    Inside (peersN 13) (siteN 13 fun _ _ => none) (first 12) (netRun demoEnc (siteN 13 fun _ _ => none) (first 12) bothConfirmed) ∧
    ∃ ea ∈ ((netRun demoEnc (siteN 13 fun _ _ => none) (first 12) bothConfirmed).nodes 10).ses.log,
    ∃ eb ∈ ((netRun demoEnc (siteN 13 fun _ _ => none) (first 12) bothConfirmed).nodes 11).ses.log,
      ea.carrier = msg 50 ∧ eb.carrier = msg 51 ∧ ea.share = ⟨"m", 12, true, [0, 50]⟩ ∧ eb.share = ⟨"m", 12, true, [0, 51]⟩ ∧
      ea.round = eb.round ∧ ea.ok = true ∧ eb.ok = true := by
  refine ⟨settingN (by decide) _, ?_, by decide +kernel, insideN _ _ _ (by decide) (by decide +kernel),
    ⟨⟨"m", 12, true, [0, 50]⟩, ⟨0, KEYGEN1, "m"⟩, msg 50, true⟩, by decide +kernel,
    ⟨⟨"m", 12, true, [0, 51]⟩, ⟨0, KEYGEN1, "m"⟩, msg 51, true⟩, by decide +kernel, rfl, rfl, rfl, rfl, rfl, rfl, rfl⟩
  intro p hp hf
  rw [memberN] at hp
  simp [first] at hf
  omega

/-- the hypotheses of `c121_same_partial` hold of a session in which member 12 is not honest, and several members apply its share -/
example : (∀ a b, first 12 a = true → first 12 b = true →
      ∀ ea ∈ ((netRun demoEnc (siteN 13 fun _ _ => none) (first 12) oneEach).nodes a).ses.log,
      ∀ eb ∈ ((netRun demoEnc (siteN 13 fun _ _ => none) (first 12) oneEach).nodes b).ses.log,
      ea.carrier.isBroadcast = true → eb.carrier.isBroadcast = true → ea.carrier.sender = eb.carrier.sender →
      ea.carrier.roundInfo = eb.carrier.roundInfo → ea.carrier.message = eb.carrier.message) ∧
    [10, 11, 18].map (fun q => ((netRun demoEnc (siteN 13 fun _ _ => none) (first 12) oneEach).nodes q).ses.log.map fun en => en.share.bytes) =
      [[[0, 50]], [[0, 50]], [[0, 50]]] := by
  refine ⟨fun a b ha hb ea hea eb heb h1 h2 h3 h4 => ?_, by decide +kernel⟩
  refine c121_same_partial (settingN (by decide) _) (first_member (by decide)) oneEach {22} ?_ 8 (by decide +kernel) (by decide +kernel)
    (insideN _ _ _ (by decide) (by decide +kernel)) (oneEachN _ _ _ (by decide +kernel)) a b ha hb ea eb hea heb h1 h2 h3 h4 ?_
  · intro p hp hf
    rw [memberN] at hp
    simp [first] at hf
    simp; omega
  · intro hxy
    have : ∀ x : Bytes, (baseN.hash x).toList.map (fun c => UInt8.ofNat (c.toNat - 97)) = x := by
      intro x
      show (String.ofList (x.map (fun x => Char.ofNat (97 + x.toNat)))).toList.map (fun c => UInt8.ofNat (c.toNat - 97)) = x
      rw [String.toList_ofList, List.map_map]
      conv_rhs => rw [← List.map_id x]
      apply List.map_congr_left
      intro b _
      have : ∀ k < 256, (Char.ofNat (97 + k)).toNat = 97 + k := by decide +kernel
      simp only [Function.comp, id]
      rw [this _ (UInt8.toNat_lt b)]
      simp
    rw [← this ea.carrier.message, ← this eb.carrier.message, hxy]

/-- the hypotheses of `c121_honest_owner` hold of a session in which member 4 shows members 2 and 3 messages of the honest member 1 under another
round: members 0, 2 and 3 apply the same shares of member 1 -/
example : (∀ ea ∈ ((netRun demoEnc (siteN 5 fun _ _ => none) (first 4) relabelled).nodes 10).ses.log,
      ∀ eb ∈ ((netRun demoEnc (siteN 5 fun _ _ => none) (first 4) relabelled).nodes 12).ses.log, ea.carrier.sender = some 1 →
      eb.carrier.sender = some 1 → ea.round = eb.round → ea.share.isBroadcast = true → eb.share.isBroadcast = true → ea.share = eb.share) ∧
    [10, 12, 13].map (fun q => ((netRun demoEnc (siteN 5 fun _ _ => none) (first 4) relabelled).nodes q).ses.log.map fun en =>
      (en.carrier.sender, en.share.isBroadcast, en.share.bytes)) = List.replicate 3 [(some 1, true, [2, 51])] :=
  ⟨fun ea hea eb heb h1 h2 h3 h4 h5 => c121_honest_owner (settingN (by decide) _) (first_member (by decide)) relabelled c120_relabelled.1.proper
    c120_relabelled.1.unforged 10 12 11 1 rfl rfl rfl rfl (by decide) ea eb hea heb h1 h2 h3 h4 h5, by decide +kernel⟩

end Verif.Props.Agreement
