import Verif.Props.C97_C98

/-! # C99 - C101: networks of nodes that form a party without a leader; what joining nodes write; what becomes of their streams -/
set_option linter.unusedSectionVars false
namespace Verif.Props.Parties
open Verif.Go Verif.Conversion Verif.JoinParty Verif.Server Verif.JoinNet Verif.Spec.Server Verif.Spec
open scoped List

variable {P S A H L : Type} [DecidableEq P] [LinearOrder A] [LinearOrder H]

/-! ## Specification -/

/-- Node `p` was given the request `R`, of a version without leaders; the keys may be listed in another order. -/
structure TakesOld (R : Round P H) (env : Env P A H L) (job : Job) (p : P) : Prop where
  me : env.me = p
  codec : env.codec = R.codec
  peers : env.peers = R.peers
  withoutLeader : Version.VersionLTCheck env.parseVer job.version env.gate = .ok true
  msgID : job.msgID = R.msgID
  keys : job.keys ~ R.keys

/-- `data` is a request of either protocol to join the party `id`. -/
def AsksFor (w : Wire) (id : String) (pr : Proto) (data : Bytes) : Prop :=
  pr = .joinParty ∧ data.length ≤ Stream.MaxPayload ∧ w.decReq data = some id ∨ pr = .joinPartyWithLeader ∧ IsRequest w id data

section net
variable {R : Round P H} {committee : List P} {leader : P} {env : P → Env P A H L} {w : Wire} {job : P → Job} {honest : P → Bool}

theorem start_shape_old {p : P} {env : Env P A H L} {job : Job} (hR : TakesOld R env job p)
    (hk : GetPeerIDsFromPubKeys R.codec R.keys = .ok committee) {gs : Groups P} {c₀ : JoinCall P}
    (h1 : joinParty env gs job.msgID job.version job.blockHeight job.keys job.threshold = .ok c₀) :
    ∃ gs' ps, ps ~ committee ∧ createJoinPartyGroups R.peers p gs R.msgID "NONE" (ps.map R.peers.str) 1 = .ok gs' ∧
      ∀ jh : List (JoinParty.Event P), jh.foldl (JoinCall.step env) c₀ =
        ⟨.leaderless (ps.map R.peers.str).length, "NONE", R.msgID, runRetry R.peers p (ps.map R.peers.str).length R.msgID gs' jh⟩ := by
  obtain ⟨rfl, h2, h3, h5, h6, h8⟩ := hR
  obtain ⟨ps, hps, hperm⟩ := peerIDs_perm R.codec h8 hk
  unfold joinParty at h1
  rw [h5] at h1
  simp only [h2, hps, h3, h6] at h1
  obtain ⟨gs', hg, rfl⟩ := startJoin_ok h1
  rw [h3] at hg
  refine ⟨gs', ps, hperm, hg, fun jh => ?_⟩
  rw [fold_leaderless, h3, List.length_map]; rfl

/-! ## C99 without a leader -/

/-- C99: a node that forms a party without a leader reports members of the committee only, itself included, and an honest member that it reports takes
part; it reports no error exactly if it reports the whole committee, and then all honest members of the committee take part. -/
theorem c99_everybody (hR : ∀ p, honest p = true → TakesOld R (env p) (job p) p) (hk : GetPeerIDsFromPubKeys R.codec R.keys = .ok committee)
    (hnd : committee.Nodup) (hl : LawfulPeers R.peers) (hw : LawfulWire w) (h : List (NetEvent P S)) {p : P} (hp : honest p = true) (hpc : p ∈ committee)
    (r : Result P) (hres : ((netRun env w job honest h).nodes p).result = some r) :
    r.online.Nodup ∧ p ∈ r.online ∧ (∀ q ∈ r.online, q ∈ committee ∧ (honest q = true → Joined ((netRun env w job honest h).nodes q))) ∧
      (r.err = none ∨ r.err = some .timeout) ∧ (r.err = none ↔ r.online ~ committee) := by
  obtain ⟨-, hnodes⟩ := net_inv env w job honest h
  have hn := hnodes p
  obtain ⟨c, hc, hcr⟩ := result_call hres
  have hc' := hc
  rw [hn.1] at hc'
  obtain ⟨c₀, hcf⟩ := call_from _ _ _ _ _ hc'
  obtain ⟨gs', ps, hps, hg, hshape⟩ := start_shape_old (hR p hp) hk hcf.1
  rw [hcf.2.1, hshape] at hcr
  obtain ⟨h1, σ, h2, e1, e2, e3, v1, v2, v3, v4⟩ := Join.c23_leaderless_verdict R.peers p _ gs' R.msgID (ps.map R.peers.str) ps
    (getPeerIDs_str hl ps) (hps.nodup_iff.2 hnd) (hps.mem_iff.2 hpc) hg _ r hcr
  have hmem : ∀ q ∈ r.online, q ∈ committee := fun q hq => by
    rcases (v2 q).1 hq with rfl | ⟨hq, -⟩
    · exact hpc
    · exact hps.mem_iff.1 hq
  refine ⟨v1, (v2 p).2 (.inl rfl), fun q hq => ⟨hmem q hq, fun hh => ?_⟩, v3, ?_⟩
  · rcases (v2 q).1 hq with rfl | ⟨-, hq⟩
    · exact ⟨c, hc⟩
    · have hq' : q ∈ heard R.msgID (joinHist w (histOf env w job honest h p)) := by
        rw [e1, mem_heard]
        rw [mem_heard] at hq
        exact hq.imp (List.mem_append_left _) (List.mem_append_left _)
      obtain ⟨cq, hcq, -⟩ := heard_joined hw h hn hcf hq' hh
      exact ⟨cq, hcq⟩
  · rw [v4]
    constructor
    · intro hall
      refine (List.perm_ext_iff_of_nodup v1 hnd).2 fun q => ⟨hmem q, fun hq => ?_⟩
      rw [v2]
      by_cases he : q = p
      · exact .inl he
      · exact .inr ⟨hps.mem_iff.2 hq, hall q (hps.mem_iff.2 hq) he⟩
    · intro hperm q hq he
      rcases (v2 q).1 (hperm.mem_iff.2 (hps.mem_iff.1 hq)) with h3 | ⟨-, h3⟩
      · exact absurd h3 he
      · exact h3

/-- C99: a node that reads in time the requests of all other members forms the party. -/
theorem c99_nobody_missing (hR : ∀ p, honest p = true → TakesOld R (env p) (job p) p) (hk : GetPeerIDsFromPubKeys R.codec R.keys = .ok committee)
    (hnd : committee.Nodup) (hl : LawfulPeers R.peers) (h : List (NetEvent P S)) {p : P} (hp : honest p = true) (hpc : p ∈ committee)
    (hQ : ∀ q ∈ committee, q ≠ p → ∃ pr data, AsksFor w R.msgID pr data ∧ ReadsInTime env w job honest h p q pr data)
    (r : Result P) (hres : ((netRun env w job honest h).nodes p).result = some r) : r.err = none := by
  obtain ⟨-, hnodes⟩ := net_inv env w job honest h
  have hn := hnodes p
  obtain ⟨c, hc, hcr⟩ := result_call hres
  have hc' := hc
  rw [hn.1] at hc'
  obtain ⟨c₀, hcf⟩ := call_from _ _ _ _ _ hc'
  obtain ⟨gs', ps, hps, hg, hshape⟩ := start_shape_old (hR p hp) hk hcf.1
  rw [hcf.2.1, hshape] at hcr
  obtain ⟨h1, σ, h2, e1, e2, e3, v1, v2, v3, v4⟩ := Join.c23_leaderless_verdict R.peers p _ gs' R.msgID (ps.map R.peers.str) ps
    (getPeerIDs_str hl ps) (hps.nodup_iff.2 hnd) (hps.mem_iff.2 hpc) hg _ r hcr
  rw [v4]
  intro q hq hne
  obtain ⟨pr, data, hd, hrd⟩ := hQ q (hps.mem_iff.1 hq) hne
  rw [mem_heard]
  rcases hd with ⟨rfl, hlen, hd⟩ | ⟨rfl, hd⟩
  · obtain ⟨ja, jb, hj, hja⟩ := reads_split hp hrd hlen (id := R.msgID) (body := .leaderless q)
      (fun chunks hch => by simp [readStream, readLeaderless, hch, hd]) hc hcf
    exact .inl (before_return (start_result hcf) hj hja e1 (by rw [hshape]; simp only; rw [e3]; simp))
  · obtain ⟨ja, jb, hj, hja⟩ := reads_split hp hrd hd.1 (fun chunks hch => read_isRequest hd q chunks hch) hc hcf
    exact .inr (before_return (start_result hcf) hj hja e1 (by rw [hshape]; simp only; rw [e3]; simp))

/-! ## C100 what is written to whom -/

/-- C100: with a leader. A member writes only its request, and only to the leader; the leader writes only its verdict, which is the result it returns,
and only to other members of the committee. -/
theorem c100_with_leader (hR : ∀ p, honest p = true → Takes R (env p) (job p) p) (hL : LedBy R committee leader) (hl : LawfulPeers R.peers)
    (h : List (NetEvent P S)) {p : P} (hp : honest p = true) (s : Send P S) (hs : s ∈ ((netRun env w job honest h).nodes p).sends) :
    s.proto = .joinPartyWithLeader ∧ ∃ m b, w.encComm m = some b ∧ (∀ st x, s.out = some (st, x) → x <+: Stream.frame b) ∧ m.id = R.msgID ∧
      (p ≠ leader ∧ s.peer = leader ∧ m.msgType = "request" ∨
       p = leader ∧ s.peer ∈ committee ∧ s.peer ≠ leader ∧ m.msgType = "response" ∧
        ∃ r, ((netRun env w job honest h).nodes leader).result = some r ∧ m.peerIDs = r.online.map R.peers.str ∧
          (r.err = none ∧ m.typ = .success ∨ r.err = some .timeout ∧ m.typ = .timeout)) := by
  obtain ⟨-, hnodes⟩ := net_inv env w job honest h
  have hn := hnodes p
  have hinv := node_inv (env p) w (job p) (histOf env w job honest h p)
  rw [← hn.1] at hinv
  obtain ⟨c, hc, hsi⟩ := hinv.1 s hs
  have hc' := hc
  rw [hn.1] at hc'
  obtain ⟨c₀, hcf⟩ := call_from _ _ _ _ _ hc'
  have hall : ∀ q ∈ allPeers (env p) (job p), q ∈ committee := by
    obtain ⟨ps, hps, hperm⟩ := peerIDs_perm R.codec (hR p hp).keys hL.keys
    intro q hq
    unfold allPeers at hq
    rw [(hR p hp).codec, hps] at hq
    simp only [(hR p hp).peers, getPeerIDs_str hl] at hq
    exact hperm.mem_iff.1 hq
  rcases start_shape (hR p hp) hL hl hcf.1 with ⟨rfl, gs', ps, hps, hg, hshape⟩ | ⟨hne, gs', hg, hshape⟩
  · have hce := hcf.2.1.trans (hshape _)
    rcases hsi with ⟨r', b, g1, g2, g3, g4, g5, g6⟩ | ⟨t, b, g1, -⟩ | ⟨k, b, g1, -⟩
    · refine ⟨g3, _, b, g2, g6, by rw [hce], .inr ⟨rfl, hall _ g4, by rw [← (hR p hp).me]; exact g5, rfl, ?_⟩⟩
      have hv := (callFrom_verdict hcf).1
      have hdone := (hv (by rw [g1]; simp)).1
      rw [hce] at hdone g1
      obtain ⟨r, hr⟩ := leader_done R.peers p R.threshold R.msgID gs' _ hdone
      have hnone : R.peers.str p ≠ "NONE" := fun he => by
        have := hl.decode_str p
        rw [he, hl.none] at this; cases this
      obtain ⟨h1, σ, h2, -, -, -, hverd⟩ := Join.c19_leader_verdict R.peers p _ gs' R.msgID (ps.map R.peers.str) ps R.threshold
        (getPeerIDs_str hl ps) hnone hg _ r hr
      refine ⟨r, ?_, ?_⟩
      · unfold Node.result
        rw [hc, hce]
        exact hr
      · simp only at g1
        rw [g1] at hverd
        rcases hverd with ⟨v1, -, -, v2⟩ | ⟨v1, -, -, v2⟩ | ⟨-, -, -, v2⟩
        · cases v2; exact ⟨rfl, .inl ⟨v1, rfl⟩⟩
        · cases v2; exact ⟨rfl, .inr ⟨v1, rfl⟩⟩
        · cases v2
    · rw [hce] at g1; cases g1
    · rw [hce] at g1; cases g1
  · have hce := hcf.2.1.trans (hshape _)
    rcases hsi with ⟨r', b, g1, -⟩ | ⟨t, b, g1, g2, g3, g4, g5⟩ | ⟨k, b, g1, -⟩
    · have hv := (callFrom_verdict hcf).1
      have := (hv (by rw [g1]; simp)).2
      rw [hce] at this
      simp at this
    · refine ⟨g4, _, b, g3, g5, by rw [hce], .inl ⟨hne, ?_, rfl⟩⟩
      rw [(hR p hp).peers, hce, hl.decode_str] at g2
      cases g2; rfl
    · rw [hce] at g1; cases g1

/-- C100: without a leader, a node writes only its request, and only to the other members of the committee. -/
theorem c100_without_leader (hR : ∀ p, honest p = true → TakesOld R (env p) (job p) p) (hk : GetPeerIDsFromPubKeys R.codec R.keys = .ok committee)
    (hl : LawfulPeers R.peers) (h : List (NetEvent P S)) {p : P} (hp : honest p = true) (s : Send P S)
    (hs : s ∈ ((netRun env w job honest h).nodes p).sends) :
    s.proto = .joinParty ∧ s.peer ∈ committee ∧ s.peer ≠ p ∧
      ∃ b, w.encReq R.msgID = some b ∧ ∀ st x, s.out = some (st, x) → x <+: Stream.frame b := by
  obtain ⟨-, hnodes⟩ := net_inv env w job honest h
  have hn := hnodes p
  have hinv := node_inv (env p) w (job p) (histOf env w job honest h p)
  rw [← hn.1] at hinv
  obtain ⟨c, hc, hsi⟩ := hinv.1 s hs
  have hc' := hc
  rw [hn.1] at hc'
  obtain ⟨c₀, hcf⟩ := call_from _ _ _ _ _ hc'
  have hall : ∀ q ∈ allPeers (env p) (job p), q ∈ committee := by
    obtain ⟨ps, hps, hperm⟩ := peerIDs_perm R.codec (hR p hp).keys hk
    intro q hq
    unfold allPeers at hq
    rw [(hR p hp).codec, hps] at hq
    simp only [(hR p hp).peers, getPeerIDs_str hl] at hq
    exact hperm.mem_iff.1 hq
  obtain ⟨gs', ps, hps, hg, hshape⟩ := start_shape_old (hR p hp) hk hcf.1
  have hce := hcf.2.1.trans (hshape _)
  rcases hsi with ⟨r', b, g1, -⟩ | ⟨t, b, g1, -⟩ | ⟨k, b, g1, g2, g3, g4, g5, g6⟩
  · have hv := (callFrom_verdict hcf).1
    have := (hv (by rw [g1]; simp)).2
    rw [hce] at this
    simp at this
  · rw [hce] at g1; cases g1
  · refine ⟨g5, hall _ g2, by rw [← (hR p hp).me]; exact g3, b, ?_, g6⟩
    rw [hce] at g4
    exact g4

/-- C100: a leader that has decided, and whose answers have all been tried, has tried to send its verdict exactly once to every other member of the
committee. (`pending` are the answers that have not been tried.) -/
theorem c100_verdict_once (hR : ∀ p, honest p = true → Takes R (env p) (job p) p) (hL : LedBy R committee leader) (hl : LawfulPeers R.peers)
    (hhl : honest leader = true) (h : List (NetEvent P S)) (r : Result P) (hres : ((netRun env w job honest h).nodes leader).result = some r)
    (hsig : r.err ≠ some .signReceived) (henc : (w.encComm ⟨R.msgID, "response", if r.err.isNone then .success else .timeout, r.online.map R.peers.str⟩).isSome) (hpend : ((netRun env w job honest h).nodes leader).pending = []) :
    ((netRun env w job honest h).nodes leader).sends.map Send.peer ~ committee.filter (· ≠ leader) := by
  obtain ⟨-, hnodes⟩ := net_inv env w job honest h
  have hn := hnodes leader
  obtain ⟨c, hc, hcr⟩ := result_call hres
  have hc' := hc
  rw [hn.1] at hc'
  obtain ⟨c₀, hcf⟩ := call_from _ _ _ _ _ hc'
  have hnone : R.peers.str leader ≠ "NONE" := fun he => by
    have := hl.decode_str leader
    rw [he, hl.none] at this; cases this
  rcases start_shape (hR leader hhl) hL hl hcf.1 with ⟨-, gs', ps, hps, hg, hshape⟩ | ⟨hne, -⟩
  · have hce := hcf.2.1.trans (hshape _)
    rw [hce] at hcr
    obtain ⟨h1, σ, h2, e1, e2, e3, hverd⟩ := Join.c19_leader_verdict R.peers leader _ gs' R.msgID (ps.map R.peers.str) ps R.threshold
      (getPeerIDs_str hl ps) hnone hg _ r hcr
    have hsent : ∃ v, c.st.sent = some v ∧ v.peerIDs = r.online.map R.peers.str ∧ v.typ = if r.err.isNone then .success else .timeout := by
      rw [hce]
      rcases hverd with ⟨h3, -, -, v⟩ | ⟨h3, -, -, v⟩ | ⟨v, -⟩
      · exact ⟨_, v, rfl, by rw [h3]; rfl⟩
      · exact ⟨_, v, rfl, by rw [h3]; rfl⟩
      · exact absurd v hsig
    obtain ⟨v, hv, hvp, hvt⟩ := hsent
    have hcount := count_inv (env leader) w (job leader) (histOf env w job honest h leader) c R.threshold hc' (by rw [hce])
    rw [← hn.1, hpend] at hcount
    simp only [hv, List.map_nil, List.filter_nil, List.append_nil] at hcount
    refine hcount.trans ?_
    obtain ⟨b, hb⟩ := Option.isSome_iff_exists.1 henc
    have hid : c.msgID = R.msgID := by rw [hce]
    rw [← hvp, ← hid, ← hvt] at hb
    obtain ⟨ps', hps', hperm⟩ := peerIDs_perm R.codec (hR leader hhl).keys hL.keys
    have hall : allPeers (env leader) (job leader) = ps' := by
      unfold allPeers
      rw [(hR leader hhl).codec, hps']
      simp only [(hR leader hhl).peers, getPeerIDs_str hl]
    unfold receivers sendResponseToAll
    rw [hb]
    simp only [hall, List.map_map, (hR leader hhl).me]
    have : (Prod.fst ∘ fun q : P => (q, b)) = id := rfl
    rw [this, List.map_id]
    exact hperm.filter _
  · exact absurd rfl hne

/-- a join call that has returned stays as it is -/
theorem result_fixed (h k : List (NetEvent P S)) {p : P} {r : Result P} (hres : ((netRun env w job honest h).nodes p).result = some r) :
    ((netRun env w job honest (h ++ k)).nodes p).result = some r := by
  obtain ⟨c, hc, hcr⟩ := result_call hres
  have hn := ((net_inv env w job honest h).2 p).1
  have hn' := ((net_inv env w job honest (h ++ k)).2 p).1
  rw [hn] at hc
  obtain ⟨c₀, hcf⟩ := call_from _ _ _ _ _ hc
  have hst := call_some (env p) w (job p) _ (by rw [hc]; simp)
  have hk : histOf env w job honest (h ++ k) p = histOf env w job honest h p ++ nodeHist env w job honest p (netRun env w job honest h) k := histOf_append _ _ _ _ _ _ _
  have hcall : ∃ c', (run (env p) w (job p) (histOf env w job honest (h ++ k) p)).call = some (.ok c') := by
    rw [hk, run_append]
    generalize nodeHist env w job honest p (netRun env w job honest h) k = evs
    clear hcf hcr hres hn hn' hk
    generalize run (env p) w (job p) (histOf env w job honest h p) = n at hc
    induction evs generalizing n c with
    | nil => exact ⟨c, hc⟩
    | cons e evs ih =>
      have : ∃ c', (step (env p) w (job p) n e).call = some (.ok c') := by
        cases e with
        | start gs => exact ⟨c, by simp only [step, hc]⟩
        | local_ e => simp only [step, hc]; split <;> exact ⟨_, by first | rfl | exact hc⟩
        | request q o => simp only [step, hc]; split <;> exact ⟨_, hc⟩
        | answer i o => simp only [step, hc]; repeat' split
                        all_goals first | exact ⟨_, hc⟩ | exact ⟨_, rfl⟩
        | incoming pr s q chunks => simp only [step, hc]; split <;> exact ⟨_, rfl⟩
        | release id => exact ⟨c, hc⟩
      obtain ⟨c', hc'⟩ := this
      exact ih _ _ hc'
  obtain ⟨c', hc'⟩ := hcall
  obtain ⟨c₁, hcf'⟩ := call_from _ _ _ _ _ hc'
  have hsame : c₁ = c₀ := by
    have h1 := hcf'.1
    rw [hk, startGroups_append _ _ hst, hcf.1] at h1
    cases h1; rfl
  subst hsame
  unfold Node.result
  rw [hn', hc']
  simp only
  rw [hcf'.2.1, hk, joinHist_append, if_pos hst]
  refine result_stays (env p) c₁ (start_result hcf) _ _ r ?_
  rw [← hcf.2.1]; exact hcr

/-- a member whose call has returned writes nothing -/
theorem member_quiet (env : Env P A H L) (w : Wire) (job : Job) (hp : List (Event P S)) (c : JoinCall P) (t : Int)
    (hc : (run env w job hp).call = some (.ok c)) (hk : c.kind = .member t) (hd : c.st.phase = .done) (e : Event P S) :
    (step env w job (run env w job hp) e).sends = (run env w job hp).sends := by
  have hinv := node_inv env w job hp
  have hv : VerdictInv c := by
    obtain ⟨c₀, h⟩ := call_from env w job hp c hc
    exact (callFrom_verdict h).1
  generalize run env w job hp = n at *
  cases e with
  | start gs => simp only [step, hc]
  | local_ e => simp only [step, hc]; split <;> rfl
  | request q o =>
    have : wish env w job c q = none := by simp [wish, hk, hd]
    simp only [step, hc, this]
  | answer i o =>
    simp only [step, hc]
    split
    · rename_i q b _ hq
      obtain ⟨c', r, h1, h2, -⟩ := hinv.2 _ _ (List.mem_of_getElem? hq)
      rw [hc] at h1; cases h1
      obtain ⟨-, t', ht'⟩ := hv (by rw [h2]; simp)
      rw [hk] at ht'; cases ht'
    · rfl
  | incoming pr s q chunks => rfl
  | release id => rfl

theorem step_other {net : Net P S} {p : P} (e : NetEvent P S) : (netStep env w job honest net e).nodes p = net.nodes p ∨
    ∃ ev, (netStep env w job honest net e).nodes p = step (env p) w (job p) (net.nodes p) ev := by
  have upd : ∀ (q : P) (ev : Event P S), net.update q (step (env q) w (job q) (net.nodes q) ev) p = net.nodes p ∨
      ∃ ev', net.update q (step (env q) w (job q) (net.nodes q) ev) p = step (env p) w (job p) (net.nodes p) ev' := fun q ev => by
    unfold Net.update
    split
    · rename_i he; subst he; exact .inr ⟨ev, rfl⟩
    · exact .inl rfl
  cases e with
  | at_ q ev =>
    simp only [netStep]
    split
    · exact upd q ev
    · exact .inl rfl
  | deliver i s chunks =>
    simp only [netStep]
    split
    · exact .inl rfl
    · split
      · exact upd _ _
      · exact .inl rfl
  | foreign pr s p' q chunks =>
    simp only [netStep]
    split
    · exact upd q _
    · exact .inl rfl

/-- C100: a member writes nothing after its join call has returned. -/
theorem c100_member_stops (hR : ∀ p, honest p = true → Takes R (env p) (job p) p) (hL : LedBy R committee leader) (hl : LawfulPeers R.peers)
    (h k : List (NetEvent P S)) {p : P} (hp : honest p = true) (hpl : p ≠ leader) (r : Result P)
    (hres : ((netRun env w job honest h).nodes p).result = some r) :
    ((netRun env w job honest (h ++ k)).nodes p).sends = ((netRun env w job honest h).nodes p).sends := by
  induction k using List.reverseRecOn with
  | nil => rw [List.append_nil]
  | append_singleton k e ih =>
    rw [← ih, ← List.append_assoc, netRun_snoc]
    have hr := result_fixed h k hres
    obtain ⟨c, hc, hcr⟩ := result_call hr
    have hn := ((net_inv env w job honest (h ++ k)).2 p).1
    rcases step_other (env := env) (w := w) (job := job) (honest := honest) (net := netRun env w job honest (h ++ k)) (p := p) e with h1 | ⟨ev, h1⟩
    · rw [h1]
    · rw [h1, hn]
      rw [hn] at hc
      obtain ⟨c₀, hcf⟩ := call_from _ _ _ _ _ hc
      rcases start_shape (hR p hp) hL hl hcf.1 with ⟨he, -⟩ | ⟨-, gs', hg, hshape⟩
      · exact absurd he hpl
      · refine member_quiet _ _ _ _ c R.threshold hc ?_ ?_ ev
        · rw [hcf.2.1, hshape]
        · have hi := (fold_result (env p) (joinHist w (histOf env w job honest (h ++ k) p)) c₀ (fun hx => absurd (start_result hcf) hx)).1
          rw [← hcf.2.1] at hi
          exact hi (by rw [hcr]; simp)

end net

/-! ## C101 what becomes of the streams -/

/-- Specification: the id under which an incoming stream is kept -/
def keyOf (w : Wire) (pr : Proto) (chunks : List Bytes) : String :=
  match (Stream.ReadStreamWithBuffer chunks).1 with
  | .ok data =>
    match pr with
    | .joinParty => (w.decReq data).getD "UNKNOWN"
    | .joinPartyWithLeader =>
      match w.decReq data, w.decComm data with
      | some _, some m => if m.msgType = "request" ∨ m.msgType = "response" then m.id else "UNKNOWN"
      | _, _ => "UNKNOWN"
  | _ => "UNKNOWN"

theorem readStream_key (w : Wire) (pr : Proto) (p : P) (chunks : List Bytes) : (readStream w pr p chunks).1 = keyOf w pr chunks := by
  unfold keyOf
  cases pr with
  | joinParty =>
    simp only [readStream, readLeaderless]
    cases (Stream.ReadStreamWithBuffer chunks).1 with
    | ok data => simp only; cases w.decReq data <;> rfl
    | err e => rfl
    | panic => rfl
  | joinPartyWithLeader =>
    simp only [readStream, readWithLeader]
    cases (Stream.ReadStreamWithBuffer chunks).1 with
    | ok data =>
      simp only
      cases w.decReq data with
      | none => rfl
      | some id =>
        simp only
        cases w.decComm data with
        | none => rfl
        | some m =>
          simp only
          by_cases h1 : m.msgType = "request"
          · simp [h1]
          · by_cases h2 : m.msgType = "response"
            · simp [h2]
            · simp [h1, h2]
    | err e => rfl
    | panic => rfl

/-- the calls of the stream manager that an event of a node makes -/
def opsAt (w : Wire) (msgID : String) (n n' : Node P S) : Event P S → List (StreamMgr.Op S)
  | .incoming pr s _ chunks => [.add (keyOf w pr chunks) s]
  | .release id => [.release id]
  | _ => (n'.sends.drop n.sends.length).map fun x => match x.out with
    | some (s, _) => .add msgID s
    | none => .addNil msgID

/-- the calls of the stream manager in a history of a node -/
def opsOf (env : Env P A H L) (w : Wire) (job : Job) : Node P S → List (Event P S) → List (StreamMgr.Op S)
  | _, [] => []
  | n, e :: h => opsAt w job.msgID n (step env w job n e) e ++ opsOf env w job (step env w job n e) h

theorem opsOf_append (env : Env P A H L) (w : Wire) (job : Job) (n : Node P S) (a b : List (Event P S)) :
    opsOf env w job n (a ++ b) = opsOf env w job n a ++ opsOf env w job (a.foldl (step env w job) n) b := by
  induction a generalizing n with
  | nil => rfl
  | cons e a ih => simp [opsOf, ih]

theorem call_msgID (env : Env P A H L) (w : Wire) (job : Job) (hp : List (Event P S)) (c : JoinCall P)
    (hc : (run env w job hp).call = some (.ok c)) : c.msgID = job.msgID := by
  obtain ⟨c₀, h⟩ := call_from env w job hp c hc
  rw [h.2.1, (fold_kind env _ c₀).2.2]
  exact (joinParty_start h.1).2.2

theorem streams_ops (env : Env P A H L) (w : Wire) (job : Job) (h : List (Event P S)) :
    (run env w job h).streams = StreamMgr.run (opsOf env w job {} h) := by
  induction h using List.reverseRecOn with
  | nil => rfl
  | append_singleton h e ih =>
    rw [run_snoc, opsOf_append]
    simp only [StreamMgr.run, List.foldl_append, opsOf, List.append_nil]
    have hrun : List.foldl (step env w job) {} h = run env w job h := rfl
    rw [hrun]
    simp only [StreamMgr.run] at ih
    rw [← ih]
    have hid := call_msgID env w job h
    generalize run env w job h = n at *
    have hsent : ∀ (n : Node P S) (c : JoinCall P) (pr : Proto) (q : P) (o : Option (S × Bytes)), c.msgID = job.msgID →
        (n.sent c.msgID pr q o).streams = List.foldl StreamMgr.step n.streams (((n.sent c.msgID pr q o).sends.drop n.sends.length).map
          fun x => match x.out with | some (s, _) => .add job.msgID s | none => .addNil job.msgID) := by
      intro n c pr q o he
      rw [(sent_call _ _ _ _ _).2.2, List.drop_left]
      rcases o with _ | ⟨s, b⟩ <;> simp [Node.sent, StreamMgr.step, he]
    cases e with
    | start gs => simp only [step, opsAt]; split <;> simp
    | local_ e => simp only [step, opsAt]; repeat' split
                  all_goals simp
    | request q o =>
      simp only [step, opsAt]
      split
      · rename_i c hc
        split
        · simp
        · exact hsent _ c _ _ _ (hid c hc)
      · simp
    | answer i o =>
      simp only [step, opsAt]
      split
      · rename_i c q b hc hq
        split
        · simp
        · exact hsent _ c _ _ _ (hid c hc)
      · simp
    | incoming pr s q chunks => simp [step, opsAt, StreamMgr.step, readStream_key]
    | release id => simp [step, opsAt, StreamMgr.step]

/-- C101: once the streams of a message id are released, every stream that arrived with a join message of this id, or with nothing readable, has been
reset. -/
theorem c101_incoming_reset (env : Env P A H L) (w : Wire) (job : Job) (a b : List (Event P S)) (pr : Proto) (s : S) (p : P) (chunks : List Bytes)
    (id : String) (hid : keyOf w pr chunks = id ∨ keyOf w pr chunks = "UNKNOWN") :
    s ∈ (run env w job (a ++ .incoming pr s p chunks :: b ++ [.release id])).streams.resets := by
  rw [streams_ops, opsOf_append]
  refine StreamRelease.c13_released_streams_reset _ id s ?_
  rw [opsOf_append]
  have : StreamMgr.Op.add (keyOf w pr chunks) s ∈ opsOf env w job (a.foldl (step env w job) {}) (.incoming pr s p chunks :: b) := by
    simp [opsOf, opsAt]
  rcases hid with h | h
  · rw [h] at this; exact .inl (List.mem_append_right _ this)
  · rw [h] at this; exact .inr (List.mem_append_right _ this)

theorem sends_ops (env : Env P A H L) (w : Wire) (job : Job) (h : List (Event P S)) (x : Send P S) (s : S) (b : Bytes) (ho : x.out = some (s, b)) :
    x ∈ (run env w job h).sends → StreamMgr.Op.add job.msgID s ∈ opsOf env w job {} h := by
  induction h using List.reverseRecOn with
  | nil => simp [run]
  | append_singleton h e ih =>
    intro hx
    rw [opsOf_append]
    rw [run_snoc] at hx
    obtain ⟨k, hk⟩ := sends_mono env w job (run env w job h) e
    rw [← hk] at hx
    rcases List.mem_append.1 hx with hx | hx
    · exact List.mem_append_left _ (ih hx)
    · refine List.mem_append_right _ ?_
      simp only [opsOf, List.append_nil]
      have hrun : List.foldl (step env w job) {} h = run env w job h := rfl
      rw [hrun]
      have hdrop : (step env w job (run env w job h) e).sends.drop (run env w job h).sends.length = k := by rw [← hk, List.drop_left]
      cases e with
      | incoming pr s q chunks =>
        simp only [step] at hk
        rw [show k = [] by simpa using hk] at hx
        simp at hx
      | release id =>
        simp only [step] at hk
        rw [show k = [] by simpa using hk] at hx
        simp at hx
      | _ =>
        simp only [opsAt, hdrop]
        exact List.mem_map.2 ⟨x, hx, by rw [ho]⟩

/-- C101: once the streams of a message id are released, every stream that the node opened to form this party has been reset. -/
theorem c101_outgoing_reset (env : Env P A H L) (w : Wire) (job : Job) (h : List (Event P S)) (x : Send P S) (s : S) (b : Bytes)
    (ho : x.out = some (s, b)) (hx : x ∈ (run env w job h).sends) : s ∈ (run env w job (h ++ [.release job.msgID])).streams.resets := by
  rw [streams_ops, opsOf_append]
  exact StreamRelease.c13_released_streams_reset _ _ s (.inl (sends_ops env w job h x s b ho hx))

/-- where a stream that is kept under an id comes from -/
def Origin (env : Env P A H L) (w : Wire) (job : Job) (h : List (Event P S)) (id : String) (s : S) : Prop :=
  (∃ pr p chunks, .incoming pr s p chunks ∈ h ∧ keyOf w pr chunks = id) ∨
  (∃ x y, x ∈ (run env w job h).sends ∧ x.out = some (s, y) ∧ job.msgID = id)

theorem Origin.snoc {env : Env P A H L} {w : Wire} {job : Job} {h : List (Event P S)} {id : String} {s : S} (ho : Origin env w job h id s)
    (e : Event P S) : Origin env w job (h ++ [e]) id s := by
  rcases ho with ⟨pr, p, chunks, h1, h2⟩ | ⟨x, y, h1, h2⟩
  · exact .inl ⟨pr, p, chunks, List.mem_append_left _ h1, h2⟩
  · refine .inr ⟨x, y, ?_, h2⟩
    rw [run_snoc]
    exact (sends_mono env w job _ e).subset h1

theorem step_streams (env : Env P A H L) (w : Wire) (job : Job) (h : List (Event P S)) (e : Event P S) :
    (run env w job (h ++ [e])).streams = (run env w job h).streams ∨
    (∃ id, e = .release id ∧ (run env w job (h ++ [e])).streams = StreamMgr.releaseStream (run env w job h).streams id) ∨
    (∃ pr s p chunks, e = .incoming pr s p chunks ∧
      (run env w job (h ++ [e])).streams = StreamMgr.addStream (run env w job h).streams (keyOf w pr chunks) (some s)) ∨
    (∃ x ∈ (run env w job (h ++ [e])).sends,
      (run env w job (h ++ [e])).streams = StreamMgr.addStream (run env w job h).streams job.msgID (x.out.map Prod.fst)) := by
  rw [run_snoc]
  have hid := call_msgID env w job h
  generalize run env w job h = n at *
  cases e with
  | start gs => left; simp only [step]; split <;> rfl
  | local_ e => left; simp only [step]; repeat' split
                all_goals rfl
  | request q o =>
    simp only [step]
    split
    · rename_i c hc
      split
      · exact .inl rfl
      · rename_i pr b hw
        refine .inr (.inr (.inr ⟨⟨pr, q, sendMsgToPeer b o⟩, ?_, ?_⟩))
        · rw [(sent_call _ _ _ _ _).2.2]; simp
        · rw [hid c hc]; rfl
    · exact .inl rfl
  | answer i o =>
    simp only [step]
    split
    · rename_i c q b hc hq
      split
      · exact .inl rfl
      · refine .inr (.inr (.inr ⟨⟨.joinPartyWithLeader, q, sendMsgToPeer b o⟩, ?_, ?_⟩))
        · rw [(sent_call _ _ _ _ _).2.2]; simp
        · rw [hid c hc]; rfl
    · exact .inl rfl
  | incoming pr s q chunks => exact .inr (.inr (.inl ⟨pr, s, q, chunks, rfl, by simp only [step, readStream_key]⟩))
  | release id => exact .inr (.inl ⟨id, rfl, rfl⟩)

theorem retained_origin (env : Env P A H L) (w : Wire) (job : Job) (h : List (Event P S)) (id : String) (s : S)
    (hr : s ∈ StreamRelease.retained (run env w job h).streams id) : Origin env w job h id s := by
  induction h using List.reverseRecOn generalizing id with
  | nil => simp [run, StreamRelease.retained, StreamMgr.init] at hr
  | append_singleton h e ih =>
    rcases step_streams env w job h e with hh | ⟨id', -, hh⟩ | ⟨pr, s', p, chunks, rfl, hh⟩ | ⟨x, hx, hh⟩
    · rw [hh] at hr; exact (ih id hr).snoc e
    · rw [hh, StreamRelease.retained_release] at hr
      split at hr
      · simp at hr
      · exact (ih id hr).snoc e
    · rw [hh, StreamRelease.retained_add] at hr
      split at hr
      · rename_i he
        rcases List.mem_append.1 hr with hr | hr
        · rw [← he] at hr; exact (ih id hr).snoc _
        · rw [List.mem_singleton] at hr
          subst hr
          exact .inl ⟨pr, p, chunks, by simp, he.symm⟩
      · exact (ih id hr).snoc _
    · rcases ho : x.out with _ | ⟨s', y⟩
      · rw [hh, ho] at hr; exact (ih id hr).snoc e
      · rw [hh, ho, Option.map_some, StreamRelease.retained_add] at hr
        split at hr
        · rename_i he
          rcases List.mem_append.1 hr with hr | hr
          · rw [← he] at hr; exact (ih id hr).snoc _
          · rw [List.mem_singleton] at hr
            subst hr
            exact .inr ⟨x, y, hx, ho, he.symm⟩
        · exact (ih id hr).snoc _

/-- C101: a stream is reset only by a release, and only if it was opened to form the released party, or arrived with a message of the released id or
with nothing readable. -/
theorem c101_only (env : Env P A H L) (w : Wire) (job : Job) (h : List (Event P S)) (s : S) (hs : s ∈ (run env w job h).streams.resets) :
    ∃ a id b, h = a ++ .release id :: b ∧
      ((∃ pr p chunks, .incoming pr s p chunks ∈ a ∧ (keyOf w pr chunks = id ∨ keyOf w pr chunks = "UNKNOWN")) ∨
       (∃ x y, x ∈ (run env w job a).sends ∧ x.out = some (s, y) ∧ (id = job.msgID ∨ job.msgID = "UNKNOWN"))) := by
  induction h using List.reverseRecOn with
  | nil => simp [run, StreamMgr.init] at hs
  | append_singleton h e ih =>
    have old : s ∈ (run env w job h).streams.resets → ∃ a id b, h ++ [e] = a ++ .release id :: b ∧
        ((∃ pr p chunks, .incoming pr s p chunks ∈ a ∧ (keyOf w pr chunks = id ∨ keyOf w pr chunks = "UNKNOWN")) ∨
         (∃ x y, x ∈ (run env w job a).sends ∧ x.out = some (s, y) ∧ (id = job.msgID ∨ job.msgID = "UNKNOWN"))) := fun hold => by
      obtain ⟨a, id, b, h1, h2⟩ := ih hold
      exact ⟨a, id, b ++ [e], by rw [h1]; simp, h2⟩
    rcases step_streams env w job h e with hh | ⟨id', rfl, hh⟩ | ⟨pr, s', p, chunks, rfl, hh⟩ | ⟨x, hx, hh⟩
    · rw [hh] at hs; exact old hs
    · rw [hh, StreamRelease.resets_release] at hs
      rcases List.mem_append.1 hs with hs | hs
      · exact old hs
      · refine ⟨h, id', [], rfl, ?_⟩
        rcases List.mem_append.1 hs with hs | hs
        · rcases retained_origin env w job h _ s hs with ⟨pr, p, chunks, h1, h2⟩ | ⟨x, y, h1, h2, h3⟩
          · exact .inl ⟨pr, p, chunks, h1, .inl h2⟩
          · exact .inr ⟨x, y, h1, h2, .inl h3.symm⟩
        · rcases retained_origin env w job h _ s hs with ⟨pr, p, chunks, h1, h2⟩ | ⟨x, y, h1, h2, h3⟩
          · exact .inl ⟨pr, p, chunks, h1, .inr h2⟩
          · exact .inr ⟨x, y, h1, h2, .inr h3⟩
    · rw [hh, StreamRelease.resets_add] at hs; exact old hs
    · rw [hh, StreamRelease.resets_add] at hs; exact old hs

/-! ## Concrete cases -/

open Verif.Spec.DemoServer Verif.Spec.DemoJoinNet

def demoOld : Round Nat Nat := ⟨DemoServer.codec, DemoServer.peers, fun s => s.length, "m", 5, [key 0, key 1], 1⟩

theorem demoTakesOld (p : Nat) (hp : DemoJoinNet.honest p = true) : TakesOld demoOld (envs p) (oldJob p) p := by
  have : p = 10 ∨ p = 11 := by simpa [DemoJoinNet.honest] using hp
  rcases this with rfl | rfl
  · exact ⟨rfl, rfl, rfl, by decide +kernel, rfl, List.Perm.refl _⟩
  · exact ⟨rfl, rfl, rfl, by decide +kernel, rfl, by decide +kernel⟩

/-- C99: 11 reports everybody. -/
example : ([10, 11] : List Nat) ~ [10, 11] :=
  ((c99_everybody demoTakesOld (by decide +kernel) (by decide) lawfulPeers demoWire met (p := 11) rfl (by decide) ⟨[10, 11], none⟩
    (by decide +kernel)).2.2.2.2).1 rfl

/-- C99: 11 reads the request of 10 in time. -/
example : (⟨[10, 11], none⟩ : Result Nat).err = none := by
  refine c99_nobody_missing demoTakesOld (committee := [10, 11]) (by decide +kernel) (by decide) lawfulPeers met (p := 11) rfl (by decide) ?_ _
    (show ((netRun envs wire oldJob DemoJoinNet.honest met).nodes 11).result = some ⟨[10, 11], none⟩ by decide +kernel)
  intro q hq hne
  have : q = 10 := by simp at hq; omega
  subst this
  exact ⟨.joinParty, [0], .inl ⟨rfl, by decide, rfl⟩, met.take 5, .deliver 0 4 (framed [0]), met.drop 6, rfl, joining_iff (by decide +kernel), 4,
    framed [0], by decide +kernel, .inl ⟨0, by decide +kernel, rfl⟩⟩

/-- C99 does not say that all nodes report the same: 10 has formed the party with 11, while 11 reports a timeout. -/
theorem c99_one_sided :
    ((netRun envs wire oldJob DemoJoinNet.honest half).nodes 10).result = some ⟨[11, 10], none⟩ ∧
    ((netRun envs wire oldJob DemoJoinNet.honest half).nodes 11).result = some ⟨[11], some .timeout⟩ := by decide +kernel

/-- C100: the members of the committee other than the leader get the verdict once; all answers of `formed` and three more have been tried. -/
example : ((netRun envs wire DemoJoinNet.job DemoJoinNet.honest (formed ++ [.at_ 10 (.answer 0 .noStream), .at_ 10 (.answer 0 .noStream)])).nodes 10).sends.map
    Send.peer ~ [11, 12] :=
  c100_verdict_once demoTakes demoLed lawfulPeers rfl _ ⟨[11, 10], none⟩ (by decide +kernel) (by decide)
    (by decide +kernel) (by decide +kernel)

/-- C100: 11 has written its request to the leader, and nothing after it returned. -/
example : ((netRun envs wire DemoJoinNet.job DemoJoinNet.honest (formed ++ [.at_ 11 (.request 10 (.stream 9 none))])).nodes 11).sends.length = 1 := by
  rw [c100_member_stops demoTakes demoLed lawfulPeers formed _ (p := 11) rfl (by decide) ⟨[11, 10], none⟩ (by decide +kernel)]
  decide +kernel

example : ((netRun envs wire DemoJoinNet.job DemoJoinNet.honest formed).nodes 10).sends.map Send.peer = [11] ∧
    ((netRun envs wire oldJob DemoJoinNet.honest met).nodes 10).sends.map Send.peer = [11] := by decide +kernel

/-- C101: the streams 1, opened to the leader, and 4, on which the verdict came, are reset when "m" is released. -/
example : (run (envs 11) wire (DemoJoinNet.job 11) ([.start [], .request 10 (.stream 1 none), .incoming .joinPartyWithLeader 4 10 (framed [1, 1]),
    .incoming .joinParty 5 12 [[7]], .release "m"] : List (JoinNet.Event Nat Nat))).streams.resets = [1, 4, 5] := by decide +kernel

end Verif.Props.Parties
