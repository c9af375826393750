import Verif.Lemmas.JoinNet
import Verif.Props.C87_C91
import Verif.Props.C08
import Verif.Spec.DemoJoinNet

/-! # C97, C98: networks of nodes that form a party -/
set_option linter.unusedSectionVars false
namespace Verif.Props.Parties
open Verif.Go Verif.Conversion Verif.JoinParty Verif.Server Verif.JoinNet Verif.Spec.Server Verif.Spec
open scoped List

variable {P S A H L : Type} [DecidableEq P] [LinearOrder A] [LinearOrder H]

/-! ## Specification -/

/-- What is common to the nodes that were given the same request. -/
structure Round (P H : Type) where
  codec : Codec Str P
  peers : PeerCodec P
  sha : String → H
  msgID : String
  blockHeight : Int
  keys : List Str
  threshold : Int

/-- Node `p` was given the request `R`, of a version with leaders; the keys may be listed in another order. -/
structure Takes (R : Round P H) (env : Env P A H L) (job : Job) (p : P) : Prop where
  me : env.me = p
  codec : env.codec = R.codec
  peers : env.peers = R.peers
  sha : env.shaLeader = R.sha
  withLeader : Version.VersionLTCheck env.parseVer job.version env.gate = .ok false
  msgID : job.msgID = R.msgID
  blockHeight : job.blockHeight = R.blockHeight
  keys : job.keys ~ R.keys
  threshold : job.threshold = R.threshold

/-- The keys of the request belong to the peers `committee`, and `leader` has the smallest hash among them. -/
structure LedBy (R : Round P H) (committee : List P) (leader : P) : Prop where
  keys : GetPeerIDsFromPubKeys R.codec R.keys = .ok committee
  mem : leader ∈ committee
  least : ∀ p ∈ committee, p ≠ leader →
    R.sha (R.msgID ++ toString R.blockHeight ++ R.peers.str leader) < R.sha (R.msgID ++ toString R.blockHeight ++ R.peers.str p)

/-- Messages survive encoding, and are shorter than 4 GiB; a message of the protocol with a leader begins like one of the protocol without. -/
structure LawfulWire (w : Wire) : Prop where
  comm : ∀ m b, w.encComm m = some b → w.decComm b = some m ∧ (w.decReq b).isSome ∧ b.length < 2 ^ 32
  req : ∀ id b, w.encReq id = some b → w.decReq b = some id ∧ b.length < 2 ^ 32

/-- The join call of a node is running or has run. -/
def Joined (n : Node P S) : Prop := ∃ c, n.call = some (.ok c)

/-- The join call of a node has started and has not returned. -/
def Joining (n : Node P S) : Prop := ∃ c, n.call = some (.ok c) ∧ c.st.result = none

/-- Node `p` reads from `q` the whole message `data`, sent with protocol `pr`, while its join call is running. -/
def ReadsInTime (env : P → Env P A H L) (w : Wire) (job : P → Job) (honest : P → Bool) (h : List (NetEvent P S)) (p q : P) (pr : Proto) (data : Bytes) :
    Prop :=
  ∃ a e b, h = a ++ e :: b ∧ Joining ((netRun env w job honest a).nodes p) ∧ ∃ s chunks, chunks.flatten = Stream.frame data ∧
    ((∃ i, (netRun env w job honest a).pool[i]? = some (q, p, pr, Stream.frame data) ∧ e = .deliver i s chunks) ∨
     (honest q = false ∧ e = .foreign pr s q p chunks))

/-- `data` is a request to join the party `id`. -/
def IsRequest (w : Wire) (id : String) (data : Bytes) : Prop :=
  data.length ≤ Stream.MaxPayload ∧ (w.decReq data).isSome ∧ ∃ t l, w.decComm data = some ⟨id, "request", t, l⟩

/-- `data` is a verdict about the party `id`. -/
def IsVerdict (w : Wire) (id : String) (data : Bytes) : Prop :=
  data.length ≤ Stream.MaxPayload ∧ (w.decReq data).isSome ∧ ∃ t l, w.decComm data = some ⟨id, "response", t, l⟩

/-! ## the election -/

theorem str_inj {cd : PeerCodec P} (hl : LawfulPeers cd) {p q : P} (h : cd.str p = cd.str q) : p = q := by
  have h1 := hl.decode_str p
  rw [h, hl.decode_str] at h1
  cases h1; rfl

theorem peerIDs_perm (c : Codec Str P) {keys keys' : List Str} (hp : keys' ~ keys) {l : List P} (h : GetPeerIDsFromPubKeys c keys = .ok l) :
    ∃ l', GetPeerIDsFromPubKeys c keys' = .ok l' ∧ l' ~ l := by
  rw [getPeerIDs_forall₂] at h
  obtain ⟨l', h1, h2⟩ := List.perm_comp_forall₂ hp h
  exact ⟨l', (getPeerIDs_forall₂ c keys' l').2 h1, h2⟩

theorem elected {R : Round P H} {committee : List P} {leader : P} (h : LedBy R committee leader) {l : List P} (hp : l ~ committee) {x : String}
    (hx : Leader.LeaderNode R.sha R.msgID R.blockHeight (l.map R.peers.str) = .ok x) : x = R.peers.str leader := by
  obtain ⟨h1, h2⟩ := C08.c08_leader_is_min R.sha R.msgID R.blockHeight (l.map R.peers.str) x hx
  rw [List.mem_map] at h1
  obtain ⟨p, hp1, rfl⟩ := h1
  by_cases he : p = leader
  · rw [he]
  · have h3 := h.least p (hp.mem_iff.1 hp1) he
    have h4 := h2 (R.peers.str leader) (List.mem_map.2 ⟨leader, hp.mem_iff.2 h.mem, rfl⟩)
    exact absurd h3 (not_lt.2 h4)

/-- what the join call of a node of the round is -/
theorem start_shape {R : Round P H} {committee : List P} {leader p : P} {env : Env P A H L} {job : Job} (hR : Takes R env job p)
    (hL : LedBy R committee leader) (hl : LawfulPeers R.peers) {gs : Groups P} {c₀ : JoinCall P}
    (h1 : joinParty env gs job.msgID job.version job.blockHeight job.keys job.threshold = .ok c₀) :
    (p = leader ∧ ∃ gs' ps, ps ~ committee ∧ createJoinPartyGroups R.peers p gs R.msgID (R.peers.str p) (ps.map R.peers.str) R.threshold = .ok gs' ∧
      ∀ jh : List (JoinParty.Event P), jh.foldl (JoinCall.step env) c₀ = ⟨.leader R.threshold, R.peers.str leader, R.msgID, runLeader R.peers p R.threshold R.msgID gs' jh⟩) ∨
    (p ≠ leader ∧ ∃ gs', createJoinPartyGroups R.peers p gs R.msgID (R.peers.str leader) [R.peers.str leader] R.threshold = .ok gs' ∧
      ∀ jh : List (JoinParty.Event P), jh.foldl (JoinCall.step env) c₀ = ⟨.member R.threshold, R.peers.str leader, R.msgID, runMember R.peers R.threshold R.msgID gs' jh⟩) := by
  obtain ⟨rfl, h2, h3, h4, h5, h6, h7, h8, h9⟩ := hR
  obtain ⟨ps, hps, hperm⟩ := peerIDs_perm R.codec h8 hL.keys
  unfold joinParty at h1
  rw [h5] at h1
  simp only [h2, hps, h3, h4, h6, h7, h9] at h1
  split at h1
  · cases h1
  · split at h1
    · rename_i x hx
      have hxe := elected hL hperm hx
      subst hxe
      split at h1
      · rename_i hme
        have hme' := str_inj hl hme
        obtain ⟨gs', hg, rfl⟩ := startJoin_ok h1
        rw [h3] at hg
        refine .inl ⟨hme', gs', ps, hperm, ?_, fun jh => ?_⟩
        · rw [← hg, hme']
        · rw [fold_leader, h3]; rfl
      · rename_i hme
        obtain ⟨gs', hg, rfl⟩ := startJoin_ok h1
        rw [h3] at hg
        refine .inr ⟨fun he => hme (by rw [he]), gs', hg, fun jh => ?_⟩
        rw [fold_member, h3]; rfl
    · cases h1

theorem call_shape {R : Round P H} {committee : List P} {leader p : P} {env : Env P A H L} {w : Wire} {job : Job} (hR : Takes R env job p)
    (hL : LedBy R committee leader) (hl : LawfulPeers R.peers) {hp : List (Event P S)} {c c₀ : JoinCall P} {jh : List (JoinParty.Event P)}
    (h : CallFrom env w job hp c c₀ jh) :
    (p = leader ∧ ∃ gs gs' ps, ps ~ committee ∧ createJoinPartyGroups R.peers p gs R.msgID (R.peers.str p) (ps.map R.peers.str) R.threshold = .ok gs' ∧
      c = ⟨.leader R.threshold, R.peers.str leader, R.msgID, runLeader R.peers p R.threshold R.msgID gs' jh⟩) ∨
    (p ≠ leader ∧ ∃ gs gs', createJoinPartyGroups R.peers p gs R.msgID (R.peers.str leader) [R.peers.str leader] R.threshold = .ok gs' ∧
      c = ⟨.member R.threshold, R.peers.str leader, R.msgID, runMember R.peers R.threshold R.msgID gs' jh⟩) := by
  rcases start_shape hR hL hl h.1 with ⟨h1, gs', ps, h2, h3, h4⟩ | ⟨h1, gs', h3, h4⟩
  · exact .inl ⟨h1, _, gs', ps, h2, h3, h.2.1.trans (h4 _)⟩
  · exact .inr ⟨h1, _, gs', h3, h.2.1.trans (h4 _)⟩

/-! ## what can be read -/

theorem mem_answers (cd : PeerCodec P) (id leader : String) (h : List (JoinParty.Event P)) (r : Resp) :
    r ∈ answers cd id leader h ↔ ∃ p, cd.str p = leader ∧ .incoming id (.response p r) ∈ h := by
  induction h with
  | nil => simp [answers]
  | cons e h ih =>
    rcases e with ⟨id', _ | _ | ⟨p, r'⟩⟩ | _ | _ | _ | _ | _ <;> simp only [answers, ih, List.mem_cons, reduceCtorEq, false_or,
      JoinParty.Event.incoming.injEq, and_false]
    split
    · rename_i hc
      obtain ⟨rfl, rfl⟩ := hc
      simp only [List.mem_cons, ih]
      constructor
      · rintro (rfl | ⟨q, h1, h2⟩)
        · exact ⟨p, rfl, .inl ⟨trivial, rfl⟩⟩
        · exact ⟨q, h1, .inr h2⟩
      · rintro ⟨q, h1, ⟨-, h2⟩ | h2⟩
        · simp only [Body.response.injEq] at h2
          exact .inl h2.2
        · exact .inr ⟨q, h1, h2⟩
    · rename_i hc
      rw [ih]
      constructor
      · rintro ⟨q, h1, h2⟩
        exact ⟨q, h1, .inr h2⟩
      · rintro ⟨q, h1, ⟨h2, h3⟩ | h2⟩
        · simp only [Body.response.injEq] at h3
          obtain ⟨rfl, rfl⟩ := h3
          exact absurd ⟨h2.symm, h1⟩ hc
        · exact ⟨q, h1, h2⟩

theorem mem_heard (id : String) (h : List (JoinParty.Event P)) (p : P) :
    p ∈ heard id h ↔ .incoming id (.leaderless p) ∈ h ∨ .incoming id (.request p) ∈ h := by
  induction h with
  | nil => simp [heard]
  | cons e h ih =>
    rcases e with ⟨id', q | q | ⟨q, r'⟩⟩ | _ | _ | _ | _ | _ <;> simp only [heard, List.mem_cons, reduceCtorEq, false_or,
      JoinParty.Event.incoming.injEq, and_false]
    all_goals try exact ih
    · split
      · rename_i hc
        subst hc
        simp only [List.mem_cons, ih, true_and, Body.leaderless.injEq]
        tauto
      · rename_i hc
        rw [ih]
        constructor
        · tauto
        · rintro ((⟨h1, -⟩ | h1) | h1)
          · exact absurd h1.symm hc
          · exact .inl h1
          · exact .inr h1
    · split
      · rename_i hc
        subst hc
        simp only [List.mem_cons, ih, true_and, Body.request.injEq]
        tauto
      · rename_i hc
        rw [ih]
        constructor
        · tauto
        · rintro (h1 | ⟨h1, -⟩ | h1)
          · exact .inl h1
          · exact absurd h1.symm hc
          · exact .inr h1

/-- a response comes from the protocol with a leader and from the remote peer -/
theorem read_response {w : Wire} {pr : Proto} {p q : P} {chunks : List Bytes} {id : String} {r : Resp}
    (h : (readStream w pr p chunks).2 = some (id, .response q r)) :
    pr = .joinPartyWithLeader ∧ p = q ∧ ∃ payload, (Stream.ReadStreamWithBuffer chunks).1 = .ok payload ∧
      w.decComm payload = some ⟨id, "response", r.typ, r.peerIDs⟩ := by
  cases pr with
  | joinParty =>
    simp only [readStream, readLeaderless] at h
    repeat' split at h
    all_goals simp at h
  | joinPartyWithLeader =>
    simp only [readStream, readWithLeader] at h
    split at h
    · rename_i payload hp
      split at h
      · simp at h
      · split at h
        · simp at h
        · rename_i m hm
          split at h
          · simp at h
          · split at h
            · rename_i ht
              simp only [Option.some.injEq, Prod.mk.injEq, Body.response.injEq] at h
              obtain ⟨rfl, rfl, rfl⟩ := h
              refine ⟨rfl, rfl, payload, hp, ?_⟩
              rw [hm, ← ht]
            · simp at h
    · simp at h

/-- a request of either protocol comes from the remote peer -/
theorem read_request {w : Wire} {pr : Proto} {p q : P} {chunks : List Bytes} {id : String}
    (h : (readStream w pr p chunks).2 = some (id, .leaderless q) ∨ (readStream w pr p chunks).2 = some (id, .request q)) :
    p = q ∧ ∃ payload, (Stream.ReadStreamWithBuffer chunks).1 = .ok payload ∧
      (pr = .joinParty ∧ w.decReq payload = some id ∨
       pr = .joinPartyWithLeader ∧ ∃ t l, w.decComm payload = some ⟨id, "request", t, l⟩) := by
  cases pr with
  | joinParty =>
    simp only [readStream, readLeaderless] at h
    split at h
    · rename_i payload hp
      split at h
      · simp at h
      · rename_i id' hd
        simp only [Option.some.injEq, Prod.mk.injEq, Body.leaderless.injEq, reduceCtorEq, and_false, or_false] at h
        obtain ⟨rfl, rfl⟩ := h
        exact ⟨rfl, payload, hp, .inl ⟨rfl, hd⟩⟩
    · simp at h
  | joinPartyWithLeader =>
    simp only [readStream, readWithLeader] at h
    split at h
    · rename_i payload hp
      split at h
      · simp at h
      · split at h
        · simp at h
        · rename_i m hm
          split at h
          · rename_i ht
            simp only [Option.some.injEq, Prod.mk.injEq, Body.request.injEq, reduceCtorEq, and_false, false_or] at h
            obtain ⟨rfl, rfl⟩ := h
            exact ⟨rfl, payload, hp, .inr ⟨rfl, m.typ, m.peerIDs, by rw [hm, ← ht]⟩⟩
          · split at h
            · simp at h
            · simp at h
    · simp at h

section net
variable {R : Round P H} {committee : List P} {leader : P} {env : P → Env P A H L} {w : Wire} {job : P → Job} {honest : P → Bool}

/-- the answers of an honest leader that a node handles are the leader's verdict -/
theorem answers_verdict (hR : ∀ p, honest p = true → Takes R (env p) (job p) p) (hL : LedBy R committee leader) (hl : LawfulPeers R.peers)
    (hw : LawfulWire w) (hhl : honest leader = true) (h : List (NetEvent P S)) {p : P} {hp : List (Event P S)}
    (hn : NodeFrom env w job honest (netRun env w job honest h) p hp) {c c₀ : JoinCall P} {jh : List (JoinParty.Event P)}
    (hc : CallFrom (env p) w (job p) hp c c₀ jh) {r : Resp} (hr : r ∈ answers R.peers R.msgID (R.peers.str leader) jh) :
    ∃ cl, ((netRun env w job honest h).nodes leader).call = some (.ok cl) ∧ cl.st.sent = some r := by
  rw [mem_answers] at hr
  obtain ⟨q, hq, hm⟩ := hr
  have := str_inj hl hq
  subst this
  obtain ⟨pr, s, p', chunks, h1, h2⟩ := hc.2.2.1 _ _ hm
  obtain ⟨rfl, rfl, payload, h3, h4⟩ := read_response h2
  obtain ⟨b, h5, st, h6⟩ := hn.2 _ _ _ _ h1 hhl
  obtain ⟨-, hnodes⟩ := net_inv env w job honest h
  obtain ⟨hn', -⟩ := hnodes p'
  set hq' := histOf env w job honest h p' with hhq
  have hinv := node_inv (env p') w (job p') hq'
  rw [← hn'] at hinv
  obtain ⟨cl, hcl, hs⟩ := hinv.1 _ h6
  refine ⟨cl, hcl, ?_⟩
  rw [hn'] at hcl
  obtain ⟨c₀', hcf⟩ := call_from _ _ _ _ _ hcl
  rcases hs with ⟨r', b', g1, g2, -, -, -, g3⟩ | ⟨t, b', g1, -⟩ | ⟨k, b', g1, -⟩
  · obtain ⟨d1, -, d2⟩ := hw.comm _ _ g2
    obtain ⟨rfl, -⟩ := Network.read_written b' payload b chunks d2 (g3 _ _ rfl) h5 h3
    rw [h4] at d1
    simp only [Option.some.injEq, JoinNet.Comm.mk.injEq, true_and] at d1
    rw [g1]
    obtain ⟨ty, l⟩ := r
    obtain ⟨ty', l'⟩ := r'
    simp only at d1
    rw [d1.2.1, d1.2.2]
  · rcases call_shape (hR p' hhl) hL hl hcf with ⟨-, gs, gs', ps, -, -, rfl⟩ | ⟨hne, -⟩
    · cases g1
    · exact absurd rfl hne
  · rcases call_shape (hR p' hhl) hL hl hcf with ⟨-, gs, gs', ps, -, -, rfl⟩ | ⟨hne, -⟩
    · cases g1
    · exact absurd rfl hne

/-- a request of an honest node that a node handles was written by it while it was joining -/
theorem heard_joined (hw : LawfulWire w) (h : List (NetEvent P S)) {p : P} {hp : List (Event P S)}
    (hn : NodeFrom env w job honest (netRun env w job honest h) p hp) {c c₀ : JoinCall P} {jh : List (JoinParty.Event P)}
    (hc : CallFrom (env p) w (job p) hp c c₀ jh) {id : String} {q : P} (hq : q ∈ heard id jh) (hh : honest q = true) :
    ∃ cq, ((netRun env w job honest h).nodes q).call = some (.ok cq) ∧ cq.msgID = id := by
  obtain ⟨-, hnodes⟩ := net_inv env w job honest h
  obtain ⟨hn', -⟩ := hnodes q
  set hq' := histOf env w job honest h q with hhq
  have hinv := node_inv (env q) w (job q) hq'
  rw [← hn'] at hinv
  rw [mem_heard] at hq
  have key : ∃ pr s chunks, .incoming pr s q chunks ∈ hp ∧ ∃ payload, (Stream.ReadStreamWithBuffer chunks).1 = .ok payload ∧
      (pr = .joinParty ∧ w.decReq payload = some id ∨ pr = .joinPartyWithLeader ∧ ∃ t l, w.decComm payload = some ⟨id, "request", t, l⟩) := by
    rcases hq with hq | hq
    · obtain ⟨pr, s, p', chunks, h1, h2⟩ := hc.2.2.1 _ _ hq
      obtain ⟨rfl, h3⟩ := read_request (.inl h2)
      exact ⟨pr, s, chunks, h1, h3⟩
    · obtain ⟨pr, s, p', chunks, h1, h2⟩ := hc.2.2.1 _ _ hq
      obtain ⟨rfl, h3⟩ := read_request (.inr h2)
      exact ⟨pr, s, chunks, h1, h3⟩
  obtain ⟨pr, s, chunks, h1, payload, h2, h3⟩ := key
  obtain ⟨b, h5, st, h6⟩ := hn.2 _ _ _ _ h1 hh
  obtain ⟨cq, hcq, hs⟩ := hinv.1 _ h6
  refine ⟨cq, hcq, ?_⟩
  rcases hs with ⟨r', b', g1, g2, gp, -, -, g3⟩ | ⟨t, b', g1, -, g2, gp, g3⟩ | ⟨k, b', g1, -, -, g2, gp, g3⟩
  · obtain ⟨d1, -, d2⟩ := hw.comm _ _ g2
    obtain ⟨rfl, -⟩ := Network.read_written b' payload b chunks d2 (g3 _ _ rfl) h5 h2
    rcases h3 with ⟨h3, -⟩ | ⟨-, t, l, h3⟩
    · rw [h3] at gp; cases gp
    · rw [h3] at d1
      simp at d1
  · obtain ⟨d1, -, d2⟩ := hw.comm _ _ g2
    obtain ⟨rfl, -⟩ := Network.read_written b' payload b chunks d2 (g3 _ _ rfl) h5 h2
    rcases h3 with ⟨h3, -⟩ | ⟨-, t, l, h3⟩
    · rw [h3] at gp; cases gp
    · rw [h3] at d1
      simp only [Option.some.injEq, JoinNet.Comm.mk.injEq] at d1
      exact d1.1.symm
  · obtain ⟨d1, d2⟩ := hw.req _ _ g2
    obtain ⟨rfl, -⟩ := Network.read_written b' payload b chunks d2 (g3 _ _ rfl) h5 h2
    rcases h3 with ⟨-, h3⟩ | ⟨h3, -⟩
    · rw [h3] at d1
      cases d1; rfl
    · rw [h3] at gp; cases gp

/-! ## C97 agreement under an honest leader -/

/-- C97: if the leader is honest, whatever the other nodes and the network do, an honest node that joins without error reports exactly the party that
the leader reports, and the leader has joined without error. -/
theorem c97_agreement (hR : ∀ p, honest p = true → Takes R (env p) (job p) p) (hL : LedBy R committee leader) (hl : LawfulPeers R.peers)
    (hw : LawfulWire w) (hhl : honest leader = true) (h : List (NetEvent P S)) {p : P} (hp : honest p = true) (l : List P)
    (hres : ((netRun env w job honest h).nodes p).result = some ⟨l, none⟩) :
    ((netRun env w job honest h).nodes leader).result = some ⟨l, none⟩ := by
  obtain ⟨-, hnodes⟩ := net_inv env w job honest h
  have hn := hnodes p
  have hc : ∃ c, ((netRun env w job honest h).nodes p).call = some (.ok c) ∧ c.st.result = some ⟨l, none⟩ := by
    unfold Node.result at hres
    split at hres
    · rename_i c hc; exact ⟨c, hc, hres⟩
    · cases hres
  obtain ⟨c, hc, hcr⟩ := hc
  rw [hn.1] at hc
  obtain ⟨c₀, hcf⟩ := call_from _ _ _ _ _ hc
  rcases call_shape (hR p hp) hL hl hcf with ⟨rfl, -⟩ | ⟨-, gs, gs', hg, rfl⟩
  · exact hres
  · rcases Join.c21_member_outcome_partial R.peers p gs gs' R.msgID (R.peers.str leader) R.threshold hg _ _ hcr with
      h0 | ⟨h0, _⟩ | ⟨h0, _⟩ | ⟨l', h0, _⟩ | ⟨l', h0, _⟩ | ⟨l', h0, h1, ⟨a, ha, g2⟩, b, hb, g3⟩
    all_goals cases h0
    obtain ⟨cl, k1, k2⟩ := answers_verdict hR hL hl hw hhl h hn hcf ha
    obtain ⟨cl', k3, k4⟩ := answers_verdict hR hL hl hw hhl h hn hcf hb
    rw [k1] at k3
    cases k3
    rw [k2] at k4
    cases k4
    have hnl := hnodes leader
    have k1' := k1
    rw [hnl.1] at k1'
    obtain ⟨c₁, hcfl⟩ := call_from _ _ _ _ _ k1'
    have hv := (callFrom_verdict hcfl).1
    rcases call_shape (hR leader hhl) hL hl hcfl with ⟨-, gl, gl', ps, hps, hgl, rfl⟩ | ⟨hne, -⟩
    · -- the leader has a result
      have hdone := (hv (by rw [k2]; simp)).1
      have hresl : ∃ r, (runLeader R.peers leader R.threshold R.msgID gl' (joinHist w (histOf env w job honest h leader))).result = some r := by
        exact leader_done R.peers leader R.threshold R.msgID gl' _ hdone
      obtain ⟨r, hr⟩ := hresl
      have hnone : R.peers.str leader ≠ "NONE" := fun he => by
        have := hl.decode_str leader
        rw [he, hl.none] at this; cases this
      obtain ⟨h1, σ, h2, -, -, -, hverd⟩ := Join.c19_leader_verdict R.peers leader gl gl' R.msgID (ps.map R.peers.str) ps R.threshold (getPeerIDs_str hl ps) hnone hgl _ r hr
      unfold Node.result
      rw [k1]
      simp only
      rw [hr]
      simp only at k2
      rw [k2] at hverd
      rcases hverd with ⟨v1, -, -, v2⟩ | ⟨-, -, -, v2⟩ | ⟨-, -, -, v2⟩
      · simp only [Option.some.injEq] at v2
        rw [v2] at g2
        simp only at g2
        rw [getPeerIDs_str hl] at g2
        cases g2
        obtain ⟨o, e⟩ := r
        simp only at v1
        rw [v1]
      · simp only [Option.some.injEq] at v2
        rw [v2] at g3
        cases g3
      · cases v2
    · exact absurd rfl hne

/-- C97: two honest nodes that join without error report the same party, if the leader is honest. -/
theorem c97_same (hR : ∀ p, honest p = true → Takes R (env p) (job p) p) (hL : LedBy R committee leader) (hl : LawfulPeers R.peers)
    (hw : LawfulWire w) (hhl : honest leader = true) (h : List (NetEvent P S)) {p q : P} (hp : honest p = true) (hq : honest q = true) (l l' : List P)
    (hres : ((netRun env w job honest h).nodes p).result = some ⟨l, none⟩) (hres' : ((netRun env w job honest h).nodes q).result = some ⟨l', none⟩) :
    l = l' := by
  have h1 := c97_agreement hR hL hl hw hhl h hp l hres
  have h2 := c97_agreement hR hL hl hw hhl h hq l' hres'
  rw [h1] at h2
  cases h2; rfl

/-! ## what a node reads in time is in the history of its call -/

theorem reads_split {h : List (NetEvent P S)} {p q : P} {pr : Proto} {data : Bytes} (hp : honest p = true)
    (hr : ReadsInTime env w job honest h p q pr data) (hlen : data.length ≤ Stream.MaxPayload) {id : String} {body : Body P}
    (hread : ∀ chunks, (Stream.ReadStreamWithBuffer chunks).1 = .ok data → (readStream w pr q chunks).2 = some (id, body))
    {c c₀ : JoinCall P} (hc : ((netRun env w job honest h).nodes p).call = some (.ok c))
    (hcf : CallFrom (env p) w (job p) (histOf env w job honest h p) c c₀ (joinHist w (histOf env w job honest h p))) :
    ∃ ja jb, joinHist w (histOf env w job honest h p) = ja ++ .incoming id body :: jb ∧ (ja.foldl (JoinCall.step (env p)) c₀).st.result = none := by
  obtain ⟨a, e, b, rfl, ⟨ca, hca, hra⟩, s, chunks, hch, he⟩ := hr
  obtain ⟨-, hnodes⟩ := net_inv env w job honest a
  have hna := (hnodes p).1
  rw [hna] at hca
  obtain ⟨c₁, hcfa⟩ := call_from _ _ _ _ _ hca
  have hstart := call_some (env p) w (job p) _ (by rw [hca]; simp)
  have hrd : (readStream w pr q chunks).2 = some (id, body) := by
    refine hread chunks (Framing.c11_roundtrip data [] chunks hlen ?_).2
    rw [List.append_nil, hch]; rfl
  have hev : nodeEvent honest (netRun env w job honest a) p e = [.incoming pr s q chunks] := by
    rcases he with ⟨i, hi, rfl⟩ | ⟨hq, rfl⟩
    · simp only [nodeEvent, hi]
      simp [hp, hch]
    · simp only [nodeEvent]
      simp [hq, hp]
  have hh : histOf env w job honest (a ++ e :: b) p = histOf env w job honest a p ++ (.incoming pr s q chunks ::
      nodeHist env w job honest p (netStep env w job honest (netRun env w job honest a) e) b) := by
    rw [histOf_append]
    simp only [nodeHist, hev, List.singleton_append]
  have hsame : c₀ = c₁ := by
    have h1 := hcf.1
    have h2 := hcfa.1
    rw [hh, startGroups_append _ _ hstart, h2] at h1
    cases h1; rfl
  subst hsame
  refine ⟨joinHist w (histOf env w job honest a p), (nodeHist env w job honest p (netStep env w job honest (netRun env w job honest a) e) b).flatMap (toJoin w), ?_, ?_⟩
  · rw [hh, joinHist_append, if_pos hstart]
    simp [toJoin, hrd]
  · rw [← hcfa.2.1]; exact hra

theorem read_isRequest {id : String} {data : Bytes} (hd : IsRequest w id data) (q : P) (chunks : List Bytes)
    (h : (Stream.ReadStreamWithBuffer chunks).1 = .ok data) : (readStream w .joinPartyWithLeader q chunks).2 = some (id, .request q) := by
  obtain ⟨-, h1, t, l, h2⟩ := hd
  obtain ⟨x, hx⟩ := Option.isSome_iff_exists.1 h1
  simp [readStream, readWithLeader, h, hx, h2]

theorem read_isVerdict {id : String} {data : Bytes} (hd : IsVerdict w id data) (q : P) :
    ∃ r, ∀ chunks, (Stream.ReadStreamWithBuffer chunks).1 = .ok data → (readStream w .joinPartyWithLeader q chunks).2 = some (id, .response q r) := by
  obtain ⟨-, h1, t, l, h2⟩ := hd
  obtain ⟨x, hx⟩ := Option.isSome_iff_exists.1 h1
  refine ⟨⟨t, l⟩, fun chunks h => ?_⟩
  simp [readStream, readWithLeader, h, hx, h2]

/-- what came in before the call returned came in before the step at which it returned -/
theorem before_return {env : Env P A H L} {c₀ : JoinCall P} (h0 : c₀.st.result = none) {jh ja jb h1 h2 : List (JoinParty.Event P)} {id : String} {b : Body P}
    {σ : JoinParty.Shuffle P} (hj : jh = ja ++ .incoming id b :: jb) (hja : (ja.foldl (JoinCall.step env) c₀).st.result = none)
    (hh : jh = h1 ++ .step σ :: h2) (hres : ((h1 ++ [JoinParty.Event.step σ]).foldl (JoinCall.step env) c₀).st.result ≠ none) : .incoming id b ∈ h1 := by
  have hlt := returned_later env c₀ h0 (a := h1 ++ [.step σ]) (b := ja) (jh := jh) ⟨h2, by rw [hh]; simp⟩ ⟨_, hj.symm⟩ hres hja
  have hx : jh[ja.length]? = some (.incoming id b) := by rw [hj]; simp
  simp only [List.length_append, List.length_singleton] at hlt
  rw [hh] at hx
  by_cases he : ja.length = h1.length
  · rw [he] at hx; simp at hx
  · rw [List.getElem?_append_left (by omega)] at hx
    exact List.mem_of_getElem? hx

theorem start_result {env : Env P A H L} {w : Wire} {job : Job} {hp : List (Event P S)} {c c₀ : JoinCall P} {jh : List (JoinParty.Event P)}
    (h : CallFrom env w job hp c c₀ jh) : c₀.st.result = none := (joinParty_start h.1).2.1

theorem no_signature {h : List (NetEvent P S)} {p : P} {x : String} (hp : .at_ p (.local_ (.sig x)) ∉ h) :
    ∀ (jh : List (JoinParty.Event P)), (∀ e, isLocal e = true → e ∈ jh → .local_ e ∈ histOf env w job honest h p) → .sig x ∉ jh := by
  intro jh hj hm
  have h1 := hj _ rfl hm
  clear hj hm
  induction h using List.reverseRecOn with
  | nil => simp [histOf, nodeHist] at h1
  | append_singleton h e ih =>
    rw [histOf_snoc] at h1
    rcases List.mem_append.1 h1 with h1 | h1
    · exact ih (fun hm => hp (List.mem_append_left _ hm)) h1
    · apply hp
      cases e with
      | at_ q ev =>
        simp only [nodeEvent] at h1
        split at h1
        · rename_i hc
          rw [List.mem_singleton] at h1
          rw [← h1, hc.2]; simp
        · simp at h1
      | deliver i s chunks =>
        simp only [nodeEvent] at h1
        split at h1
        · simp at h1
        · split at h1 <;> simp at h1
      | foreign pr s p' q chunks =>
        simp only [nodeEvent] at h1
        split at h1 <;> simp at h1

theorem result_call {n : Node P S} {r : Result P} (h : n.result = some r) : ∃ c, n.call = some (.ok c) ∧ c.st.result = some r := by
  unfold Node.result at h
  split at h
  · rename_i c hc; exact ⟨c, hc, h⟩
  · cases h

/-- what an honest leader that has joined without error reports and announces -/
theorem leader_success (hR : ∀ p, honest p = true → Takes R (env p) (job p) p) (hL : LedBy R committee leader) (hl : LawfulPeers R.peers)
    (hhl : honest leader = true) (h : List (NetEvent P S)) (l : List P)
    (hres : ((netRun env w job honest h).nodes leader).result = some ⟨l, none⟩) :
    R.threshold ≤ l.length ∧ (∃ c, ((netRun env w job honest h).nodes leader).call = some (.ok c) ∧ c.st.sent = some ⟨.success, l.map R.peers.str⟩) ∧
    (0 ≤ R.threshold → leader ∈ l ∧ l.Nodup ∧ (l.length : Int) = R.threshold + 1 ∧ ∀ q ∈ l, q ≠ leader →
      q ∈ committee ∧ q ∈ heard R.msgID (joinHist w (histOf env w job honest h leader))) := by
  obtain ⟨-, hnodes⟩ := net_inv env w job honest h
  have hn := hnodes leader
  obtain ⟨c, hc, hcr⟩ := result_call hres
  have hc' := hc
  rw [hn.1] at hc'
  obtain ⟨c₀, hcf⟩ := call_from _ _ _ _ _ hc'
  have hnone : R.peers.str leader ≠ "NONE" := fun he => by
    have := hl.decode_str leader
    rw [he, hl.none] at this; cases this
  rcases start_shape (hR leader hhl) hL hl hcf.1 with ⟨-, gs', ps, hps, hg, hshape⟩ | ⟨hne, -⟩
  · have hce := hcf.2.1.trans (hshape _)
    rw [hce] at hcr
    obtain ⟨h1, σ, h2, e1, e2, e3, hverd⟩ := Join.c19_leader_verdict R.peers leader _ gs' R.msgID (ps.map R.peers.str) ps R.threshold
      (getPeerIDs_str hl ps) hnone hg _ _ hcr
    have hverd' := hverd
    rcases hverd with ⟨-, v1, v2, v3⟩ | ⟨v, -⟩ | ⟨v, -⟩
    · refine ⟨?_, ⟨c, hc, by rw [hce]; exact v3⟩, fun ht => ?_⟩
      · have := v2.length_eq
        simp only [List.length_append, List.length_take, List.length_singleton] at this
        omega
      · obtain ⟨k1, k2, k3, k4⟩ := Join.c19_success_list R.peers leader ps R.threshold ht R.msgID h1 _ _ hverd' rfl
        refine ⟨k1, k2, k3, fun q hq hne => ?_⟩
        rcases k4 q hq with rfl | ⟨k5, k6⟩
        · exact absurd rfl hne
        · refine ⟨hps.mem_iff.1 k5, ?_⟩
          rw [e1, mem_heard]
          rw [mem_heard] at k6
          exact k6.imp (List.mem_append_left _) (List.mem_append_left _)
    · cases v
    · cases v
  · exact absurd rfl hne

/-- C97: the party on which the honest nodes agree has one member more than the threshold, all different and of the committee, with the leader among
them, and the honest ones of them take part. -/
theorem c97_party (hR : ∀ p, honest p = true → Takes R (env p) (job p) p) (hL : LedBy R committee leader) (hl : LawfulPeers R.peers)
    (hw : LawfulWire w) (hhl : honest leader = true) (ht : 0 ≤ R.threshold) (h : List (NetEvent P S)) {p : P} (hp : honest p = true) (l : List P)
    (hres : ((netRun env w job honest h).nodes p).result = some ⟨l, none⟩) :
    leader ∈ l ∧ l.Nodup ∧ (l.length : Int) = R.threshold + 1 ∧
      ∀ q ∈ l, q ∈ committee ∧ (honest q = true → Joined ((netRun env w job honest h).nodes q)) := by
  have hlead := c97_agreement hR hL hl hw hhl h hp l hres
  obtain ⟨-, ⟨cl, hcl, -⟩, h3⟩ := leader_success hR hL hl hhl h l hlead
  obtain ⟨k1, k2, k3, k4⟩ := h3 ht
  refine ⟨k1, k2, k3, fun q hq => ?_⟩
  by_cases he : q = leader
  · subst he; exact ⟨hL.mem, fun _ => ⟨cl, hcl⟩⟩
  · obtain ⟨k5, k6⟩ := k4 q hq he
    refine ⟨k5, fun hh => ?_⟩
    obtain ⟨-, hnodes⟩ := net_inv env w job honest h
    have hcl' := hcl
    rw [(hnodes leader).1] at hcl'
    obtain ⟨c₀, hcf⟩ := call_from _ _ _ _ _ hcl'
    obtain ⟨cq, hcq, -⟩ := heard_joined hw h (hnodes leader) hcf k6 hh
    exact ⟨cq, hcq⟩

/-! ## C98 nobody fails without cause -/

/-- C98: an honest leader that reads in time the requests of as many other members as the threshold, and is not told that the signature is there,
joins without error, whatever the other nodes do and in whatever order things happen. -/
theorem c98_leader (hR : ∀ p, honest p = true → Takes R (env p) (job p) p) (hL : LedBy R committee leader) (hl : LawfulPeers R.peers)
    (hhl : honest leader = true) (h : List (NetEvent P S)) (hsig : .at_ leader (.local_ (.sig "signature received")) ∉ h)
    (Q : List P) (hQ : Q.Nodup) (hQc : ∀ q ∈ Q, q ∈ committee ∧ q ≠ leader) (hQt : R.threshold ≤ Q.length)
    (hQr : ∀ q ∈ Q, ∃ data, IsRequest w R.msgID data ∧ ReadsInTime env w job honest h leader q .joinPartyWithLeader data)
    (r : Result P) (hres : ((netRun env w job honest h).nodes leader).result = some r) : r.err = none := by
  obtain ⟨-, hnodes⟩ := net_inv env w job honest h
  have hn := hnodes leader
  obtain ⟨c, hc, hcr⟩ := result_call hres
  have hc' := hc
  rw [hn.1] at hc'
  obtain ⟨c₀, hcf⟩ := call_from _ _ _ _ _ hc'
  have h0 := start_result hcf
  have hnone : R.peers.str leader ≠ "NONE" := fun he => by
    have := hl.decode_str leader
    rw [he, hl.none] at this; cases this
  rcases start_shape (hR leader hhl) hL hl hcf.1 with ⟨-, gs', ps, hps, hg, hshape⟩ | ⟨hne, -⟩
  · rw [hcf.2.1, hshape] at hcr
    obtain ⟨h1, σ, h2, e1, e2, e3, hverd⟩ := Join.c19_leader_verdict R.peers leader _ gs' R.msgID (ps.map R.peers.str) ps R.threshold
      (getPeerIDs_str hl ps) hnone hg _ r hcr
    have harr : ∀ q ∈ Q, q ∈ arrivals ps leader (heard R.msgID h1) := by
      intro q hq
      obtain ⟨data, hd, hrd⟩ := hQr q hq
      obtain ⟨ja, jb, hj, hja⟩ := reads_split hhl hrd hd.1 (fun chunks hch => read_isRequest hd q chunks hch) hc hcf
      have := before_return h0 hj hja e1 (by rw [hshape]; simp only; rw [e3]; simp)
      rw [mem_arrivals, mem_heard]
      exact ⟨.inr this, hps.mem_iff.2 (hQc q hq).1, (hQc q hq).2⟩
    have hle : Q.length ≤ (arrivals ps leader (heard R.msgID h1)).length := (hQ.subperm harr).length_le
    rcases hverd with ⟨v, -⟩ | ⟨-, v, -⟩ | ⟨-, -, v, -⟩
    · exact v
    · omega
    · refine absurd (List.mem_append_left _ v) (no_signature (env := env) (w := w) (job := job) (honest := honest) hsig (h1 ++ .step σ :: h2) ?_)
      rw [← e1]
      exact hcf.2.2.2
  · exact absurd rfl hne

/-- C98: an honest member that reads in time the verdict of an honest leader, and is not told that the signature is there, joins without error and
reports the leader's party if the leader has joined without error. -/
theorem c98_member (hR : ∀ p, honest p = true → Takes R (env p) (job p) p) (hL : LedBy R committee leader) (hl : LawfulPeers R.peers)
    (hw : LawfulWire w) (hhl : honest leader = true) (h : List (NetEvent P S)) {p : P} (hp : honest p = true)
    (hsig : .at_ p (.local_ (.sig "signature received")) ∉ h)
    (hread : ∃ data, IsVerdict w R.msgID data ∧ ReadsInTime env w job honest h p leader .joinPartyWithLeader data)
    (l : List P) (hlead : ((netRun env w job honest h).nodes leader).result = some ⟨l, none⟩)
    (r : Result P) (hres : ((netRun env w job honest h).nodes p).result = some r) : r = ⟨l, none⟩ := by
  by_cases hpl : p = leader
  · subst hpl; rw [hlead] at hres; cases hres; rfl
  obtain ⟨hlen, ⟨cl, hcl, hsent⟩, -⟩ := leader_success hR hL hl hhl h l hlead
  obtain ⟨-, hnodes⟩ := net_inv env w job honest h
  have hn := hnodes p
  obtain ⟨c, hc, hcr⟩ := result_call hres
  have hc' := hc
  rw [hn.1] at hc'
  obtain ⟨c₀, hcf⟩ := call_from _ _ _ _ _ hc'
  have hverd : ∀ a ∈ answers R.peers R.msgID (R.peers.str leader) (joinHist w (histOf env w job honest h p)), a = ⟨.success, l.map R.peers.str⟩ := by
    intro a ha
    obtain ⟨cl', k1, k2⟩ := answers_verdict hR hL hl hw hhl h hn hcf ha
    rw [hcl] at k1
    cases k1
    rw [hsent] at k2
    cases k2; rfl
  rcases start_shape (hR p hp) hL hl hcf.1 with ⟨he, -⟩ | ⟨-, gs', hg, hshape⟩
  · exact absurd he hpl
  · rw [hcf.2.1, hshape] at hcr
    have hnr : r ≠ ⟨[], some .leaderNotReady⟩ := by
      rintro rfl
      obtain ⟨h1, σ, h2, e1, e2, e3, e4⟩ := Join.c21_not_ready R.peers p _ gs' R.msgID (R.peers.str leader) R.threshold hg _ _ hcr
      obtain ⟨data, hd, hrd⟩ := hread
      obtain ⟨r', hr'⟩ := read_isVerdict hd leader
      obtain ⟨ja, jb, hj, hja⟩ := reads_split hp hrd hd.1 hr' hc hcf
      have hm := before_return (start_result hcf) hj hja e1 (by rw [hshape]; simp only; rw [e3]; simp)
      have : r' ∈ answers R.peers R.msgID (R.peers.str leader) h1 := (mem_answers _ _ _ _ _).2 ⟨leader, rfl, hm⟩
      rw [e4] at this
      simp at this
    rcases Join.c21_member_outcome_partial R.peers p _ gs' R.msgID (R.peers.str leader) R.threshold hg _ _ hcr with
      h0 | ⟨-, -, h0⟩ | ⟨-, a, ha, h0⟩ | ⟨l', -, h0, a, ha, h1⟩ | ⟨l', h0, -, -, b, hb, h1⟩ | ⟨l', h0, h1, ⟨a, ha, g2⟩, b, hb, g3⟩
    · exact absurd h0 hnr
    · exact absurd h0 (no_signature (env := env) (w := w) (job := job) (honest := honest) hsig _ hcf.2.2.2)
    · rw [hverd a ha] at h0
      exact absurd (getPeerIDs_str hl l) (h0 l)
    · rw [hverd a ha] at h1
      simp only [getPeerIDs_str hl] at h1
      cases h1
      omega
    · rw [hverd b hb] at h1
      exact absurd rfl h1
    · rw [hverd a ha] at g2
      simp only [getPeerIDs_str hl] at g2
      cases g2
      exact h0

end net

/-! ## Concrete cases -/

open Verif.Spec.DemoServer Verif.Spec.DemoJoinNet

def demoRound : Round Nat Nat := ⟨DemoServer.codec, DemoServer.peers, fun s => s.length, "m", 5, [key 0, key 1, key 2], 1⟩

theorem demoTakes (p : Nat) (hp : DemoJoinNet.honest p = true) : Takes demoRound (envs p) (DemoJoinNet.job p) p := by
  have : p = 10 ∨ p = 11 := by simpa [DemoJoinNet.honest] using hp
  rcases this with rfl | rfl
  · exact ⟨rfl, rfl, rfl, rfl, by decide +kernel, rfl, rfl, List.Perm.refl _, rfl⟩
  · exact ⟨rfl, rfl, rfl, rfl, by decide +kernel, rfl, rfl, by decide +kernel, rfl⟩

theorem demoLed : LedBy demoRound [10, 11, 12] 10 := ⟨by decide +kernel, by decide, by decide +kernel⟩

theorem demoWire : LawfulWire wire where
  comm m b h := by
    simp only [wire, Option.map_eq_some_iff] at h
    obtain ⟨i, h1, rfl⟩ := h
    rw [List.idxOf?_eq_some_iff] at h1
    obtain ⟨h2, h3, -⟩ := h1
    have h4 : i < 5 := h2
    have h5 : (UInt8.ofNat i).toNat = i := by simp; omega
    refine ⟨?_, rfl, by simp⟩
    simp only [wire, h5]
    rw [List.getElem?_eq_getElem h2]
    simpa using h3
  req id b h := by
    simp only [wire] at h
    split at h
    · rename_i he
      cases h
      exact ⟨by rw [he]; rfl, by decide⟩
    · cases h

/-- C97: the hypotheses are met; node 12 is not honest and takes no part. -/
example : ((netRun envs wire DemoJoinNet.job DemoJoinNet.honest formed).nodes 10).result = some ⟨[11, 10], none⟩ :=
  c97_agreement demoTakes demoLed lawfulPeers demoWire rfl formed (p := 11) rfl [11, 10] (by decide +kernel)

example : 10 ∈ [11, 10] ∧ [11, 10].Nodup ∧ (([11, 10] : List Nat).length : Int) = demoRound.threshold + 1 ∧
    ∀ q ∈ [11, 10], q ∈ [10, 11, 12] ∧ (DemoJoinNet.honest q = true → Joined ((netRun envs wire DemoJoinNet.job DemoJoinNet.honest formed).nodes q)) :=
  c97_party demoTakes demoLed lawfulPeers demoWire rfl (by decide) formed (p := 11) rfl [11, 10] (by decide +kernel)

/-- C97 says nothing about nodes that report an error: if the verdict does not arrive, the leader has joined a party with 11, and 11 has failed. -/
theorem c97_one_sided :
    ((netRun envs wire DemoJoinNet.job DemoJoinNet.honest lost).nodes 10).result = some ⟨[11, 10], none⟩ ∧
    ((netRun envs wire DemoJoinNet.job DemoJoinNet.honest lost).nodes 11).result = some ⟨[], some .leaderNotReady⟩ := by decide +kernel

/-- is the join call running? -/
def joining (n : Node P S) : Bool :=
  match n.call with
  | some (.ok c) => c.st.result.isNone
  | _ => false

theorem joining_iff {n : Node P S} (h : joining n = true) : Joining n := by
  unfold joining at h
  split at h
  · rename_i c hc; exact ⟨c, hc, by simpa using h⟩
  · cases h

/-- C98: the leader of `formed` reads one request in time, which is the threshold. -/
example : (⟨[11, 10], none⟩ : Result Nat).err = none := by
  refine c98_leader demoTakes demoLed lawfulPeers rfl formed (by simp [formed, decided]) [11] (by decide) (by decide) (by decide) ?_ _
    (show ((netRun envs wire DemoJoinNet.job DemoJoinNet.honest formed).nodes 10).result = some ⟨[11, 10], none⟩ by decide +kernel)
  intro q hq
  simp only [List.mem_singleton] at hq
  subst hq
  exact ⟨[1, 0], ⟨by decide, rfl, .unknown, [], by decide +kernel⟩, formed.take 3, .deliver 0 2 (framed [1, 0]), formed.drop 4, rfl,
    joining_iff (by decide +kernel), 2, framed [1, 0], by decide +kernel, .inl ⟨0, by decide +kernel, rfl⟩⟩

/-- C98: member 11 of `formed` reads the verdict in time. -/
example : (⟨[11, 10], none⟩ : Result Nat) = ⟨[11, 10], none⟩ :=
  c98_member demoTakes demoLed lawfulPeers demoWire rfl formed (p := 11) rfl (by simp [formed, decided])
    ⟨[1, 1], ⟨by decide, rfl, .success, [DemoServer.peers.str 11, DemoServer.peers.str 10], by decide +kernel⟩, formed.take 7, .deliver 0 4 (framed [1, 1]),
      formed.drop 8, rfl, joining_iff (by decide +kernel), 4, framed [1, 1], by decide +kernel, .inl ⟨0, by decide +kernel, rfl⟩⟩
    [11, 10] (by decide +kernel) _
    (show ((netRun envs wire DemoJoinNet.job DemoJoinNet.honest formed).nodes 11).result = some ⟨[11, 10], none⟩ by decide +kernel)

end Verif.Props.Parties
