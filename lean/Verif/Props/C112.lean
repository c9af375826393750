import Verif.Props.C94
import Verif.Props.C99_C101
import Verif.Props.C102_C106

/-! # C112: the nodes of a ceremony agree on what they are doing -/
set_option linter.unusedSectionVars false
namespace Verif.Props.Agreed
open Verif.Go Verif.Conversion Verif.Messages Verif.Blame Verif.TssCommon Verif.Session Verif.SessNet Verif.Spec Verif.Props.SetUp
open Verif.Server (Str)
open scoped List

variable {P : Type} [DecidableEq P]

/-! ## Specification -/

/-- `p` is the node with the key `k`, one of `keys`. -/
def Owns (c : Codec Str P) (keys : List Str) (p : P) (k : Str) : Prop := k ∈ keys ∧ GetPeerIDFromPubKey c k = .ok p

/-- the part of a session that is the same on all nodes: the encodings, hash and signature scheme (`prog`) of the program, the key encoding, the
message id of the ceremony and the names of its local parties -/
def shared (prog : TssCommon.Env Str P) (c : Codec Str P) (id : String) (parties : List String) : TssCommon.Env Str P :=
  { prog with codec := c, msgID := id.toUTF8.data.toList, parties := parties }

/-- Two nodes run the same program: their encodings, hash and signature scheme are those of `prog`. -/
def SameProgram (prog ses : TssCommon.Env Str P) : Prop :=
  ses.decWrapped = prog.decWrapped ∧ ses.decWire = prog.decWire ∧ ses.decConfirm = prog.decConfirm ∧ ses.decTask = prog.decTask ∧
    ses.decControl = prog.decControl ∧ ses.decBulk = prog.decBulk ∧ ses.parse = prog.parse ∧ ses.hash = prog.hash ∧ ses.verify = prog.verify

/-- `sign` makes signatures for the ceremony `id` that verify under the key `k`. -/
def SignsFor (prog : TssCommon.Env Str P) (c : Codec Str P) (id : String) (k : Str) (sign : Bytes → Bytes) : Prop :=
  ∀ kb, c.enc kb = some k → ∀ b, prog.verify kb (b ++ id.toUTF8.data.toList) (sign b) = true

/-- the node `p` in a session that was set up with `lenv` and `mgr` -/
def siteOf (type : MsgType) (lenv : P → LoopEnv Str P) (mgr : P → Manager Str P) (sign : P → Bytes → Bytes) (p : P) : Site Str P :=
  ⟨(lenv p).ses, (lenv p).out, mgr p, type, sign p⟩

/-! ## Lemmas -/

/-- the numbering of the members -/
def idsOf (c : Codec Str P) (keys : List Str) : Map Nat Party := SetupPartyIDMap (sortPartyIDs (rawParties c.dec keys))

theorem idsOf_perm (c : Codec Str P) {keys keys' : List Str} (h : keys ~ keys') : idsOf c keys = idsOf c keys' := by
  have : keys.insertionSort (· ≤ ·) = keys'.insertionSort (· ≤ ·) :=
    List.Perm.eq_of_pairwise (fun a b _ _ h1 h2 => le_antisymm h1 h2) (List.pairwise_insertionSort (· ≤ ·) keys)
      (List.pairwise_insertionSort (· ≤ ·) keys')
      ((List.perm_insertionSort _ _).trans (h.trans (List.perm_insertionSort _ _).symm))
  unfold idsOf rawParties
  rw [this]

theorem parties_eq {c : Codec Str P} {keys : List Str} {loc : Str} {ps : List Party} {lp : Party}
    (h : GetParties c.dec keys loc = .ok (ps, lp)) : SetupPartyIDMap ps = idsOf c keys := by
  rcases GetParties_eq c.dec keys loc with ⟨_, e⟩ | ⟨_, _, e⟩ | ⟨_, _, lp', i, _, _, _, _, e⟩
  · rw [e] at h; cases h
  · rw [e] at h; cases h
  · rw [e] at h; cases h; rfl

theorem proper_perm {c : Codec Str P} {keys keys' : List Str} (h : keys' ~ keys) (hk : Proper c keys) : Proper c keys' :=
  ⟨h.nodup_iff.2 hk.nodup, fun k hm => hk.canonical k (h.subset hm)⟩

/-- what is known of each node -/
structure Ready (enc : Encoders P) (prog : TssCommon.Env Str P) (c : Codec Str P) (keys : List Str) (id : String) (parties : List String) (p : P) (k : Str)
    (lenv : LoopEnv Str P) (mgr : Manager Str P) (sign : Bytes → Bytes) : Prop where
  setUp : ∃ ks, ks ~ keys ∧ SetUpFor c ks k p lenv mgr
  ids : mgr.partyIDMap = idsOf c keys
  ses : lenv.ses = { shared prog c id parties with localPeer := p, p2pPeers := lenv.ses.p2pPeers, upd := lenv.ses.upd }
  batch : 1 ≤ lenv.out.msgNum ∧ Function.Injective lenv.out.pstr
  sign : SignsFor prog c id k sign

theorem setting_of {enc : Encoders P} {prog : TssCommon.Env Str P} {c : Codec Str P} {keys : List Str} {id : String} {parties : List String}
    {lenv : P → LoopEnv Str P} {mgr : P → Manager Str P} {sign : P → Bytes → Bytes} {type : MsgType}
    (ht : type = TSSKeyGenMsg ∨ type = TSSKeySignMsg) (hall : ∀ k ∈ keys, ∃ p, GetPeerIDFromPubKey c k = .ok p)
    (h : ∀ p k, Owns c keys p k → Ready enc prog c keys id parties p k (lenv p) (mgr p) (sign p))
    (hl : Lossless enc prog) (hsize : keys.length ≤ 2 ^ 50) :
    ∃ peers, (∀ p, Member peers p ↔ ∃ k, Owns c keys p k) ∧
      Setting enc (shared prog c id parties) (idsOf c keys) peers (siteOf type lenv mgr sign) := by
  -- the peer of a member
  have hpeers : ∀ p k, Owns c keys p k → ∀ i q, Map.get (mgr p).partyIDtoP2PID i = some q ↔
      ∃ k', Named c (idsOf c keys) i k' ∧ GetPeerIDFromPubKey c k' = .ok q := by
    intro p k ho i q
    obtain ⟨ks, hperm, hs⟩ := (h p k ho).setUp
    have hids := (h p k ho).ids
    have hpe := hs.peers
    rw [hids] at hpe
    constructor
    · intro hg
      have hmem : i ∈ Map.keys (mgr p).partyIDMap := by
        rw [← hs.committee.same, ← Map.get_isSome_iff, hg]; rfl
      rw [← Map.get_isSome_iff, Option.isSome_iff_exists] at hmem
      obtain ⟨pt, hpt⟩ := hmem
      obtain ⟨k', hk'⟩ := hs.committee.named i pt hpt
      rw [hids] at hpt
      exact ⟨k', ⟨pt, hpt, hk'⟩, (hpe i k' q ⟨pt, hpt, hk'⟩).1 hg⟩
    · rintro ⟨k', hn, hq⟩
      exact (hpe i k' q hn).2 hq
  have hnamed : ∀ p k, Owns c keys p k → ∀ k', k' ∈ keys ↔ ∃ i, Named c (idsOf c keys) i k' := by
    intro p k ho k'
    obtain ⟨ks, hperm, hs⟩ := (h p k ho).setUp
    rw [← (h p k ho).ids, ← hs.members, hperm.mem_iff]
  -- a map of peers
  obtain ⟨peers, hget, hmem⟩ : ∃ peers : Map Nat P, (∀ p k, Owns c keys p k → ∀ i, Map.get (mgr p).partyIDtoP2PID i = Map.get peers i) ∧
      (∀ p, Member peers p ↔ ∃ k, Owns c keys p k) := by
    cases hkeys : keys with
    | nil => exact ⟨[], fun p k ho => absurd ho.1 (by simp), fun p => ⟨fun ⟨i, hi⟩ => by simp at hi, fun ⟨k, hk⟩ => absurd hk.1 (by simp)⟩⟩
    | cons k₀ rest =>
      rw [← hkeys]
      have hk₀ : k₀ ∈ keys := by rw [hkeys]; simp
      obtain ⟨p₀, hp₀⟩ := hall k₀ hk₀
      refine ⟨(mgr p₀).partyIDtoP2PID, ?_, ?_⟩
      · intro p k ho i
        apply Option.ext
        intro q
        rw [hpeers p k ho, hpeers p₀ k₀ ⟨hk₀, hp₀⟩]
      · intro p
        unfold Member
        simp only [hpeers p₀ k₀ ⟨hk₀, hp₀⟩]
        constructor
        · rintro ⟨i, k', hn, hq⟩
          exact ⟨k', (hnamed p₀ k₀ ⟨hk₀, hp₀⟩ k').2 ⟨i, hn⟩, hq⟩
        · rintro ⟨k', hk', hq⟩
          obtain ⟨i, hi⟩ := (hnamed p₀ k₀ ⟨hk₀, hp₀⟩ k').1 hk'
          exact ⟨i, k', hi, hq⟩
  refine ⟨peers, hmem, ?_, ?_, ?_, ?_, ?_, ?_, ?_, ?_, ?_, fun _ _ => ht, ?_, ?_, ?_⟩
  · intro q hq
    obtain ⟨k, ho⟩ := (hmem q).1 hq
    exact (h q k ho).ses
  · intro q hq p
    obtain ⟨k, ho⟩ := (hmem q).1 hq
    obtain ⟨ks, hperm, hs⟩ := (h q k ho).setUp
    show p ∈ (lenv q).ses.p2pPeers ↔ _
    rw [hs.others, hmem]
    constructor
    · rintro ⟨h1, k', h2, h3⟩
      exact ⟨⟨k', hperm.subset h2, h3⟩, h1⟩
    · rintro ⟨⟨k', h2, h3⟩, h1⟩
      exact ⟨h1, k', hperm.symm.subset h2, h3⟩
  · intro q hq
    obtain ⟨k, ho⟩ := (hmem q).1 hq
    obtain ⟨ks, hperm, hs⟩ := (h q k ho).setUp
    exact hs.once
  · intro q hq
    obtain ⟨k, ho⟩ := (hmem q).1 hq
    exact (h q k ho).ids
  · intro q hq i
    obtain ⟨k, ho⟩ := (hmem q).1 hq
    exact hget q k ho i
  · intro q hq
    obtain ⟨k, ho⟩ := (hmem q).1 hq
    obtain ⟨ks, hperm, hs⟩ := (h q k ho).setUp
    exact hs.committee
  · intro q hq
    obtain ⟨k, ho⟩ := (hmem q).1 hq
    obtain ⟨ks, hperm, hs⟩ := (h q k ho).setUp
    obtain ⟨-, -, -, h4, -, h6⟩ := hs.fresh
    exact ⟨h6, h4⟩
  · intro q hq
    obtain ⟨k, ho⟩ := (hmem q).1 hq
    obtain ⟨ks, hperm, hs⟩ := (h q k ho).setUp
    exact ⟨hs.broadcast, fun i => (hs.send i).trans (hget q k ho i)⟩
  · intro q hq
    obtain ⟨k, ho⟩ := (hmem q).1 hq
    exact (h q k ho).batch
  · intro i q pt hi hpt b
    obtain ⟨k, ho⟩ := (hmem q).1 ⟨i, hi⟩
    rw [← hget q k ho, hpeers q k ho] at hi
    obtain ⟨k', ⟨pt', hpt', hk'⟩, hq'⟩ := hi
    rw [hpt] at hpt'
    cases hpt'
    have ho' : Owns c keys q k' := ⟨(hnamed q k ho k').2 ⟨i, pt, hpt, hk'⟩, hq'⟩
    refine (h q k' ho').sign pt.key ?_ b
    unfold PartyIDtoPubKey at hk'
    split at hk'
    · split at hk'
      · cases hk'; assumption
      · cases hk'
    · cases hk'
  · exact ⟨hl.wrap, hl.wire, hl.confirm, hl.control, hl.task, hl.bulk⟩
  · by_cases hne : keys = []
    · subst hne
      rw [show idsOf c [] = [] from rfl]
      simp
    · obtain ⟨k₀, rest, hkeys⟩ := List.exists_cons_of_ne_nil hne
      have hk₀ : k₀ ∈ keys := by rw [hkeys]; simp
      obtain ⟨p₀, hp₀⟩ := hall k₀ hk₀
      obtain ⟨ks, hperm, hs⟩ := (h p₀ k₀ ⟨hk₀, hp₀⟩).setUp
      have := hs.size
      rw [(h p₀ k₀ ⟨hk₀, hp₀⟩).ids, hperm.length_eq] at this
      rw [this]; exact hsize

/-! ## Key generation -/

section
variable {S H L Pt A Q : Type} [LinearOrder S] [LinearOrder H]

/-- The node `p` with the key `k` has set up the key generation `id` of `keys`, which it may have been given in another order. -/
structure GenNode (prog : TssCommon.Env Str P) (c : Codec Str P) (keys : List Str) (id : String) (p : P) (k : Str) (env : Keygen.KEnv P S H L Pt A Q)
    (lenv : LoopEnv Str P) (mgr : Manager Str P) (sign : Bytes → Bytes) : Prop where
  codec : env.base.codec = c
  me : env.base.me = p
  own : env.ownKey = k
  program : SameProgram prog env.base.session
  names : Function.Injective env.base.pstr
  sign : SignsFor prog c id k sign
  started : ∃ sch ks, ks ~ keys ∧ Keygen.genSetup env sch id ks = .run lenv mgr

theorem genSetup_ids {env : Keygen.KEnv P S H L Pt A Q} {sch : Keygen.SetupSched P} {id : String} {ks : List Str} {lenv : LoopEnv Str P}
    {mgr : Manager Str P} (h : Keygen.genSetup env sch id ks = .run lenv mgr) :
    mgr.partyIDMap = idsOf env.base.codec ks ∧ lenv.out.pstr = env.base.pstr ∧
      lenv.ses = { env.base.session with codec := env.base.codec, msgID := id.toUTF8.data.toList, parties := [""], localPeer := env.base.me,
                                         p2pPeers := lenv.ses.p2pPeers } := by
  unfold Keygen.genSetup at h
  split at h
  · cases h
  · cases h
  · rename_i parties loc hp
    split at h
    · cases h
    · cases h
    · split at h
      · cases h
      · dsimp only at h
        split at h
        · rw [show (newManager [] (SetupIDMaps env.base.codec (sch.b.f (SetupPartyIDMap parties)) []).1 0 : Manager Str P).setPartyInfo [loc.id]
            (SetupPartyIDMap parties) = .ok { (newManager [] (SetupIDMaps env.base.codec (sch.b.f (SetupPartyIDMap parties)) []).1 0 :
              Manager Str P) with partyIDMap := SetupPartyIDMap parties, localPartyID := loc.id } from rfl] at h
          dsimp only at h
          cases h
          exact ⟨parties_eq hp, rfl, rfl⟩
        · cases h

theorem ready_gen {enc : Encoders P} {prog : TssCommon.Env Str P} {c : Codec Str P} {keys : List Str} (hk : Proper c keys) {id : String} {p : P} {k : Str}
    {env : Keygen.KEnv P S H L Pt A Q} {lenv : LoopEnv Str P} {mgr : Manager Str P} {sign : Bytes → Bytes}
    (h : GenNode prog c keys id p k env lenv mgr sign) : Ready enc prog c keys id [""] p k lenv mgr sign := by
  obtain ⟨sch, ks, hperm, hs⟩ := h.started
  have hc := h.codec
  have hc' := c94_keygen env sch id ks (by rw [hc]; exact proper_perm hperm hk) lenv mgr hs
  rw [hc, h.own, h.me] at hc'
  obtain ⟨k1, k2, k3⟩ := genSetup_ids hs
  refine ⟨⟨ks, hperm, hc'.1⟩, by rw [k1, hc, idsOf_perm c hperm], ?_, ⟨by rw [hc'.2.2.2.2.2], by rw [k2]; exact h.names⟩, h.sign⟩
  obtain ⟨e1, e2, e3, e4, e5, e6, e7, e8, e9⟩ := h.program
  rw [k3]
  simp only [shared, ← e1, ← e2, ← e3, ← e4, ← e5, ← e6, ← e7, ← e8, ← e9, hc, h.me]

/-- **C112, key generation**: the nodes of a key generation agree on what they are doing. If the owners of the keys asked for, who run the same
program, have set up their sessions, then these are sessions of one and the same party (`Setting`): the members are the owners of the keys, everybody
gives them the same numbers and the same peers, has the same message id, sends to all the others, and makes signatures which the others accept. -/
theorem c112_keygen (enc : Encoders P) (prog : TssCommon.Env Str P) (c : Codec Str P) (keys : List Str) (hk : Proper c keys)
    (hall : ∀ k ∈ keys, ∃ p, GetPeerIDFromPubKey c k = .ok p) (hl : Lossless enc prog) (hsize : keys.length ≤ 2 ^ 50) (id : String)
    (env : P → Keygen.KEnv P S H L Pt A Q) (lenv : P → LoopEnv Str P) (mgr : P → Manager Str P) (sign : P → Bytes → Bytes)
    (h : ∀ p k, Owns c keys p k → GenNode prog c keys id p k (env p) (lenv p) (mgr p) (sign p)) :
    ∃ ids peers, (∀ p, Member peers p ↔ ∃ k, Owns c keys p k) ∧
      Setting enc (shared prog c id [""]) ids peers (siteOf TSSKeyGenMsg lenv mgr sign) := by
  obtain ⟨peers, h1, h2⟩ := setting_of (Or.inl rfl) hall (fun p k ho => ready_gen hk (h p k ho)) hl hsize
  exact ⟨_, peers, h1, h2⟩

end

/-! ## Signing -/

section
variable {S H L : Type} [LinearOrder S] [LinearOrder H]

/-- The node `p` with the key `k` has set up the signing `id` of the messages `msgs` by `signers`, in any order. -/
structure SignNode (prog : TssCommon.Env Str P) (c : Codec Str P) (signers : List Str) (id : String) (msgs : List Bytes) (p : P) (k : Str)
    (env : Server.Env P S H L) (task : KeySign.Job L) (lenv : LoopEnv Str P) (mgr : Manager Str P) (sign : Bytes → Bytes) : Prop where
  codec : env.codec = c
  me : env.me = p
  own : task.state.localPartyKey = k
  program : SameProgram prog env.session
  names : Function.Injective env.pstr
  sign : SignsFor prog c id k sign
  msgID : task.msgID = id
  msgs : task.msgs = msgs
  started : ∃ sch ks, ks ~ signers ∧ KeySign.signSetup env sch task ks = .run lenv mgr

theorem signSetup_ids {env : Server.Env P S H L} {sch : KeySign.SetupSched P} {task : KeySign.Job L} {ks : List Str} {lenv : LoopEnv Str P}
    {mgr : Manager Str P} (h : KeySign.signSetup env sch task ks = .run lenv mgr) :
    mgr.partyIDMap = idsOf env.codec ks ∧ lenv.out.pstr = env.pstr ∧
      lenv.ses = { env.session with codec := env.codec, msgID := task.msgID.toUTF8.data.toList, parties := KeySign.monikers task.msgs,
                                    localPeer := env.me, p2pPeers := lenv.ses.p2pPeers } := by
  unfold KeySign.signSetup at h
  split at h
  · cases h
  · cases h
  · rename_i parties loc hp
    split at h
    · cases h
    · split at h
      · cases h
      · cases h
      · dsimp only at h
        split at h
        · cases hn : task.msgs with
          | nil =>
            rw [hn] at h
            exact absurd h (by simp [Manager.setPartyInfo])
          | cons m₀ ms =>
            rw [hn] at h
            simp only [List.length_cons, List.replicate_succ, Manager.setPartyInfo] at h
            cases h
            exact ⟨parties_eq hp, rfl, rfl⟩
        · cases h

theorem ready_sign {enc : Encoders P} {prog : TssCommon.Env Str P} {c : Codec Str P} {signers : List Str} (hk : Proper c signers) {id : String}
    {msgs : List Bytes} {p : P} {k : Str} {env : Server.Env P S H L} {task : KeySign.Job L} {lenv : LoopEnv Str P} {mgr : Manager Str P}
    {sign : Bytes → Bytes} (h : SignNode prog c signers id msgs p k env task lenv mgr sign) :
    Ready enc prog c signers id (KeySign.monikers msgs) p k lenv mgr sign := by
  obtain ⟨sch, ks, hperm, hs⟩ := h.started
  have hc := h.codec
  have hc' := c94_keysign env sch task ks (by rw [hc]; exact proper_perm hperm hk) lenv mgr hs
  rw [hc, h.own, h.me] at hc'
  obtain ⟨k1, k2, k3⟩ := signSetup_ids hs
  obtain ⟨c1, -, -, -, c5, -, -, c8, -⟩ := hc'
  refine ⟨⟨ks, hperm, c1⟩, by rw [k1, hc, idsOf_perm c hperm], ?_,
    ⟨by rw [c5]; exact List.length_pos_of_ne_nil c8, by rw [k2]; exact h.names⟩, h.sign⟩
  obtain ⟨e1, e2, e3, e4, e5, e6, e7, e8, e9⟩ := h.program
  rw [k3]
  simp only [shared, ← e1, ← e2, ← e3, ← e4, ← e5, ← e6, ← e7, ← e8, ← e9, hc, h.me, h.msgID, h.msgs]

/-- **C112, signing**: likewise for the signers of a list of messages. The nodes also agree on the local parties, of which there is one for each
message. -/
theorem c112_keysign (enc : Encoders P) (prog : TssCommon.Env Str P) (c : Codec Str P) (signers : List Str) (hk : Proper c signers)
    (hall : ∀ k ∈ signers, ∃ p, GetPeerIDFromPubKey c k = .ok p) (hl : Lossless enc prog) (hsize : signers.length ≤ 2 ^ 50) (id : String)
    (msgs : List Bytes) (env : P → Server.Env P S H L) (task : P → KeySign.Job L) (lenv : P → LoopEnv Str P) (mgr : P → Manager Str P)
    (sign : P → Bytes → Bytes)
    (h : ∀ p k, Owns c signers p k → SignNode prog c signers id msgs p k (env p) (task p) (lenv p) (mgr p) (sign p)) :
    ∃ ids peers, (∀ p, Member peers p ↔ ∃ k, Owns c signers p k) ∧
      Setting enc (shared prog c id (KeySign.monikers msgs)) ids peers (siteOf TSSKeySignMsg lenv mgr sign) := by
  obtain ⟨peers, h1, h2⟩ := setting_of (Or.inr rfl) hall (fun p k ho => ready_sign hk (h p k ho)) hl hsize
  exact ⟨_, peers, h1, h2⟩

/-- What a member `p` of a party does after its join reported the party `l`: it looks up the members' keys and sets up the signing. -/
structure GoesOn (prog : TssCommon.Env Str P) (c : Codec Str P) (id : String) (msgs : List Bytes) (p : P) (l : List P) (env : Server.Env P S H L)
    (task : KeySign.Job L) (lenv : LoopEnv Str P) (mgr : Manager Str P) (sign : Bytes → Bytes) : Prop where
  own : GetPubKeyFromPeerID c p = .ok task.state.localPartyKey
  program : SameProgram prog env.session
  names : Function.Injective env.pstr
  sign : SignsFor prog c id task.state.localPartyKey sign
  msgID : task.msgID = id
  msgs : task.msgs = msgs
  started : ∃ signers sch, GetPubKeysFromPeerIDs env.codec l = .ok signers ∧ KeySign.signSetup env sch task signers = .run lenv mgr

/-- **C112, from the join to the session**: in a network of nodes with an honest leader, let `l` be the party which some honest node was told it has joined.
If every member of `l` is honest, has joined a party and has gone on to sign, then the sessions of these members are those of one and the same party, `l`
- even though each member only knows the party that was reported to itself. -/
theorem c112_party {T : Type} {R : Parties.Round P H} {committee : List P} {leader : P} {w : JoinNet.Wire} {job : P → JoinNet.Job} {honest : P → Bool}
    (env : P → Server.Env P S H L) (hR : ∀ p, honest p = true → Parties.Takes R (env p) (job p) p) (hL : Parties.LedBy R committee leader)
    (hlp : Spec.Server.LawfulPeers R.peers) (hlk : Spec.Server.LawfulKeys R.codec) (hw : Parties.LawfulWire w) (hhl : honest leader = true)
    (ht : 0 ≤ R.threshold) (hN : List (JoinNet.NetEvent P T)) (p₀ : P) (hp₀ : honest p₀ = true) (l : List P)
    (hres : ((JoinNet.netRun env w job honest hN).nodes p₀).result = some ⟨l, none⟩) (hhonest : ∀ p ∈ l, honest p = true) (hlen : l.length ≤ 2 ^ 50)
    (enc : Encoders P) (prog : TssCommon.Env Str P) (hl : Lossless enc prog) (id : String) (msgs : List Bytes)
    (task : P → KeySign.Job L) (lenv : P → LoopEnv Str P) (mgr : P → Manager Str P) (sign : P → Bytes → Bytes)
    (h : ∀ p ∈ l, ∃ lp, ((JoinNet.netRun env w job honest hN).nodes p).result = some ⟨lp, none⟩ ∧
      GoesOn prog R.codec id msgs p lp (env p) (task p) (lenv p) (mgr p) (sign p)) :
    ∃ ids peers, (∀ p, Member peers p ↔ p ∈ l) ∧
      Setting enc (shared prog R.codec id (KeySign.monikers msgs)) ids peers (siteOf TSSKeySignMsg lenv mgr sign) := by
  obtain ⟨hlead, hnd, -, -⟩ := Parties.c97_party hR hL hlp hw hhl ht hN hp₀ l hres
  have hsame : ∀ p ∈ l, GoesOn prog R.codec id msgs p l (env p) (task p) (lenv p) (mgr p) (sign p) := by
    intro p hp
    obtain ⟨lp, h1, h2⟩ := h p hp
    rw [Parties.c97_same hR hL hlp hw hhl hN hp₀ (hhonest p hp) l lp hres h1]
    exact h2
  obtain ⟨signers, -, hsig, -⟩ := (hsame leader hlead).started
  rw [(hR leader hhl).codec] at hsig
  obtain ⟨hprop, hon⟩ := proper_online hlk hnd hsig
  have hf := (Server.getPubKeys_forall₂ R.codec l signers).1 hsig
  have hall : ∀ k ∈ signers, ∃ p ∈ l, GetPeerIDFromPubKey R.codec k = .ok p := by
    intro k hk
    obtain ⟨p, hp, h1⟩ := Server.forall₂_mem_right hf hk
    exact ⟨p, hp, Server.LawfulKeys.peer hlk h1⟩
  obtain ⟨ids, peers, k1, k2⟩ := c112_keysign enc prog R.codec signers hprop (fun k hk => let ⟨p, _, hp⟩ := hall k hk; ⟨p, hp⟩) hl
    (by rw [← hf.length_eq]; exact hlen) id msgs env task lenv mgr sign (by
      rintro p k ⟨hk, hpk⟩
      have hp : p ∈ l := (hon p).2 ⟨k, hk, hpk⟩
      have hg := hsame p hp
      have hown : (task p).state.localPartyKey = k := by
        obtain ⟨k', hk', h1⟩ := Server.forall₂_mem_left hf hp
        have := hg.own
        rw [h1] at this
        cases this
        exact peer_inj R.codec signers hprop hk' hk (Server.LawfulKeys.peer hlk h1) hpk
      obtain ⟨signers', sch, h1, h2⟩ := hg.started
      rw [(hR p (hhonest p hp)).codec, hsig] at h1
      cases h1
      exact ⟨(hR p (hhonest p hp)).codec, (hR p (hhonest p hp)).me, hown, hg.program, hg.names, hown ▸ hg.sign, hg.msgID, hg.msgs,
        sch, signers, List.Perm.refl _, h2⟩)
  refine ⟨ids, peers, fun p => ?_, k2⟩
  rw [k1, hon]
  rfl

end

/-- Sessions of one and the same party exchange their shares: with `Setting` from the theorems above, C103 applies to the sessions as they were set up. -/
theorem c112_exchange {enc : Encoders P} {base : TssCommon.Env Str P} {members : P → Prop} [DecidablePred members] {site : P → Site Str P}
    (hs : ∃ ids peers, (∀ p, Member peers p ↔ members p) ∧ Setting enc base ids peers site) :
    ∃ peers : Map Nat P, (∀ p, Member peers p ↔ members p) ∧ ∀ h : List (SessNet.NetEvent P), Closed h →
      (∀ i q, Map.get peers i = some q → Spec.Proper base (site q).out i (outputsAt q h)) → Welcome peers site h →
      ∀ q, members q →
        let n := SessNet.netRun enc site (fun p => decide (members p)) h
        ((n.nodes q).alive = true ∧ (n.nodes q).ses.mgr.blame = (site q).mgr.blame ∧ (n.nodes q).ses.culprits = [] ∧
          ∀ en ∈ (n.nodes q).ses.log, en.ok = true) ∧
        (n.pool = [] → Served peers site h (n.nodes q).ses.log q) := by
  obtain ⟨ids, peers, h1, h2⟩ := hs
  refine ⟨peers, h1, fun h hc hp hw q hq => ?_⟩
  exact SessionNet.c103_fault_free h2 (fun p => by rw [decide_eq_true_eq, h1]) h hc hp hw q ((h1 q).2 hq)

/-! ## Cases -/

section Demo
open Verif.Spec.DemoServer (key codec)

/-- the program of the example: the encodings of `demoEnc`, a signature is the key of the signer -/
def prog : TssCommon.Env Str Nat where
  codec := codec
  decWrapped := Code.byte.dec
  decWire b := (Code.wire.dec b).map Prod.fst
  decConfirm b := (Code.confirm.dec b).map Prod.fst
  decTask b := (Code.bool.dec b).map Prod.fst
  decControl b := (Code.control.dec b).map Prod.fst
  decBulk b := ((Code.list Code.share).dec b).map Prod.fst
  parse := demoBase.parse
  hash := demoBase.hash
  verify pk _ sig := decide (pk = sig)
  msgID := []
  parties := []
  upd _ _ := none
  localPeer := 0
  p2pPeers := []

theorem prog_lossless : Lossless demoEnc prog :=
  ⟨fun t b => Code.byte.ok t b, fun w => Code.full _ w, fun w => Code.full _ w, fun w => Code.full _ w, fun w => Code.full _ w,
    fun w => Code.full _ w⟩

/-- the node with peer id `p` -/
def node (p : Nat) : Server.Env Nat Nat Nat Unit := { DemoServer.env (p - 10) with session := prog }

/-- its signatures -/
def signature (p : Nat) (_ : Bytes) : Bytes := [UInt8.ofNat (p - 9)]

/-- its task: signing two equal messages -/
def signing (p : Nat) : KeySign.Job Unit := ⟨"id", [[7], [7]], 2, DemoServer.state (p - 10), []⟩

/-- its session, set up with the keys in this order and these visiting orders -/
def session (sch : KeySign.SetupSched Nat) (p : Nat) (signers : List Str) : KeySign.Setup Nat := KeySign.signSetup (node p) sch (signing p) signers

/-- visiting orders: as they come for most nodes, backwards for node 11 -/
def order (p : Nat) : KeySign.SetupSched Nat :=
  if p = 11 then ⟨⟨List.reverse, List.reverse_perm⟩, ⟨List.reverse, List.reverse_perm⟩, ⟨List.reverse, List.reverse_perm⟩⟩ else SetUp.sched

/-- the session's environment -/
def lenvOf (p : Nat) (signers : List Str) : LoopEnv Str Nat :=
  match session (order p) p signers with
  | .run lenv _ => lenv
  | _ => ⟨prog, ⟨0, [], [], fun _ => ""⟩, fun _ => true⟩

/-- the session's blame manager -/
def mgrOf (p : Nat) (signers : List Str) : Manager Str Nat :=
  match session (order p) p signers with
  | .run _ mgr => mgr
  | _ => newManager [] [] 0

/-- does it start? -/
def starts (p : Nat) (signers : List Str) : Bool :=
  match session (order p) p signers with
  | .run _ _ => true
  | _ => false

theorem starts_run {p : Nat} {signers : List Str} (h : starts p signers = true) :
    KeySign.signSetup (node p) (order p) (signing p) signers = .run (lenvOf p signers) (mgrOf p signers) := by
  unfold starts session at h
  unfold lenvOf mgrOf session
  split at h
  · rename_i lenv mgr hr; rw [hr]
  · cases h

theorem node_names (p : Nat) : Function.Injective (node p).pstr := by
  intro a b h
  have := congrArg String.length h
  simpa [node, DemoServer.env] using this

theorem signature_verifies (i : Nat) (hi : i < 4) : SignsFor prog codec "id" (key i) (signature (10 + i)) := by
  intro kb hkb b
  have : kb = signature (10 + i) b := by
    simp only [codec] at hkb
    split at hkb
    · rename_i x
      simp only [Option.some.injEq, key, List.cons.injEq, and_true, true_and] at hkb
      have hx : ∀ (x : UInt8) (i : Nat), i < 4 → Char.ofNat (96 + x.toNat) = Char.ofNat (97 + i) → x = UInt8.ofNat (10 + i - 9) := by
        intro x i hi
        have : ∀ n < 256, ∀ i < 4, Char.ofNat (96 + n) = Char.ofNat (97 + i) → n = 10 + i - 9 := by decide +kernel
        intro h
        have h1 := this x.toNat (UInt8.toNat_lt x) i hi h
        rw [← h1]; simp
      rw [hx x i hi hkb]
      rfl
    · cases hkb
  simp [prog, this]

theorem demo_nodes : ∀ p ∈ [11, 10], GetPubKeyFromPeerID codec p = .ok (signing p).state.localPartyKey ∧ starts p [key 1, key 0] = true := by
  decide +kernel

/-- **C112**, a case: the party of 11 and 10 that is formed in the example of C97 starts one session, although node 11 visits its maps in another order. -/
theorem demo_session : ∃ ids peers, (∀ p, Member peers p ↔ p ∈ [11, 10]) ∧
    Setting demoEnc (shared prog codec "id" ["7:0", "7:1"]) ids peers
      (siteOf TSSKeySignMsg (fun p => lenvOf p [key 1, key 0]) (fun p => mgrOf p [key 1, key 0]) signature) := by
  have hmon : KeySign.monikers [[7], [7]] = ["7:0", "7:1"] := by decide +kernel
  rw [← hmon]
  refine c112_party (R := Parties.demoRound) (committee := [10, 11, 12]) (leader := 10) (w := DemoJoinNet.wire) (job := DemoJoinNet.job)
    (honest := DemoJoinNet.honest) node ?_ Parties.demoLed DemoServer.lawfulPeers DemoServer.lawfulKeys Parties.demoWire rfl (by decide)
    DemoJoinNet.formed 10 rfl [11, 10] (by decide +kernel) (by decide) (by decide) demoEnc prog prog_lossless "id" [[7], [7]] signing _ _ signature ?_
  · intro p hp
    exact ⟨(Parties.demoTakes p hp).me, rfl, rfl, rfl, (Parties.demoTakes p hp).withLeader, rfl, rfl, (Parties.demoTakes p hp).keys, rfl⟩
  · intro p hp
    refine ⟨[11, 10], ?_, (demo_nodes p hp).1, ⟨rfl, rfl, rfl, rfl, rfl, rfl, rfl, rfl, rfl⟩, node_names p, ?_, rfl, rfl, [key 1, key 0], order p,
      (by decide +kernel : GetPubKeysFromPeerIDs codec [11, 10] = .ok [key 1, key 0]), starts_run (demo_nodes p hp).2⟩
    · have : ∀ p ∈ [11, 10], ((JoinNet.netRun node DemoJoinNet.wire DemoJoinNet.job DemoJoinNet.honest DemoJoinNet.formed).nodes p).result =
        some ⟨[11, 10], none⟩ := by decide +kernel
      exact this p hp
    · have hpp : p = 11 ∨ p = 10 := by simpa using hp
      rcases hpp with rfl | rfl
      · exact signature_verifies 1 (by decide)
      · exact signature_verifies 0 (by decide)

/-- the node with peer id `p` in a key generation -/
def genNode (p : Nat) : Keygen.KEnv Nat Nat Nat Unit Unit Unit Nat := { KeyGeneration.env (p - 10) with base := node p }

/-- the keys as node `p` was given them -/
def given (p : Nat) : List Str := if p = 11 then [key 0, key 1, key 2, key 3] else [key 2, key 0, key 3, key 1]

/-- its session -/
def genSession (p : Nat) : Option (LoopEnv Str Nat × Manager Str Nat) :=
  match Keygen.genSetup (genNode p) ⟨(order p).a, (order p).b, (order p).c⟩ "id" (given p) with
  | .run lenv mgr => some (lenv, mgr)
  | _ => none

theorem genSession_run {p : Nat} (h : (genSession p).isSome = true) (d : LoopEnv Str Nat × Manager Str Nat) :
    Keygen.genSetup (genNode p) ⟨(order p).a, (order p).b, (order p).c⟩ "id" (given p) =
      .run ((genSession p).getD d).1 ((genSession p).getD d).2 := by
  unfold genSession at h ⊢
  split at h
  · rename_i lenv mgr hr; rw [hr]; rfl
  · cases h

/-- **C112**, a case of key generation: four nodes that were given the keys in different orders. -/
theorem demo_keygen_session (d : LoopEnv Str Nat × Manager Str Nat) : ∃ ids peers,
    (∀ p, Member peers p ↔ ∃ k, Owns codec [key 2, key 0, key 3, key 1] p k) ∧
    Setting demoEnc (shared prog codec "id" [""]) ids peers
      (siteOf TSSKeyGenMsg (fun p => ((genSession p).getD d).1) (fun p => ((genSession p).getD d).2) signature) := by
  have hpk : ∀ i, i < 4 → GetPeerIDFromPubKey codec (key i) = .ok (10 + i) ∧ (genSession (10 + i)).isSome = true := by decide +kernel
  have hkey : ∀ k ∈ [key 2, key 0, key 3, key 1], ∃ i, i < 4 ∧ k = key i := by
    intro k hk
    simp only [List.mem_cons, List.not_mem_nil, or_false] at hk
    rcases hk with rfl | rfl | rfl | rfl
    exacts [⟨2, by decide, rfl⟩, ⟨0, by decide, rfl⟩, ⟨3, by decide, rfl⟩, ⟨1, by decide, rfl⟩]
  refine c112_keygen demoEnc prog codec _ SetUp.demoProper ?_ prog_lossless (by decide) "id" genNode _ _ signature ?_
  · intro k hk
    obtain ⟨i, hi, rfl⟩ := hkey k hk
    exact ⟨_, (hpk i hi).1⟩
  · rintro p k ⟨hk, hp⟩
    obtain ⟨i, hi, rfl⟩ := hkey k hk
    rw [(hpk i hi).1] at hp
    cases hp
    refine ⟨rfl, ?_, ?_, ⟨rfl, rfl, rfl, rfl, rfl, rfl, rfl, rfl, rfl⟩, node_names _, signature_verifies i hi, _, _, ?_,
      genSession_run (hpk i hi).2 d⟩
    · show 10 + (10 + i - 10) = 10 + i
      omega
    · show key (10 + i - 10) = key i
      rw [Nat.add_sub_cancel_left]
    · unfold given
      split
      · decide +kernel
      · exact List.Perm.refl _

end Demo

end Verif.Props.Agreed
