import Verif.Lemmas.CeremonyRest
import Verif.Lemmas.CeremonyCheck
import Verif.Props.C46
import Verif.Props.C112

/-!
# C123: an undisturbed ceremony succeeds at every member

`netRun enc v seat member h` are the calls of the members of a ceremony after the events `h`. The theorems are about every such history, of any
length, in which nothing is disturbed (`Undisturbed`): messages may be delivered in any order and interleaved with anything else.
-/
set_option linter.unusedSectionVars false
namespace Verif.Props.Undisturbed
open Verif.Go Verif.Conversion Verif.Messages Verif.Blame Verif.TssCommon Verif.SessNet Verif.SessionCall Verif.Session Verif.Spec Verif.Ceremony
open Verif.Server (Str)
open Verif.Props.KeyGeneration (PoolKey stored)
open Verif.Props.Storage (Good)
open Verif.Props.Agreed (Owns GenNode SignNode shared siteOf idsOf)
open scoped List

/-! ## Specification -/

/-- Specification: what a call has to offer while nothing disturbs the ceremony: the program runs, the loop has not failed, nobody is blamed, no
share has been refused -/
structure Unharmed {K P : Type} (mgr : Manager K P) (ses : TssCommon.St K P) (crashed failed : Prop) : Prop where
  crashed : ¬ crashed
  failed : ¬ failed
  blame : ses.mgr.blame = mgr.blame
  culprits : ses.culprits = []
  shares : ∀ en ∈ ses.log, en.ok = true

section
variable {P S H L Pt A Q : Type} [DecidableEq P] [LinearOrder S] [LinearOrder H]

/-- the members of a key generation -/
def genSeats (env : P → Keygen.KEnv P S H L Pt A Q) (lenv : P → LoopEnv Str P) (mgr : P → Manager Str P) (sign : P → Bytes → Bytes)
    (keys : P → List Str) (disk : P → Storage.Disk) (q : P) : Seat Str P (Keygen.End L A Q) (Keygen.GenSt P Pt) :=
  genSeat (env q) (lenv q) (mgr q) (sign q) (keys q) (disk q)

/-- Specification: the key generation of `q` has ended with a key: its local party has delivered a share, the loop has returned the key of this share,
the share is stored under this key, and `q` knows that all others are done, too -/
def HasKey (env : Keygen.KEnv P S H L Pt A Q) (keys : List Str) (n : Ceremony.Node P (Keygen.End L A Q) (Keygen.GenSt P Pt)) : Prop :=
  ∃ e k, e ∈ Props.SessionCall.given n.hist ∧ PoolKey env (env.pubOf e.share) k ∧ n.call.loop.result = some (.ok (env.pubOf e.share)) ∧
    stored env n.call.loop.disk k = .ok ⟨k, e.share, keys, env.ownKey⟩ ∧ n.call.loop.ses.taskDone = true

end

section
variable {K P : Type} [DecidableEq K] [DecidableEq P]

/-- the members of a signing of `k` messages by `n` members -/
def signSeats (lenv : P → LoopEnv K P) (mgr : P → Manager K P) (sign : P → Bytes → Bytes) (n k : Nat) (q : P) : Seat K P Sig (SignSt K P) :=
  signSeat (lenv q) (mgr q) (sign q) n k

/-- Specification: the signing of `q` has ended with all signatures: the loop has returned what the local parties delivered, one for each of the `k`
messages, and `q` knows that all others are done, too -/
def HasSignatures (k : Nat) (n : Ceremony.Node P Sig (SignSt K P)) : Prop :=
  n.call.loop.result = some (.ok (Props.SessionCall.given n.hist)) ∧ (Props.SessionCall.given n.hist).length = k ∧ n.call.loop.ses.taskDone = true

end

/-! ## Lemmas -/

theorem results_sub {P R σ : Type} (L : Loop P R σ) (caps : Caps) (l : σ) (h : List (SessionCall.Event P R))
    (hc : L.crashed (SessionCall.run L caps l h).loop = false) (hroom : (Props.SessionCall.given h).length ≤ caps.fin) :
    Props.SessionCall.results (Props.SessionCall.looped L caps (SessionCall.init l) h) <+: Props.SessionCall.given h :=
  ⟨_, Props.SessionCall.results_kept L caps l h hc hroom⟩

section
variable {K P R σ : Type} [DecidableEq K] [DecidableEq P]
variable {enc : Encoders P} {v : View K P σ} {seat : P → Seat K P R σ} {member : P → Bool} {taken : σ → Nat} {need : Nat}
    {good : P → R → Prop} {base : TssCommon.Env K P} {ids : Map Nat Party} {peers : Map Nat P}

theorem net_run_append (h h' : List (Ceremony.NetEvent P R)) :
    Ceremony.netRun enc v seat member (h ++ h') = h'.foldl (Ceremony.netStep enc v seat member) (Ceremony.netRun enc v seat member h) := by
  simp [Ceremony.netRun]

/-- when all others are known to be done, a call returns without waiting for the five seconds -/
theorem returns_of (hS : Scene enc v seat member taken need good base ids peers) {h : List (Ceremony.NetEvent P R)} {g : List (SessNet.NetEvent P)}
    (hs : Sim enc v seat member taken need good (Ceremony.netRun enc v seat member h) g) {q : P} (hq : Member peers q)
    (hok : Succeeded v seat (Ceremony.netRun enc v seat member h) q)
    (hst : SessionCall.Event.started true ∈ ((Ceremony.netRun enc v seat member h).nodes q).hist) :
    ((Ceremony.netRun enc v seat member (h ++ [.at_ q .graceDone, .at_ q .inboundEnds, .at_ q .ret])).nodes q).call.returned = some true := by
  have hqm := (hS.members q).2 hq
  have hf := hS.faithful q hqm
  have hn := hs.node q hqm
  rw [net_run_append]
  generalize Ceremony.netRun enc v seat member h = c at *
  have hstep : ∀ (c : Ceremony.Net P R σ) e, own e = true → ((Ceremony.netStep enc v seat member c (.at_ q e)).nodes q).call =
      SessionCall.step (seat q).loop (seat q).caps (c.nodes q).call e := by
    intro c e he
    simp [Ceremony.netStep, hqm, he, Ceremony.Net.update, happen]
  simp only [List.foldl_cons, List.foldl_nil]
  rw [hstep _ _ rfl, hstep _ _ rfl, hstep _ _ rfl]
  have hcr := hn.crashed
  have hst' : (c.nodes q).call.started.isSome = true := by
    rw [hn.call]
    exact Props.SessionCall.mem_started _ _ _ true hst (by rw [← hn.call]; exact hcr)
  have h1 : SessionCall.step (seat q).loop (seat q).caps (c.nodes q).call .graceDone = { (c.nodes q).call with commStop := true } := by
    unfold SessionCall.step
    rw [if_neg (by simp [hcr])]
    show (if _ then _ else _) = _
    rw [if_pos ⟨hok.result, by rw [hf.taskDone]; exact hok.done⟩]
  have h2 : SessionCall.step (seat q).loop (seat q).caps { (c.nodes q).call with commStop := true } .inboundEnds =
      { (c.nodes q).call with commStop := true, inbound := false } := by
    unfold SessionCall.step
    rw [if_neg (by simp [hcr])]
    rfl
  rw [h1, h2]
  unfold SessionCall.step
  rw [if_neg (by simp [hcr])]
  show (SessionCall.rest _ _ _ .ret).returned = _
  unfold SessionCall.rest
  simp only [hok.result]
  rw [if_pos ⟨trivial, trivial, hst'⟩]

end

/-! ## Key generation -/

section
variable {P S H L Pt A Q : Type} [DecidableEq P] [LinearOrder S] [LinearOrder H]
variable {enc : Encoders P} {base : TssCommon.Env Str P} {ids : Map Nat Party} {peers : Map Nat P} {env : P → Keygen.KEnv P S H L Pt A Q}
    {lenv : P → LoopEnv Str P} {mgr : P → Manager Str P} {sign : P → Bytes → Bytes} {keys : P → List Str} {disk : P → Storage.Disk} {member : P → Bool}

theorem scene_gen (hset : Setting enc base ids peers (siteOf TSSKeyGenMsg lenv mgr sign)) (hm : ∀ p, member p = true ↔ Member peers p) :
    Scene enc genView (genSeats env lenv mgr sign keys disk) member (fun s : Keygen.GenSt P Pt => s.result.toList.length) 1
      (fun q => Stores (env q) (keys q)) base ids peers where
  setting := hset
  members := hm
  faithful q _ := faithful_gen (env q) (lenv q) (mgr q) (sign q) (keys q) (disk q)
  starts _ _ := ⟨rfl, rfl, rfl, rfl, rfl, rfl, Nat.le_refl 1⟩

/-- **C123, key generation, at every moment**: while nothing disturbs a key generation, no member crashes, fails, blames anybody or refuses a share. -/
theorem c123_keygen_unharmed (hset : Setting enc base ids peers (siteOf TSSKeyGenMsg lenv mgr sign)) (hm : ∀ p, member p = true ↔ Member peers p)
    (h : List (Ceremony.NetEvent P (Keygen.End L A Q)))
    (hu : Ceremony.Undisturbed enc genView (genSeats env lenv mgr sign keys disk) member (fun q => Stores (env q) (keys q)) base peers h)
    (q : P) (hq : Member peers q) :
    let s := ((Ceremony.netRun enc genView (genSeats env lenv mgr sign keys disk) member h).nodes q).call.loop
    Unharmed (mgr q) s.ses (s.crashed = true) (∃ e, s.result = some (.error e)) := by
  intro s
  have hS := scene_gen (env := env) (keys := keys) (disk := disk) hset hm
  obtain ⟨g, hg⟩ := sim_run hS h hu.calm hu.proper hu.welcome
  obtain ⟨h1, h2, h3, h4, h5⟩ := sim_safe hS hg hu.proper hu.welcome q hq
  refine ⟨?_, ?_, h3, h4, h5⟩
  · have h1 : s.crashed = false := h1
    simp [h1]
  · intro he
    exact h2 ((Props.SessionCall.result_gen (env q) (lenv q) (keys q) s).2.1 he)

/-- **C123, key generation** (part; full statement: without `drained` in `Settled`, refuted by `c123_left_behind`): when an undisturbed key generation has
come to rest, every member has the key: the share which its local party delivered is stored, and the call returns it without waiting any longer. -/
theorem c123_keygen_partial (hset : Setting enc base ids peers (siteOf TSSKeyGenMsg lenv mgr sign)) (hm : ∀ p, member p = true ↔ Member peers p)
    (hone : base.parties.length = 1) (hmsg : ∀ q, Member peers q → (lenv q).out.msgNum = 1 ∧ keys q ≠ []) (hn : 2 ≤ ids.length)
    (hgood : ∀ q, Member peers q → ∃ pre, Good (env q).base.storage pre) (h : List (Ceremony.NetEvent P (Keygen.End L A Q)))
    (hu : Ceremony.Undisturbed enc genView (genSeats env lenv mgr sign keys disk) member (fun q => Stores (env q) (keys q)) base peers h)
    (rounds : List Round) (hr : Settled base peers genView (genSeats env lenv mgr sign keys disk)
      (Ceremony.netRun enc genView (genSeats env lenv mgr sign keys disk) member h) rounds) (q : P) (hq : Member peers q) :
    HasKey (env q) (keys q) ((Ceremony.netRun enc genView (genSeats env lenv mgr sign keys disk) member h).nodes q) ∧
    (SessionCall.Event.started true ∈ ((Ceremony.netRun enc genView (genSeats env lenv mgr sign keys disk) member h).nodes q).hist →
      ((Ceremony.netRun enc genView (genSeats env lenv mgr sign keys disk) member
        (h ++ [.at_ q .graceDone, .at_ q .inboundEnds, .at_ q .ret])).nodes q).call.returned = some true) := by
  have hS := scene_gen (env := env) (keys := keys) (disk := disk) hset hm
  obtain ⟨g, hg⟩ := sim_run hS h hu.calm hu.proper hu.welcome
  have hcap : ∀ q, Member peers q → base.parties.length ≤ (keys q).length := by
    intro q hq
    rw [hone]
    exact List.length_pos_of_ne_nil (hmsg q hq).2
  have hok := rest_success hS hone.symm (by
      obtain ⟨a, ha⟩ := List.length_eq_one_iff.1 hone
      rw [ha]; simp) (fun q hq => ⟨by rw [hone]; exact (hmsg q hq).1, hcap q hq⟩) hn hg hu.proper hu.welcome hr.given hr.prompt hr.rest hr.drained q hq
  refine ⟨?_, returns_of hS hg hq hok⟩
  have hnode := hg.node q ((hm q).2 hq)
  generalize hcn : (Ceremony.netRun enc genView (genSeats env lenv mgr sign keys disk) member h).nodes q = n at *
  obtain ⟨pt, hpt⟩ := (Props.SessionCall.result_gen (env q) (lenv q) (keys q) n.call.loop).1.2 (hcn ▸ hok.result)
  obtain ⟨pre, hpre⟩ := hgood q hq
  have hloop : n.call.loop = Keygen.genRun (env q) (lenv q) (keys q) (newTssCommon (mgr q)) (disk q)
      (Props.SessionCall.looped (genLoop (env q) (lenv q) (keys q)) (genCaps (keys q).length)
      (SessionCall.init (Keygen.genInit (newTssCommon (mgr q)) (disk q))) n.hist) := by
    rw [hnode.call]
    exact Props.SessionCall.c109_keygen_loop (env q) (lenv q) (keys q) _ _ _ _
  have hinv := KeyGeneration.sesInv (disk := disk q) hpre (lenv q) (keys q) (newTssCommon (mgr q))
    (Props.SessionCall.looped (genLoop (env q) (lenv q) (keys q)) (genCaps (keys q).length)
      (SessionCall.init (Keygen.genInit (newTssCommon (mgr q)) (disk q))) n.hist)
  rw [hloop] at hpt
  obtain ⟨e, k, h1, rfl, h3, h4⟩ := hinv.ok pt hpt
  have hdone : n.call.loop.ses.taskDone = true := hcn ▸ hok.done
  rw [← hloop] at hpt h4
  refine ⟨e, k, ?_, h3, hpt, h4, hdone⟩
  have hsub := results_sub (genLoop (env q) (lenv q) (keys q)) (genCaps (keys q).length) (Keygen.genInit (newTssCommon (mgr q)) (disk q)) n.hist
    (by have := hnode.crashed; rw [hnode.call] at this; exact this)
    (le_trans (hcn ▸ hr.given q hq) (hcap q hq))
  refine hsub.subset (List.mem_filterMap.2 ⟨_, h1, rfl⟩)

end

/-! ## Signing -/

section
variable {K P : Type} [DecidableEq K] [DecidableEq P]
variable {enc : Encoders P} {base : TssCommon.Env K P} {ids : Map Nat Party} {peers : Map Nat P} {lenv : P → LoopEnv K P} {mgr : P → Manager K P}
    {sign : P → Bytes → Bytes} {n k : Nat} {member : P → Bool}

theorem scene_sign (hset : Setting enc base ids peers (fun q => (signSeats lenv mgr sign n k q).site)) (hm : ∀ p, member p = true ↔ Member peers p)
    (hk : 1 ≤ k) : Scene enc signView (signSeats lenv mgr sign n k) member (fun s : SignSt K P => s.sigs.length) k (fun _ _ => True) base ids peers where
  setting := hset
  members := hm
  faithful q _ := faithful_sign (lenv q) (mgr q) (sign q) n k
  starts _ _ := ⟨rfl, rfl, rfl, rfl, rfl, rfl, hk⟩

/-- **C123, signing, at every moment**: while nothing disturbs a signing, no member crashes, fails, blames anybody or refuses a share. -/
theorem c123_keysign_unharmed (hset : Setting enc base ids peers (fun q => (signSeats lenv mgr sign n k q).site))
    (hm : ∀ p, member p = true ↔ Member peers p) (hk : 1 ≤ k) (h : List (Ceremony.NetEvent P Sig))
    (hu : Ceremony.Undisturbed enc signView (signSeats lenv mgr sign n k) member (fun _ _ => True) base peers h) (q : P) (hq : Member peers q) :
    let s := ((Ceremony.netRun enc signView (signSeats lenv mgr sign n k) member h).nodes q).call.loop
    Unharmed (mgr q) s.ses (s.crashed = true) (∃ e, s.result = some (.error e)) := by
  intro s
  have hS := scene_sign hset hm hk
  obtain ⟨g, hg⟩ := sim_run hS h hu.calm hu.proper hu.welcome
  obtain ⟨h1, h2, h3, h4, h5⟩ := sim_safe hS hg hu.proper hu.welcome q hq
  refine ⟨?_, ?_, h3, h4, h5⟩
  · have h1 : s.crashed = false := h1
    simp [h1]
  · intro he
    exact h2 ((Props.SessionCall.result_sign (lenv q) k s).2.1 he)

/-- **C123, signing** (part; full statement: without `drained` in `Settled`, refuted by `c123_left_behind`): when an undisturbed signing has come to rest,
every member has a signature for each message, as its local parties delivered them, and the call returns them without waiting any longer. -/
theorem c123_keysign_partial (hset : Setting enc base ids peers (fun q => (signSeats lenv mgr sign n k q).site))
    (hm : ∀ p, member p = true ↔ Member peers p) (hk : 1 ≤ k) (hn1 : 1 ≤ n) (hparties : base.parties.length = k ∧ base.parties.Nodup)
    (hmsg : ∀ q, Member peers q → (lenv q).out.msgNum = k) (hn : 2 ≤ ids.length) (h : List (Ceremony.NetEvent P Sig))
    (hu : Ceremony.Undisturbed enc signView (signSeats lenv mgr sign n k) member (fun _ _ => True) base peers h)
    (rounds : List Round) (hr : Settled base peers signView (signSeats lenv mgr sign n k)
      (Ceremony.netRun enc signView (signSeats lenv mgr sign n k) member h) rounds) (q : P) (hq : Member peers q) :
    HasSignatures k ((Ceremony.netRun enc signView (signSeats lenv mgr sign n k) member h).nodes q) ∧
    (SessionCall.Event.started true ∈ ((Ceremony.netRun enc signView (signSeats lenv mgr sign n k) member h).nodes q).hist →
      ((Ceremony.netRun enc signView (signSeats lenv mgr sign n k) member
        (h ++ [.at_ q .graceDone, .at_ q .inboundEnds, .at_ q .ret])).nodes q).call.returned = some true) := by
  have hS := scene_sign hset hm hk
  obtain ⟨g, hg⟩ := sim_run hS h hu.calm hu.proper hu.welcome
  have hcap : base.parties.length ≤ n * k := by
    rw [hparties.1]
    exact Nat.le_mul_of_pos_left k hn1
  have hok := rest_success hS hparties.1.symm hparties.2 (fun q hq => ⟨by rw [hparties.1]; exact hmsg q hq, hcap⟩) hn hg hu.proper hu.welcome
    hr.given hr.prompt hr.rest hr.drained q hq
  refine ⟨?_, returns_of hS hg hq hok⟩
  have hnode := hg.node q ((hm q).2 hq)
  have hgiven := hr.given q hq
  have hdone : ((Ceremony.netRun enc signView (signSeats lenv mgr sign n k) member h).nodes q).call.loop.ses.taskDone = true := hok.done
  have hres := hok.result
  generalize (Ceremony.netRun enc signView (signSeats lenv mgr sign n k) member h).nodes q = nd at *
  obtain ⟨l, hl⟩ := (Props.SessionCall.result_sign (lenv q) k nd.call.loop).1.2 hres
  have hloop : nd.call.loop = signRun (lenv q) k (newTssCommon (mgr q))
      (Props.SessionCall.looped (signLoop (lenv q) k) (signCaps n k) (SessionCall.init (signInit (newTssCommon (mgr q)))) nd.hist) := by
    rw [hnode.call]
    exact Props.SessionCall.c109_keysign_loop (lenv q) k _ _ _
  have hp := Signing.signRun_prefix (lenv q) k (newTssCommon (mgr q))
    (Props.SessionCall.looped (signLoop (lenv q) k) (signCaps n k) (SessionCall.init (signInit (newTssCommon (mgr q)))) nd.hist)
  have hl' := hl
  rw [hloop] at hl'
  obtain ⟨h1, h2⟩ := hp.2.2 l hl'
  have hsub := results_sub (signLoop (lenv q) k) (signCaps n k) (signInit (newTssCommon (mgr q))) nd.hist
    (by have := hnode.crashed; rw [hnode.call] at this; exact this) (le_trans hgiven hcap)
  have hpre : l <+: Props.SessionCall.given nd.hist := by
    rw [h1]
    refine hp.1.trans ?_
    have : ∀ le : List (LoopEvent P Sig), Signing.delivered le = Props.SessionCall.results le := by
      intro le
      unfold Signing.delivered Props.SessionCall.results
      congr 1
      funext e
      cases e <;> rfl
    rw [this]
    exact hsub
  have heq : l = Props.SessionCall.given nd.hist := hpre.eq_of_length (le_antisymm hpre.length_le (by rw [h2, ← hparties.1]; exact hgiven))
  exact ⟨by rw [hl, heq], by rw [← heq]; exact h2, hdone⟩

end

/-! ## From the set-up on -/

section
variable {P S H L Pt A Q : Type} [DecidableEq P] [LinearOrder S] [LinearOrder H]

/-- **C123, key generation, from the set-up on** (part, see `c123_keygen_partial`): the owners of two or more keys set up a key generation, each having been given
the keys in any order, and nothing disturbs them; then, when all has come to rest, every owner has the key. -/
theorem c123_keygen_ceremony_partial (enc : Encoders P) (prog : TssCommon.Env Str P) (c : Codec Str P) (keys : List Str) (hk : SetUp.Proper c keys)
    (hall : ∀ k ∈ keys, ∃ p, GetPeerIDFromPubKey c k = .ok p) (hl : Lossless enc prog) (hsize : 2 ≤ keys.length ∧ keys.length ≤ 2 ^ 50) (id : String)
    (env : P → Keygen.KEnv P S H L Pt A Q) (lenv : P → LoopEnv Str P) (mgr : P → Manager Str P) (sign : P → Bytes → Bytes)
    (hN : ∀ p k, Owns c keys p k → GenNode prog c keys id p k (env p) (lenv p) (mgr p) (sign p)) (ks : P → List Str) (hks : ∀ p, ks p ~ keys)
    (disk : P → Storage.Disk) (hgood : ∀ p k, Owns c keys p k → ∃ pre, Good (env p).base.storage pre) :
    ∃ peers, (∀ p, Member peers p ↔ ∃ k, Owns c keys p k) ∧ ∀ member : P → Bool, (∀ p, member p = true ↔ ∃ k, Owns c keys p k) →
      ∀ h : List (Ceremony.NetEvent P (Keygen.End L A Q)),
        Ceremony.Undisturbed enc genView (genSeats env lenv mgr sign ks disk) member (fun q => Stores (env q) (ks q)) (shared prog c id [""]) peers h →
        ∀ rounds, Settled (shared prog c id [""]) peers genView (genSeats env lenv mgr sign ks disk)
          (Ceremony.netRun enc genView (genSeats env lenv mgr sign ks disk) member h) rounds →
        ∀ q k, Owns c keys q k → HasKey (env q) (ks q) ((Ceremony.netRun enc genView (genSeats env lenv mgr sign ks disk) member h).nodes q) := by
  obtain ⟨peers, h1, h2⟩ := Agreed.setting_of (sign := sign) (Or.inl rfl) hall (fun p k ho => Agreed.ready_gen hk (hN p k ho)) hl hsize.2
  refine ⟨peers, h1, fun member hm h hu rounds hr q k hq => ?_⟩
  refine (c123_keygen_partial h2 (fun p => by rw [hm, h1]) rfl ?_ ?_ ?_ h hu rounds hr q ((h1 q).2 ⟨k, hq⟩)).1
  · intro q hq
    obtain ⟨k, ho⟩ := (h1 q).1 hq
    obtain ⟨sch, ks', hperm, hs⟩ := (hN q k ho).started
    have := (SetUp.c94_keygen (env q) sch id ks' (by rw [(hN q k ho).codec]; exact Agreed.proper_perm hperm hk) _ _ hs).2.2.2.2.2
    refine ⟨by rw [this], ?_⟩
    intro he
    have := (hks q).length_eq
    rw [he] at this
    simp at this
    omega
  · obtain ⟨sch, ks', hperm, hs⟩ := (hN q k hq).started
    have hsz := (SetUp.c94_keygen (env q) sch id ks' (by rw [(hN q k hq).codec]; exact Agreed.proper_perm hperm hk) _ _ hs).1.size
    rw [show (mgr q).partyIDMap = idsOf c keys from (Agreed.ready_gen (enc := enc) hk (hN q k hq)).ids, hperm.length_eq] at hsz
    omega
  · intro q hq
    obtain ⟨k, ho⟩ := (h1 q).1 hq
    exact hgood q k ho

/-- **C123, signing, from the set-up on** (part, see `c123_keysign_partial`): two or more signers set up a signing of a list of messages, and nothing disturbs
them; then, when all has come to rest, every signer has a signature for each message. -/
theorem c123_keysign_ceremony_partial (enc : Encoders P) (prog : TssCommon.Env Str P) (c : Codec Str P) (signers : List Str) (hk : SetUp.Proper c signers)
    (hall : ∀ k ∈ signers, ∃ p, GetPeerIDFromPubKey c k = .ok p) (hl : Lossless enc prog) (hsize : 2 ≤ signers.length ∧ signers.length ≤ 2 ^ 50)
    (id : String) (msgs : List Bytes) (env : P → Server.Env P S H L) (task : P → KeySign.Job L) (lenv : P → LoopEnv Str P) (mgr : P → Manager Str P)
    (sign : P → Bytes → Bytes)
    (hN : ∀ p k, Owns c signers p k → SignNode prog c signers id msgs p k (env p) (task p) (lenv p) (mgr p) (sign p)) :
    ∃ peers, (∀ p, Member peers p ↔ ∃ k, Owns c signers p k) ∧ ∀ member : P → Bool, (∀ p, member p = true ↔ ∃ k, Owns c signers p k) →
      ∀ h : List (Ceremony.NetEvent P Sig),
        Ceremony.Undisturbed enc signView (signSeats lenv mgr sign signers.length msgs.length) member (fun _ _ => True)
          (shared prog c id (KeySign.monikers msgs)) peers h →
        ∀ rounds, Settled (shared prog c id (KeySign.monikers msgs)) peers signView (signSeats lenv mgr sign signers.length msgs.length)
          (Ceremony.netRun enc signView (signSeats lenv mgr sign signers.length msgs.length) member h) rounds →
        ∀ q k, Owns c signers q k →
          HasSignatures msgs.length ((Ceremony.netRun enc signView (signSeats lenv mgr sign signers.length msgs.length) member h).nodes q) := by
  obtain ⟨peers, h1, h2⟩ := Agreed.setting_of (sign := sign) (Or.inr rfl) hall (fun p k ho => Agreed.ready_sign hk (hN p k ho)) hl hsize.2
  refine ⟨peers, h1, fun member hm h hu rounds hr q k hq => ?_⟩
  have h94 : ∀ q k, Owns c signers q k → ∃ ks', ks' ~ signers ∧ (mgr q).partyIDMap.length = ks'.length ∧ (lenv q).out.msgNum = msgs.length ∧ msgs ≠ [] := by
    intro q k ho
    obtain ⟨sch, ks', hperm, hs⟩ := (hN q k ho).started
    have := SetUp.c94_keysign (env q) sch (task q) ks' (by rw [(hN q k ho).codec]; exact Agreed.proper_perm hperm hk) _ _ hs
    obtain ⟨a1, -, -, -, a5, -, -, a8, -⟩ := this
    rw [(hN q k ho).msgs] at a5 a8
    exact ⟨ks', hperm, a1.size, a5, a8⟩
  obtain ⟨ks', hperm, hsz, hmn, hne⟩ := h94 q k hq
  refine (c123_keysign_partial h2 (fun p => by rw [hm, h1]) (List.length_pos_of_ne_nil hne) (by omega)
    ⟨by simp [shared, KeySign.monikers], SetUp.monikers_nodup msgs⟩ ?_ ?_ h hu rounds hr q ((h1 q).2 ⟨k, hq⟩)).1
  · intro q hq
    obtain ⟨k, ho⟩ := (h1 q).1 hq
    obtain ⟨-, -, -, h, -⟩ := h94 q k ho
    exact h
  · rw [show (mgr q).partyIDMap = idsOf c signers from (Agreed.ready_sign (enc := enc) hk (hN q k hq)).ids, hperm.length_eq] at hsz
    omega

end

/-! ## Cases -/

section Demo
open Verif.Spec.DemoServer (key codec)
open Verif.Props.Agreed (prog signature lenvOf mgrOf)

/-- `n` messages arrive -/
def arrive (R : Type) (n : Nat) : List (Ceremony.NetEvent Nat R) := List.replicate n (.deliver 0 ⟨Shuffle.id _, Shuffle.id _, Shuffle.id _, []⟩)

/-- a share of the local party `j` of member `i`: a broadcast of round 1, or a message of round 2 to member `d` -/
def share1 (j : String) (i : Nat) (x : UInt8) : OutBatch.Output := ⟨"KGRound1Message", j, some ([0, UInt8.ofNat i, x], ⟨some (some i), [], true⟩)⟩

/-- (round 2) -/
def share2 (j : String) (i d : Nat) (x : UInt8) : OutBatch.Output :=
  ⟨"KGRound2Message1", j, some ([1, UInt8.ofNat i, x], ⟨some (some i), [d], false⟩)⟩

/-- the two rounds -/
def twoRounds : List Round := [⟨"KGRound1Message", true⟩, ⟨"KGRound2Message1", false⟩]

/-- the signing of the messages `[7]`, `[7]` by the nodes 11 and 10 that is set up in the example of C112 -/
def pair : Nat → Seat Str Nat Sig (SignSt Str Nat) := signSeats (fun p => lenvOf p [key 1, key 0]) (fun p => mgrOf p [key 1, key 0]) signature 2 2

/-- both take part -/
def both (p : Nat) : Bool := decide (p ∈ [11, 10])

/-- a signature -/
def sigOf (x : UInt8) : Sig := ⟨some [x], [], [x], [x], [7]⟩

/-- the local parties of member `i` produce these shares -/
def puts (i : Nat) (l : List OutBatch.Output) : List (Ceremony.NetEvent Nat Sig) := l.map fun o => .at_ (i + 10) (.put o)

/-- the history: the local parties produce their shares, which are sent and arrive, round by round, and then their results -/
def pairParts : List (List (Ceremony.NetEvent Nat Sig) ⊕ (Nat × Nat)) :=
  [.inl [.at_ 10 (.started true), .at_ 11 (.started true)], .inl (puts 0 [share1 "7:0" 0 3, share1 "7:1" 0 4] ++ puts 1 [share1 "7:1" 1 5, share1 "7:0" 1 6]),
   .inr (10, 2), .inr (11, 2), .inl (arrive Sig 8), .inl (puts 0 [share2 "7:0" 0 1 3, share2 "7:1" 0 1 4] ++ puts 1 [share2 "7:1" 1 0 5, share2 "7:0" 1 0 6]),
   .inr (10, 2), .inr (11, 2), .inl (arrive Sig 8),
   .inl [.at_ 10 (.deliver (sigOf 1)), .at_ 10 (.deliver (sigOf 2)), .at_ 11 (.deliver (sigOf 2)), .at_ 11 (.deliver (sigOf 1)), .at_ 10 .takeEnd,
     .at_ 10 .takeEnd, .at_ 11 .takeEnd, .at_ 11 .takeEnd], .inl (arrive Sig 2)]

/-- the state afterwards -/
abbrev pairNet : Ceremony.Net Nat Sig (SignSt Str Nat) := Ceremony.netRun demoEnc signView pair both (parts pairParts)

attribute [local irreducible] lenvOf mgrOf Ceremony.netRun made parts

theorem both_iff {peers : Map Nat Nat} (h : ∀ p, Member peers p ↔ p ∈ [11, 10]) (p : Nat) : both p = true ↔ Member peers p := by
  rw [h]; unfold both; rw [decide_eq_true_eq]

theorem monikers77 : KeySign.monikers [[7], [7]] = ["7:0", "7:1"] := by decide +kernel

/-- what holds of the session of 11 and 10 -/
theorem pairSetting : ∃ ids peers, 2 ≤ List.length ids ∧ (∀ p, Member peers p ↔ p ∈ [11, 10]) ∧
    (∀ i q, Map.get peers i = some q → q = i + 10 ∧ i < 2) ∧
    Setting demoEnc (shared prog codec "id" ["7:0", "7:1"]) ids peers (fun q => (pair q).site) := by
  obtain ⟨ids, peers, h1, h2⟩ := Agreed.demo_session
  refine ⟨ids, peers, ?_, h1, ?_, h2⟩
  · rw [← h2.idMap 10 ((h1 10).2 (by decide))]
    show 2 ≤ List.length (mgrOf 10 [key 1, key 0]).partyIDMap
    decide +kernel
  · intro i q hi
    rw [← h2.peerMap 10 ((h1 10).2 (by decide)) i] at hi
    have : ∀ e ∈ (mgrOf 10 [key 1, key 0]).partyIDtoP2PID, e.2 = e.1 + 10 ∧ e.1 < 2 := by decide +kernel
    exact this _ (Map.mem_of_get hi)

theorem pair_accepts {peers : Map Nat Nat} (h1 : ∀ p, Member peers p ↔ p ∈ [11, 10]) (q : Nat) (hq : Member peers q) (log : List Entry) (s : Share) :
    (pair q).site.env.upd log s = none := by
  have hs : ∀ q ∈ [11, 10], Agreed.starts q [key 1, key 0] = true := by decide +kernel
  have := Agreed.starts_run (hs q ((h1 q).1 hq))
  show (lenvOf q [key 1, key 0]).ses.upd log s = none
  rw [(Agreed.signSetup_ids this).2.2]
  rfl

theorem pair_undisturbed {peers : Map Nat Nat} (h1 : ∀ p, Member peers p ↔ p ∈ [11, 10])
    (hp : ∀ i q, Map.get peers i = some q → q = i + 10 ∧ i < 2)
    (l : List (List (Ceremony.NetEvent Nat Sig) ⊕ (Nat × Nat))) (hl : l.all (stepB fun _ _ => true) = true)
    (hprop : ∀ i < 2, properB (shared prog codec "id" ["7:0", "7:1"]) (pair (i + 10)).site.out i
      (made pair (Ceremony.netRun demoEnc signView pair both (parts l)) (i + 10)) = true) :
    Ceremony.Undisturbed demoEnc signView pair both (fun _ _ => True) (shared prog codec "id" ["7:0", "7:1"]) peers (parts l) :=
  ⟨calm_of (fun _ _ _ => trivial) hl, fun i q hi => by
    obtain ⟨rfl, h⟩ := hp i q hi
    exact proper_of_check (hprop i h), welcome_of (pair_accepts h1)⟩

/-- the hypotheses of `c123_keysign_partial` are met: both have both signatures, and both calls return -/
example (q : Nat) (hq : q ∈ [11, 10]) : HasSignatures 2 (pairNet.nodes q) ∧
    ((Ceremony.netRun demoEnc signView pair both (parts pairParts ++ [.at_ q .graceDone, .at_ q .inboundEnds, .at_ q .ret])).nodes q).call.returned =
      some true := by
  obtain ⟨ids, peers, h0, h1, h2, h3⟩ := pairSetting
  have hu := pair_undisturbed h1 h2 pairParts (by decide +kernel) (by decide +kernel)
  have hr : Settled (shared prog codec "id" ["7:0", "7:1"]) peers signView pair pairNet twoRounds := settled_of _ _ _ _ h1 (by decide +kernel)
  obtain ⟨h4, h5⟩ := c123_keysign_partial h3 (both_iff h1) (by decide) (by decide) ⟨rfl, by decide⟩
    (by
      intro q hq
      have : ∀ q ∈ [11, 10], (lenvOf q [key 1, key 0]).out.msgNum = 2 := by decide +kernel
      exact this q ((h1 q).1 hq)) h0 _ hu twoRounds hr q ((h1 q).2 hq)
  refine ⟨h4, h5 ?_⟩
  have : ∀ q ∈ [11, 10], (pairNet.nodes q).hist.head?.any (fun e => match e with | .started b => b | _ => false) = true := by decide +kernel
  have := this q hq
  show SessionCall.Event.started true ∈ (pairNet.nodes q).hist
  rcases hh : (pairNet.nodes q).hist with _ | ⟨e, l⟩
  · rw [hh] at this; cases this
  · rw [hh] at this
    simp only [List.head?_cons, Option.any_some] at this
    cases e <;> simp only [Bool.false_eq_true] at this
    rw [this]
    exact List.mem_cons_self

/-- the same signing, but the loop of node 10 takes the results of its local parties before their last shares -/
def leftParts : List (List (Ceremony.NetEvent Nat Sig) ⊕ (Nat × Nat)) :=
  [.inl [.at_ 10 (.started true), .at_ 11 (.started true)], .inl (puts 0 [share1 "7:0" 0 3, share1 "7:1" 0 4] ++ puts 1 [share1 "7:1" 1 5, share1 "7:0" 1 6]),
   .inr (10, 2), .inr (11, 2), .inl (arrive Sig 8), .inl (puts 1 [share2 "7:1" 1 0 5, share2 "7:0" 1 0 6]), .inr (11, 2), .inl (arrive Sig 8),
   .inl (puts 0 [share2 "7:0" 0 1 3, share2 "7:1" 0 1 4]),
   .inl [.at_ 10 (.deliver (sigOf 1)), .at_ 10 (.deliver (sigOf 2)), .at_ 10 .takeEnd, .at_ 10 .takeEnd], .inl (arrive Sig 2)]

/-- the state afterwards -/
abbrev leftNet : Ceremony.Net Nat Sig (SignSt Str Nat) := Ceremony.netRun demoEnc signView pair both (parts leftParts)

/-- how a call has returned, and whom it blames -/
def outcome (n : Ceremony.Node Nat Sig (SignSt Str Nat)) : Option Bool × List Str := (n.call.returned, n.call.loop.ses.mgr.blame.nodes.map (·.pubkey))

/-- what happens then: the call of 10 waits five seconds and returns; the call of 11 waits until its time is up -/
def leftEnd : List (Ceremony.NetEvent Nat Sig) :=
  [.at_ 10 .graceOver, .at_ 10 .inboundEnds, .at_ 10 .ret, .at_ 11 (.timeout ⟨Shuffle.id _, Shuffle.id _, Shuffle.id _, Shuffle.id _, Shuffle.id _, Shuffle.id _, Shuffle.id _, fun _ => Shuffle.id _⟩), .at_ 11 .ret]

theorem left_prompt {peers : Map Nat Nat} (h1 : ∀ p, Member peers p ↔ p ∈ [11, 10]) :
    Prompt (shared prog codec "id" ["7:0", "7:1"]) peers signView pair leftNet twoRounds := by
  have hprod : ([11, 10].all fun p => [11, 10].all fun q => decide (p = q) || twoRounds.all fun ρ => ["7:0", "7:1"].all fun j =>
    producedB pair leftNet ρ j p q) = true := by decide +kernel
  refine ⟨?_, ?_⟩
  · intro q hq j hj k ρ hρ _ p hp hne
    have := List.all_eq_true.1 (List.all_eq_true.1 hprod q ((h1 q).1 hq)) p ((h1 p).1 hp)
    rw [Bool.or_eq_true, decide_eq_true_eq] at this
    rcases this with h | h
    · exact absurd h.symm hne
    · exact produced_of pair leftNet (List.all_eq_true.1 (List.all_eq_true.1 h ρ (List.mem_of_getElem? hρ)) j hj)
  · intro q hq h
    have hq' := (h1 q).1 hq
    simp only [List.mem_cons, List.not_mem_nil, or_false] at hq'
    rcases hq' with rfl | rfl
    · obtain ⟨i, b, r, _, ⟨_, _, _, _, _, hb, _⟩, en, hen, hs, _⟩ := h "7:0" (by decide) ⟨"KGRound2Message1", false⟩ (List.mem_cons_of_mem _ List.mem_cons_self) 10 ((h1 10).2 (by decide))
        (by decide)
      have hlog : ∀ en ∈ (leftNet.nodes 11).call.loop.ses.log, en.share.isBroadcast = true := by decide +kernel
      have := hlog en hen
      rw [hs] at this
      exact absurd (this.symm.trans hb) (by decide)
    · show 2 ≤ (Props.SessionCall.given (leftNet.nodes 10).hist).length
      decide +kernel

/-- Undisturbed, with all the local parties having done what they can and nothing on its way or waiting, a signing need not have succeeded: the loop
of a member takes what its local parties deliver in any order (keysign/tss_keysign.go:192-273), so it may take the last result before the last
shares, and return; these shares are then never sent. This member returns its signatures, the other runs into its time limit and fails. -/
theorem c123_left_behind : ∃ ids peers, Setting demoEnc (shared prog codec "id" ["7:0", "7:1"]) ids peers (fun q => (pair q).site) ∧
    (∀ p, Member peers p ↔ p ∈ [11, 10]) ∧
    Ceremony.Undisturbed demoEnc signView pair both (fun _ _ => True) (shared prog codec "id" ["7:0", "7:1"]) peers (parts leftParts) ∧
    (∀ q, Member peers q → (Props.SessionCall.given (leftNet.nodes q).hist).length ≤ 2) ∧
    Prompt (shared prog codec "id" ["7:0", "7:1"]) peers signView pair leftNet twoRounds ∧ Resting peers pair leftNet ∧
    ¬ HasSignatures 2 (leftNet.nodes 11) ∧
    outcome ((Ceremony.netRun demoEnc signView pair both (parts leftParts ++ leftEnd)).nodes 10) = (some true, []) ∧
    outcome ((Ceremony.netRun demoEnc signView pair both (parts leftParts ++ leftEnd)).nodes 11) = (some false, []) := by
  obtain ⟨ids, peers, h0, h1, h2, h3⟩ := pairSetting
  refine ⟨ids, peers, h3, h1, pair_undisturbed h1 h2 leftParts (by decide +kernel) (by decide +kernel), ?_, left_prompt h1, ⟨?_, ?_⟩, ?_, ?_, ?_⟩
  · have : ∀ q ∈ [11, 10], (Props.SessionCall.given (leftNet.nodes q).hist).length ≤ 2 := by decide +kernel
    exact fun q hq => this q ((h1 q).1 hq)
  · have : leftNet.pool.isEmpty = true := by decide +kernel
    exact List.isEmpty_iff.1 this
  · have : ∀ q ∈ [11, 10], (pair q).loop.result (leftNet.nodes q).call.loop = none → (leftNet.nodes q).call.outCh.isEmpty = true ∧ (leftNet.nodes q).call.endCh.isEmpty = true := by decide +kernel
    intro q hq hr
    have := this q ((h1 q).1 hq) hr
    exact ⟨List.isEmpty_iff.1 this.1, List.isEmpty_iff.1 this.2⟩
  · intro h
    have : (Props.SessionCall.given (leftNet.nodes 11).hist).length ≠ 2 := by decide +kernel
    exact this h.2.1
  · decide +kernel
  · decide +kernel

/-! ### A key generation -/

/-- the node with peer id `p`, which can store its share -/
def genNode (p : Nat) : Keygen.KEnv Nat Nat Nat Unit Unit Unit Nat :=
  { KeyGeneration.env (p - 10) with base := { (KeyGeneration.env (p - 10)).base with session := prog } }

/-- the keys -/
def fourKeys : List Str := [key 0, key 1, key 2, key 3]

/-- its session -/
def genSession (p : Nat) : Option (LoopEnv Str Nat × Manager Str Nat) :=
  match Keygen.genSetup (genNode p) KeyGeneration.sched "id" fourKeys with
  | .run lenv mgr => some (lenv, mgr)
  | _ => none

/-- the session's environment -/
def genEnv (p : Nat) : LoopEnv Str Nat := ((genSession p).map Prod.fst).getD ⟨prog, ⟨0, [], [], fun _ => ""⟩, fun _ => true⟩

/-- the session's blame manager -/
def genMgr (p : Nat) : Manager Str Nat := ((genSession p).map Prod.snd).getD (newManager [] [] 0)

theorem genSession_run {p : Nat} (h : (genSession p).isSome = true) :
    Keygen.genSetup (genNode p) KeyGeneration.sched "id" fourKeys = .run (genEnv p) (genMgr p) := by
  unfold genEnv genMgr
  unfold genSession at h ⊢
  split at h
  · rename_i lenv mgr hr; rw [hr]; rfl
  · cases h

/-- the results of the local parties -/
abbrev End := Keygen.End Unit Unit Nat

/-- the four nodes -/
def four : Nat → Seat Str Nat End (Keygen.GenSt Nat Unit) := genSeats genNode genEnv genMgr signature (fun _ => fourKeys) (fun _ => [])

/-- all take part -/
def all4 (p : Nat) : Bool := decide (p ∈ [10, 11, 12, 13])

/-- the result of a local party -/
def gen (p : Nat) : Ceremony.NetEvent Nat End := .at_ p (.deliver ⟨(), none, Go.Shuffle.id _, [], none⟩)

/-- the history -/
def fourParts : List (List (Ceremony.NetEvent Nat End) ⊕ (Nat × Nat)) :=
  [.inl ([10, 11, 12, 13].map fun p => .at_ p (.started true)),
   .inl ([0, 1, 2, 3].map fun i => .at_ (i + 10) (.put (share1 "" i 5))), .inr (10, 1), .inr (11, 1), .inr (12, 1), .inr (13, 1), .inl (arrive End 60),
   .inl ([0, 1, 2, 3].flatMap fun i => ([0, 1, 2, 3].filter fun d => decide (d ≠ i)).map fun d => .at_ (i + 10) (.put (share2 "" i d 5))),
   .inr (10, 3), .inr (11, 3), .inr (12, 3), .inr (13, 3), .inl (arrive End 30),
   .inl ([10, 11, 12, 13].map gen), .inl ([10, 11, 12, 13].map fun p => .at_ p .takeEnd), .inl (arrive End 20)]

/-- the state afterwards -/
abbrev fourNet : Ceremony.Net Nat End (Keygen.GenSt Nat Unit) := Ceremony.netRun demoEnc genView four all4 (parts fourParts)

theorem four_stores (q : Nat) (r : End) (h : r.fault.isNone = true) : Stores (genNode q) fourKeys r := by
  refine ⟨"p1y".toList, "addr".toList, rfl, fun disk => ?_⟩
  rw [Option.isNone_iff_eq_none] at h
  rw [h]
  show (Storage.SaveLocalState (KeyGeneration.storage (q - 10)) (fun st : Server.LocalState Unit => String.ofList st.pubKey) []
    (KeyGeneration.share (q - 10)) none disk).2 = .ok ()
  unfold Storage.SaveLocalState
  rw [show (KeyGeneration.storage (q - 10)).enc (KeyGeneration.share (q - 10)) = some [1, 2] from if_pos rfl]
  rw [show Storage.getFilePathName (KeyGeneration.storage (q - 10)) [] (String.ofList (KeyGeneration.share (q - 10)).pubKey) =
    .ok (Storage.join [] (Storage.localFileName "p1y")) from by
      show Storage.getFilePathName (KeyGeneration.storage (q - 10)) [] (String.ofList "p1y".toList) = _
      rw [String.ofList_toList]
      unfold Storage.getFilePathName KeyGeneration.storage
      rfl]
  rfl

attribute [local irreducible] genEnv genMgr

/-- the hypotheses of `c123_keygen_partial` (and of `c123_keygen_ceremony_partial`) are met: all four have the key -/
example (q : Nat) (hq : q ∈ [10, 11, 12, 13]) : HasKey (genNode q) fourKeys (fourNet.nodes q) := by
  have hpk : ∀ i, i < 4 → GetPeerIDFromPubKey codec (key i) = .ok (10 + i) ∧ (genSession (10 + i)).isSome = true := by decide +kernel
  have hkey : ∀ k ∈ fourKeys, ∃ i, i < 4 ∧ k = key i := by
    intro k hk
    simp only [fourKeys, List.mem_cons, List.not_mem_nil, or_false] at hk
    rcases hk with rfl | rfl | rfl | rfl
    exacts [⟨0, by decide, rfl⟩, ⟨1, by decide, rfl⟩, ⟨2, by decide, rfl⟩, ⟨3, by decide, rfl⟩]
  have howns : ∀ p, (∃ k, Owns codec fourKeys p k) ↔ p ∈ [10, 11, 12, 13] := by
    intro p
    constructor
    · rintro ⟨k, hk, hp⟩
      obtain ⟨i, hi, rfl⟩ := hkey k hk
      rw [(hpk i hi).1] at hp
      cases hp
      have : ∀ i < 4, 10 + i ∈ [10, 11, 12, 13] := by decide
      exact this i hi
    · intro hp
      have : ∀ p ∈ [10, 11, 12, 13], GetPeerIDFromPubKey codec (key (p - 10)) = .ok p ∧ key (p - 10) ∈ fourKeys := by decide +kernel
      exact ⟨_, (this p hp).2, (this p hp).1⟩
  have hN : ∀ p k, Owns codec fourKeys p k → GenNode prog codec fourKeys "id" p k (genNode p) (genEnv p) (genMgr p) (signature p) := by
    rintro p k ⟨hk, hp⟩
    obtain ⟨i, hi, rfl⟩ := hkey k hk
    rw [(hpk i hi).1] at hp
    cases hp
    refine ⟨rfl, ?_, ?_, ⟨rfl, rfl, rfl, rfl, rfl, rfl, rfl, rfl, rfl⟩, Agreed.node_names (10 + i), Agreed.signature_verifies i hi, _, _, List.Perm.refl _,
      genSession_run (hpk i hi).2⟩
    · show 10 + (10 + i - 10) = 10 + i
      omega
    · show key (10 + i - 10) = key i
      rw [Nat.add_sub_cancel_left]
  have hperm : fourKeys ~ [key 2, key 0, key 3, key 1] := by decide +kernel
  obtain ⟨ids, peers, h1, h2⟩ := Agreed.c112_keygen demoEnc prog codec fourKeys (Agreed.proper_perm hperm SetUp.demoProper)
    (fun k hk => by obtain ⟨i, hi, rfl⟩ := hkey k hk; exact ⟨_, (hpk i hi).1⟩) Agreed.prog_lossless (by decide) "id" genNode genEnv genMgr signature hN
  have hmem : ∀ p, Member peers p ↔ p ∈ [10, 11, 12, 13] := fun p => by rw [h1, howns]
  have hidx : ∀ i q, Map.get peers i = some q → q = i + 10 ∧ i < 4 := by
    intro i q hi
    rw [← h2.peerMap 10 ((hmem 10).2 (by decide)) i] at hi
    have : ∀ e ∈ (genMgr 10).partyIDtoP2PID, e.2 = e.1 + 10 ∧ e.1 < 4 := by decide +kernel
    exact this _ (Map.mem_of_get hi)
  have hupd : ∀ q, Member peers q → ∀ log s, (four q).site.env.upd log s = none := by
    intro q hq log s
    have : ∀ q ∈ [10, 11, 12, 13], (genSession q).isSome = true := by decide +kernel
    have := genSession_run (this q ((hmem q).1 hq))
    show (genEnv q).ses.upd log s = none
    rw [(Agreed.genSetup_ids this).2.2]
    rfl
  have hprop : ∀ i < 4, properB (shared prog codec "id" [""]) (four (i + 10)).site.out i (made four fourNet (i + 10)) = true := by decide +kernel
  refine (c123_keygen_partial h2 (fun p => by rw [hmem]; unfold all4; rw [decide_eq_true_eq]) rfl ?_ ?_ (fun p _ => ⟨_, KeyGeneration.good (p - 10)⟩)
    (parts fourParts) (keys := fun _ => fourKeys) ⟨?_, ?_, welcome_of hupd⟩ twoRounds ?_ q ((hmem q).2 hq)).1
  · have : ∀ q ∈ [10, 11, 12, 13], (genEnv q).out.msgNum = 1 := by decide +kernel
    exact fun q hq => ⟨this q ((hmem q).1 hq), by decide⟩
  · rw [← h2.idMap 10 ((hmem 10).2 (by decide))]
    show 2 ≤ List.length (genMgr 10).partyIDMap
    decide +kernel
  · exact calm_of (goodB := fun _ r => r.fault.isNone) four_stores (by decide +kernel)
  · intro i q hi
    obtain ⟨rfl, h⟩ := hidx i q hi
    exact proper_of_check (hprop i h)
  · exact settled_of _ _ _ _ hmem (by decide +kernel)

end Demo

end Verif.Props.Undisturbed
