import Verif.Props.C139
import Verif.Props.C136
import Verif.Props.C114
import Verif.Props.C52_C53

/-! # C140: the life of a pool key, from its generation to its signatures -/
set_option linter.unusedSectionVars false
namespace Verif.Props.PoolLife
open Verif.Go Verif.Curve Verif.Keygen Verif.Server Verif.Session Verif.JsonState Verif.Spec.Secp
open Verif.Bech32 (decodeKey encodeKey)
open Verif.Conversion (hashToInt secp256k1N)
open Verif.Props.KeyGeneration (stored PoolKey)
open Verif.Props.PoolKeys (OnCurve)
open Verif.Props.Ecdsa (Names elem is_elem notifierEnv)
open Verif.Props.SignedAnswers (LibSigns Right)
open Verif.Spec.Keygen (sortedKeys)

variable {P S H A Q : Type} [DecidableEq P] [LinearOrder S] [LinearOrder H]

/-- the node has the program's files, key texts and curve -/
structure RealNode (env : KEnv P S H SaveData Point A Q) : Prop where
  storage : env.base.storage = storageEnv
  onCurve : ∀ pt, env.onCurve pt = isOnCurve pt.x pt.y
  bech32 : ∀ pt, env.bech32 pt = encodeKey (serializeCompressed pt)

/-- The files after a sequence of Keygen calls, each of which went as far as its events say: it returned, or the node crashed and was started again. -/
def life (env : KEnv P S H SaveData Point A Q) (disk : Storage.Disk) (calls : List (Request × List (Event P SaveData A Q))) : Storage.Disk :=
  calls.foldl (fun d c => (run env d c.1 c.2).disk) disk

/-- the points that the local parties of a call delivered -/
def Delivers (env : KEnv P S H SaveData Point A Q) (h : List (Event P SaveData A Q)) (pt : Point) : Prop :=
  ∃ e : End SaveData A Q, Event.loop (.done e) ∈ h ∧ env.pubOf e.share = pt

theorem poolKey_same {env : KEnv P S H SaveData Point A Q} (hr : RealNode env) {p q : Point} (hp : OnCurve p) (hq : OnCurve q) {k : Str}
    (h : PoolKey env p k) (h' : PoolKey env q k) : p = q := by
  have h1 := h.2
  have h2 := h'.2
  rw [hr.bech32] at h1 h2
  have e1 := KeyTexts.c115_law _ _ h1
  have e2 := KeyTexts.c115_law _ _ h2
  rw [e1] at e2
  injection e2 with e
  have p1 := KeyTexts.serialize_parse hp
  have p2 := KeyTexts.serialize_parse hq
  rw [e, p2] at p1
  injection p1 with p1
  exact p1.symm

/-- **C140**: a node makes keys one after the other, with crashes and restarts in between. If one of the calls returned Success with a pool key, then,
unless a later call delivered the very same point, after all of them
* the file of the key holds the share that was delivered, with the sorted keys of the request;
* the text of the key is the point of that share;
* every entry of every answer to a signing request for the key is an ECDSA signature, for that point, of a message of that request. -/
theorem c140_life (env : KEnv P S H SaveData Point A Q) (hreal : RealNode env) (disk : Storage.Disk)
    (before after : List (Request × List (Event P SaveData A Q))) (req : Request) (h : List (Event P SaveData A Q))
    (hcurve : ∀ c ∈ (req, h) :: after, ∀ pt, Delivers env c.2 pt → OnCurve pt)
    (resp : Response) (err : Option Err) (hr : (run env (life env disk before) req h).ret = some (resp, err)) (hs : resp.status = .success) :
    ∃ e : End SaveData A Q, Event.loop (.done e) ∈ h ∧ ∃ hpt : OnCurve (env.pubOf e.share),
      Names resp.pubKey (elem (env.pubOf e.share) hpt) ∧
      ((∀ c ∈ after, ¬ Delivers env c.2 (env.pubOf e.share)) →
        stored env (life env disk (before ++ (req, h) :: after)) resp.pubKey = .ok ⟨resp.pubKey, e.share, sortedKeys req, env.ownKey⟩) ∧
      ∀ (sreq : KeySign.Request) (nh : List SigNotifier.Event) (sh : List (KeySign.Event P)) (a : KeySign.Response) (serr : Option KeySign.Err),
        sreq.poolPubKey = resp.pubKey → (SigNotifier.run notifierEnv nh).crashed = false →
        (∀ old task, Spec.KeySign.Accepted env.base Base64.decode (life env disk (before ++ (req, h) :: after)) sreq old task →
          LibSigns (elem (env.pubOf e.share) hpt) task.msgs (Signing.delivered (Spec.KeySign.signEvents sh))) →
        (KeySigning.call env.base Base64.decode notifierEnv (life env disk (before ++ (req, h) :: after)) sreq nh sh).ret = some (a, serr) →
        ∀ x ∈ a.signatures, Right (elem (env.pubOf e.share) hpt) sreq.messages x := by
  have g : Storage.Good env.base.storage Bech32.accPubPrefix := by rw [hreal.storage]; exact JsonStorage.c136_good
  obtain ⟨-, e, he, hp, -, hst⟩ := KeyGeneration.c52_success_is_stored g h resp err hr hs
  have hpt : OnCurve (env.pubOf e.share) := hcurve _ List.mem_cons_self _ ⟨e, he, rfl⟩
  have hn : Names resp.pubKey (elem (env.pubOf e.share) hpt) := by
    have := hp.2
    rw [hreal.bech32] at this
    exact ⟨_, _, KeyTexts.c115_law _ _ this, KeyTexts.serialize_parse hpt, is_elem _ hpt⟩
  refine ⟨e, he, hpt, hn, fun hno => ?_, ?_⟩
  · have hd : life env disk (before ++ (req, h) :: after) = life env (run env (life env disk before) req h).disk after := by
      simp [life]
    rw [hd]
    generalize (run env (life env disk before) req h).disk = d at hst
    have hc : ∀ c ∈ after, ∀ pt, Delivers env c.2 pt → OnCurve pt := fun c hc => hcurve c (List.mem_cons_of_mem _ hc)
    clear hcurve hr hd
    induction after generalizing d with
    | nil => exact hst
    | cons c after ih =>
      refine ih (fun c' h' => hno c' (List.mem_cons_of_mem _ h')) _ ?_ (fun c' h' => hc c' (List.mem_cons_of_mem _ h'))
      rw [KeyGeneration.c81_other_keys g c.2 resp.pubKey]
      · exact hst
      · intro e' he' hp'
        have := poolKey_same hreal hpt (hc c List.mem_cons_self _ ⟨e', he', rfl⟩) hp hp'
        exact hno c List.mem_cons_self ⟨e', he', this.symm⟩
  · intro sreq nh sh a serr hk hc hlib hret
    exact SignedAnswers.c139_answer env.base _ sreq nh sh hc _ (by rw [hk]; exact hn) hlib a serr hret

/-- C140: as long as the share of a key is stored, every request to sign with the key which can be read is taken up, with that share; a leaderless one
needs more signers than the threshold of the number of share holders. -/
theorem c140_taken_up {L : Type} (env : Server.Env P S H L) (disk : Storage.Disk) (st : LocalState L) (req : KeySign.Request)
    (hst : Storage.GetLocalState env.storage env.folder (String.ofList req.poolPubKey) disk = .ok st)
    (hne : ∃ m ∈ req.messages, m ≠ []) (hm : ∀ m ∈ req.messages, ∃ b, Base64.decode m = some b) (old : Bool)
    (hv : Version.VersionLTCheck env.parseVer req.version env.gate = .ok old)
    (ho : old = true → ∀ t, Threshold.GetThreshold st.participantKeys.length = .ok t → req.signerPubKeys ≠ [] ∧ t < req.signerPubKeys.length) :
    ∃ task, Spec.KeySign.Accepted env Base64.decode disk req old task ∧ task.state = st := by
  have hdec : ∀ l : List Str, (∀ m ∈ l, ∃ b, Base64.decode m = some b) → ∃ d, List.Forall₂ (fun m b => Base64.decode m = some b) l d := by
    intro l
    induction l with
    | nil => intro _; exact ⟨[], .nil⟩
    | cons m l ih =>
      intro hl
      obtain ⟨d, hd⟩ := ih fun m hm => hl m (by simp [hm])
      obtain ⟨b, hb⟩ := hl m (by simp)
      exact ⟨b :: d, .cons hb hd⟩
  have hperm : (MsgId.sortStrings req.messages).Perm req.messages := List.perm_insertionSort (· ≤ ·) req.messages
  obtain ⟨d, hd⟩ := hdec (MsgId.sortStrings req.messages) fun m h => hm m (hperm.mem_iff.1 h)
  have hth : ∃ t, Threshold.GetThreshold st.participantKeys.length = .ok t := by
    unfold Threshold.GetThreshold
    rw [if_neg (by omega)]
    exact ⟨_, rfl⟩
  obtain ⟨t, ht⟩ := hth
  have hj : ∀ l : List Str, (∃ m ∈ l, m ≠ []) → MsgId.joinComma l ≠ [] := by
    intro l hl
    match l with
    | [] => obtain ⟨m, h, -⟩ := hl; cases h
    | [a] =>
      obtain ⟨m, h, h'⟩ := hl
      rw [List.mem_singleton] at h
      subst h
      simpa [MsgId.joinComma] using h'
    | a :: b :: l => simp [MsgId.joinComma]
  have hid : MsgId.requestToMsgId env.shaID (.keysign req.poolPubKey req.messages req.signerPubKeys req.blockHeight req.version) =
      .ok (env.shaID (MsgId.msgData (.keysign req.poolPubKey req.messages req.signerPubKeys req.blockHeight req.version))) := by
    unfold MsgId.requestToMsgId MsgId.MsgToHashString
    rw [if_neg]
    intro h0
    have := List.append_eq_nil_iff.1 (List.length_eq_zero_iff.1 h0)
    obtain ⟨m, h1, h2⟩ := hne
    exact hj _ ⟨m, hperm.mem_iff.2 h1, h2⟩ this.1
  exact ⟨⟨_, sortMessages d, t, st, MsgId.sortStrings req.signerPubKeys⟩, ⟨hid, hst, ⟨d, hd, rfl⟩, hv, ht, fun h => ho h t ht, rfl⟩, rfl⟩

/-! ## a case -/
section demo
open Verif.Spec.DemoServer (key peers)
open Verif.Props.KeyTexts (textG)
open Verif.Props.PoolKeys (G onCurve_G)

/-- the share that node 1 gets -/
def data (x : Nat) : SaveData := { xi := some x, shareID := some 2, ecdsaPub := some ⟨((G.x : Int), (G.y : Int)), by decide +kernel⟩ }

/-- node 1 of the example of C52, with the program's files, texts of keys and curve; the new key is the generator -/
def node : KEnv Nat Nat Nat SaveData Point Unit Nat where
  base := { codec := (Spec.DemoServer.env 1).codec, peers := (Spec.DemoServer.env 1).peers, me := 11, parseVer := Spec.DemoServer.parseVer, gate := ['n'],
            shaID := (Spec.DemoServer.env 1).shaID, shaLeader := (Spec.DemoServer.env 1).shaLeader, storage := storageEnv, folder := ["home"],
            session := (Spec.DemoServer.env 1).session, pstr := (Spec.DemoServer.env 1).pstr, isBroadcast := (Spec.DemoServer.env 1).isBroadcast }
  ownKey := key 1
  preParams := true
  pubOf s := match s.ecdsaPub with | some q => ⟨q.1.1.toNat, q.1.2.toNat⟩ | none => ⟨0, 0⟩
  onCurve pt := isOnCurve pt.x pt.y
  bech32 pt := encodeKey (serializeCompressed pt)
  address _ := "addr".toList
  addr := ⟨fun _ => ['a'], fun _ => ['q'], fun _ => none, fun _ => [], fun _ => []⟩

theorem node_real : RealNode node := ⟨rfl, fun _ => rfl, fun _ => rfl⟩

def ask : Request := ⟨[key 2, key 0, key 3, key 1], 5, ['n']⟩

def made (x : Nat) : List (Event Nat SaveData Unit Nat) :=
  [.start [], .join (.incoming "kakbkckd" (.response 10 ⟨.success, [10, 11, 12, 13].map peers.str⟩)), .join (.wake Spec.DemoServer.keep), .join (.step Spec.DemoServer.keep),
   .join (.step Spec.DemoServer.keep), .join (.step Spec.DemoServer.keep), .joined ⟨Go.Shuffle.id _, Go.Shuffle.id _, Go.Shuffle.id _⟩,
   .loop (.done ⟨data x, none, Go.Shuffle.id _, [], none⟩), .finish]

theorem made_ok : ((run node [] ask (made 77)).ret.map fun a => (a.1.status, a.1.pubKey, a.2.isSome)) = some (.success, textG, false) := by decide +kernel

theorem pub_data (x : Nat) : node.pubOf (data x) = G := by
  show (⟨((G.x : Int)).toNat, ((G.y : Int)).toNat⟩ : Point) = G
  rw [Int.toNat_natCast, Int.toNat_natCast]

theorem made_points {x : Nat} {pt : Point} (h : Delivers node (made x) pt) : pt = G := by
  obtain ⟨e, he, rfl⟩ := h
  simp only [made, List.mem_cons, List.not_mem_nil, or_false, reduceCtorEq, false_or, Event.loop.injEq, LoopEvent.done.injEq] at he
  subst he
  exact pub_data x

/-- The key is made, then the node is asked for another key and crashes before the party is formed: the share of the key is still there and a request to
sign with it is taken up. -/
example : ∃ resp, (run node (life node [] []) ask (made 77)).ret = some (resp, none) ∧ resp.status = .success ∧ resp.pubKey = textG ∧
    (∀ c ∈ (ask, made 77) :: [(ask, (made 78).take 3)], ∀ pt, Delivers node c.2 pt → OnCurve pt) ∧
    stored node (life node [] ([] ++ (ask, made 77) :: [(ask, (made 78).take 3)])) textG = .ok ⟨textG, data 77, sortedKeys ask, key 1⟩ ∧
    ∃ old task, Spec.KeySign.Accepted node.base Base64.decode (life node [] ([] ++ (ask, made 77) :: [(ask, (made 78).take 3)])) SignedAnswers.ask old task := by
  have hret : ∃ resp, (run node [] ask (made 77)).ret = some (resp, none) ∧ resp.status = .success ∧ resp.pubKey = textG := by
    obtain ⟨⟨resp, err⟩, h1, h2⟩ := Option.map_eq_some_iff.1 made_ok
    simp only [Prod.mk.injEq] at h2
    obtain ⟨g1, g2, g3⟩ := h2
    cases err with
    | none => exact ⟨resp, h1, g1, g2⟩
    | some e => cases g3
  obtain ⟨resp, h1, h2, h3⟩ := hret
  have hcut : ∀ pt, ¬ Delivers node ((made 78).take 3) pt := by
    rintro pt ⟨e, he, -⟩
    simp [made] at he
  have hcurve : ∀ c ∈ (ask, made 77) :: [(ask, (made 78).take 3)], ∀ pt, Delivers node c.2 pt → OnCurve pt := by
    intro c hc pt hd
    rcases List.mem_cons.1 hc with rfl | hc
    · rw [made_points hd]; exact onCurve_G
    · rw [List.mem_singleton] at hc
      subst hc
      exact absurd hd (hcut pt)
  obtain ⟨e, he, -, -, hst, -⟩ := c140_life node node_real [] [] [(ask, (made 78).take 3)] ask (made 77) hcurve resp none h1 h2
  have hed : e.share = data 77 := by
    simp only [made, List.mem_cons, List.not_mem_nil, or_false, reduceCtorEq, false_or, Event.loop.injEq, LoopEvent.done.injEq] at he
    rw [he]
  have hst' := hst (by
    intro c hc
    rw [List.mem_singleton] at hc
    subst hc
    exact hcut _)
  rw [h3, hed] at hst'
  refine ⟨resp, h1, h2, h3, hcurve, hst', ?_⟩
  obtain ⟨task, ht, -⟩ := c140_taken_up node.base _ _ SignedAnswers.ask hst' ⟨_, List.mem_cons_self, by decide⟩ (by
    intro m hm
    rw [show m = "YQ==".toList from List.mem_singleton.1 hm]
    exact ⟨[97], by decide +kernel⟩) false (by decide +kernel) (by intro h; cases h)
  exact ⟨false, task, ht⟩

end demo

end Verif.Props.PoolLife
