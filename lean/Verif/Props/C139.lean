import Verif.Props.C137
import Verif.Props.C49_C51
import Verif.Props.C133
import Verif.Props.C135

/-! # C139: the answers of a signing are signatures of the messages asked for -/
set_option linter.unusedSectionVars false
namespace Verif.Props.SignedAnswers
open Verif.Go Verif.Session Verif.KeySign Verif.Spec.KeySign Verif.Spec.Secp Verif.Server
open Verif.Conversion (hashToInt secp256k1N)
open Verif.Secp (is_unique)
open Verif.Props.KeySigning Verif.Props.Ecdsa
open scoped List

variable {P S H L : Type} [DecidableEq P] [LinearOrder S] [LinearOrder H]

/-- What is assumed of tss-lib: the signers of these messages (in the order of the job) deliver, in any order and each at most once, an ECDSA signature of
their message for the key `Q`, and say which number they have signed. -/
def LibSigns (Q : E) (msgs : List Bytes) (ds : List Sig) : Prop :=
  ∃ sigOf : Nat → Sig, Signing.OncePerParty msgs.length sigOf ds ∧ ∀ i m, msgs[i]? = some m →
    Bytes.toNat (sigOf i).m = hashToInt m secp256k1N ∧ Signs Q (hashToInt m secp256k1N) (Bytes.toNat (sigOf i).r) (Bytes.toNat (sigOf i).s)

/-- an entry of an answer is a signature of one of the messages of the request, for the key `Q` -/
def Right (Q : E) (messages : List Str) (e : Signature) : Prop :=
  (∃ t ∈ messages, Base64.decode t = some e.msg) ∧ Signs Q (hashToInt e.msg secp256k1N) (Bytes.toNat e.r) (Bytes.toNat e.s)

theorem names_unique {key : Str} {Q Q' : E} (h : Names key Q) (h' : Names key Q') : Q = Q' := by
  obtain ⟨b, q, h1, h2, h3⟩ := h
  obtain ⟨b', q', h1', h2', h3'⟩ := h'
  rw [h1] at h1'
  injection h1' with e
  subst e
  rw [h2] at h2'
  injection h2' with e
  subst e
  exact is_unique h3 h3'

theorem once_sublist {n : Nat} {sigOf : Nat → Sig} {l l' : List Sig} (h : Signing.OncePerParty n sigOf l) (hs : l' <+ l) : Signing.OncePerParty n sigOf l' := by
  obtain ⟨order, h1, h2, rfl⟩ := h
  obtain ⟨o, ho, rfl⟩ := List.sublist_map_iff.1 hs
  exact ⟨o, h1.sublist ho, fun i hi => h2 i (ho.subset hi), rfl⟩

theorem sortMessages_perm (l : List Bytes) : (sortMessages l).Perm l := by
  rw [Signing.sortMessages_eq]; exact GoSort.sliceStable_perm _ _

theorem mem_entries {l : List Sig} {msgs : List Bytes} {es : List Signature} (h : Entries l msgs es) {e : Signature} (he : e ∈ es) :
    ∃ (i : Nat) (x : Sig), l[i]? = some x ∧ msgs[i]? = some e.msg ∧ e.r = x.r ∧ e.s = x.s := by
  obtain ⟨-, rfl⟩ := h
  obtain ⟨i, hi⟩ := List.mem_iff_getElem?.1 he
  rw [List.getElem?_zipWith] at hi
  cases h1 : l[i]? with
  | none => rw [h1] at hi; cases hi
  | some x =>
    cases h2 : msgs[i]? with
    | none => rw [h1, h2] at hi; cases hi
    | some m =>
      rw [h1, h2] at hi
      injection hi with hi
      subst hi
      exact ⟨i, x, h1, h2, rfl, rfl⟩

/-- the messages of a job are those of the request -/
theorem job_message {env : Env P S H L} {disk : Storage.Disk} {req : Request} {old : Bool} {task : Job L}
    (hacc : Accepted env Base64.decode disk req old task) {i : Nat} {m : Bytes} (h : task.msgs[i]? = some m) :
    ∃ t ∈ req.messages, Base64.decode t = some m := by
  obtain ⟨decoded, h1, h2⟩ := hacc.decoded
  rw [h2] at h
  have hm : m ∈ decoded := (sortMessages_perm decoded).mem_iff.1 (List.mem_of_getElem? h)
  clear h h2
  have : ∃ t ∈ MsgId.sortStrings req.messages, Base64.decode t = some m := by
    generalize MsgId.sortStrings req.messages = l at h1
    induction h1 with
    | nil => cases hm
    | cons h _ ih =>
      rcases List.mem_cons.1 hm with rfl | hm
      · exact ⟨_, List.mem_cons_self, h⟩
      · obtain ⟨t, ht, h⟩ := ih hm
        exact ⟨t, List.mem_cons_of_mem _ ht, h⟩
  obtain ⟨t, ht, h⟩ := this
  exact ⟨t, (List.perm_insertionSort (· ≤ ·) req.messages).mem_iff.1 ht, h⟩

/-- **C139**: whatever notifications arrive before and during the call, whoever sends them, and whatever becomes of the party and its session: every entry
of the answer carries one of the messages asked for and an ECDSA signature of it for the pool key of the request. What is assumed is that tss-lib makes
signatures; received signatures are checked. -/
theorem c139_answer (env : Env P S H L) (disk : Storage.Disk) (req : Request) (nh : List SigNotifier.Event) (h : List (KeySign.Event P))
    (hc : (SigNotifier.run notifierEnv nh).crashed = false) (Q : E) (hQ : Names req.poolPubKey Q)
    (hlib : ∀ old task, Accepted env Base64.decode disk req old task → LibSigns Q task.msgs (Signing.delivered (signEvents h)))
    (resp : Response) (err : Option Err) (hr : (call env Base64.decode notifierEnv disk req nh h).ret = some (resp, err)) :
    ∀ e ∈ resp.signatures, Right Q req.messages e := by
  intro e he
  by_cases hx : err ≠ none ∨ resp.status ≠ .success
  · rw [c49_signatures_only_with_success hc h resp err hr hx] at he
    cases he
  have hacc : ∃ old task, Accepted env Base64.decode disk req old task := by
    by_contra hno
    have hp : ∀ task, prepare env Base64.decode disk req ≠ .ok (.ok task) := fun task ht => hno (by
      obtain ⟨old, ho⟩ := (prepare_ok env _ disk req task).1 ht
      exact ⟨old, task, ho⟩)
    unfold call KeySign.run at hr
    rcases hp' : prepare env Base64.decode disk req with (a | task) | e | _ <;> rw [hp'] at hr
    · cases hr
      obtain ⟨e, h | h⟩ := refused_cases env Base64.decode disk req _ hp' <;> cases h <;> simp at hx
    · exact hp task hp'
    · cases hr
    · cases hr
  obtain ⟨old, task, hacc⟩ := hacc
  obtain ⟨-, hd⟩ := c49_decision hc hacc h resp err hr
  rcases hd with ⟨-, -, -, d, ⟨⟨-, -, hv⟩, -⟩, hent⟩ | ⟨-, -, -, l, -, hent, hl⟩ | ⟨-, -, h0, -⟩ | ⟨-, h0, -⟩
  · obtain ⟨i, x, h1, h2, h3, h4⟩ := mem_entries hent he
    obtain ⟨m, hm, -, hv⟩ := hv i x h1
    rw [h2] at hm
    injection hm with hm
    subst hm
    obtain ⟨Q', hQ', hs⟩ := (c137_pool _ _ _ _).1 hv
    rw [String.toList_ofList] at hQ'
    rw [names_unique hQ' hQ] at hs
    exact ⟨job_message hacc h2, by rw [h3, h4]; exact hs⟩
  · rcases hl with ⟨rfl, -⟩ | ⟨results, ⟨lh, st, ⟨hsub, online, signers, sch, lenv, mgr, -, -, rfl⟩, hres⟩, rfl⟩
    · obtain ⟨i, x, h1, -⟩ := mem_entries hent he
      cases h1
    · obtain ⟨sigOf, honce, hall⟩ := hlib old task hacc
      obtain ⟨decoded, -, hmsgs⟩ := hacc.decoded
      have hlen : task.msgs.length = decoded.length := by rw [hmsgs]; exact (sortMessages_perm _).length_eq
      rw [hmsgs] at hall
      rw [hlen] at honce hres
      have honce' := once_sublist honce (List.Sublist.filterMap _ hsub : Signing.delivered lh <+ Signing.delivered (signEvents h))
      obtain ⟨rs, hb, -, hval⟩ := Signing.c46_every_entry_valid lenv _ decoded sigOf (fun z r s _ => Signs Q z (Bytes.toNat r) (Bytes.toNat s))
        (fun i m hm => (hall i m hm).1) (fun i m hm => (hall i m hm).2) lh honce' results hres
      obtain ⟨i, x, -, h2, -⟩ := mem_entries hent he
      have : resp.signatures = rs := by
        have := (batchLoop_eq _ _ _).1 hb
        rw [← hmsgs] at this
        rw [hent.2, this.2]
      rw [this] at he
      exact ⟨job_message hacc h2, hval e he⟩
  · rw [h0] at he; cases he
  · rw [h0] at he; cases he

/-- C139: a client that posts a request to sign and gets an answer finds in it only signatures, for the pool key it named, of messages it asked for. -/
theorem c139_client {E' : Type} (env : Env P S H L) (disk : Storage.Disk) (nh : List SigNotifier.Event) (h : List (KeySign.Event P))
    (keygen : Keygen.Request → Option (Keygen.Response × Option E')) (lp : Bytes) (metrics : Http.Req → Http.Reply) (req : Request)
    (hb : -2 ^ 63 ≤ req.blockHeight ∧ req.blockHeight < 2 ^ 63)
    (hc : (SigNotifier.run notifierEnv nh).crashed = false) (Q : E) (hQ : Names req.poolPubKey Q)
    (hlib : ∀ old task, Accepted env Base64.decode disk req old task → LibSigns Q task.msgs (Signing.delivered (signEvents h)))
    (resp : Response) (hr : (call env Base64.decode notifierEnv disk req nh h).ret = some (resp, none)) :
    ∃ body got, Http.serve (JsonHttp.httpEnv keygen (fun q => (call env Base64.decode notifierEnv disk q nh h).ret) lp metrics)
        ⟨"POST", "/keysign", Json.utf8 (JsonHttp.signText req)⟩ = (some ⟨200, body⟩, [.keysign req]) ∧
      JsonHttp.clientSign body = some got ∧ got.status = JsonHttp.statusNumber resp.status ∧ got.signatures = resp.signatures ∧
      ∀ e ∈ got.signatures, Right Q req.messages e := by
  obtain ⟨body, h1, h2⟩ := JsonHttp.c135_keysign keygen (fun q => (call env Base64.decode notifierEnv disk q nh h).ret) lp metrics req hb resp hr
  exact ⟨body, _, h1, h2, rfl, rfl, c139_answer env disk req nh h hc Q hQ hlib resp none hr⟩

/-! ## cases -/
section demo
open Verif.Props.KeyTexts (textG)
open Verif.Bech32 (decodeKey)
open Verif.Curve (parsePubKey serializeCompressed)
open Verif.Secp (baseG)
open Verif.Secp (is_G)

/-- the key of the base point signs the message "a" -/
theorem signed_a : ((Secp.sign three 1 [97]).any fun _ => true) = true := by decide +kernel

/-- the signature of "a" -/
def sigA : Sig := match Secp.sign three 1 [97] with
  | some (r, s) => ⟨some [1], [0], Bytes.ofNat r, Bytes.ofNat s, [97]⟩
  | none => ⟨none, [], [], [], []⟩

theorem sigA_right : Signs gen (hashToInt [97] secp256k1N) (Bytes.toNat sigA.r) (Bytes.toNat sigA.s) := by
  obtain ⟨⟨r, s⟩, he, -⟩ := any_some signed_a
  have h := (c137_sign three 1 _ (three_ok _ _) r s he).1
  rw [one_nsmul] at h
  unfold sigA
  rw [he]
  simp only [Bytes.toNat_ofNat]
  exact h

/-- a request to sign "a" for the pool key of the base point, with a leader -/
def ask : Request := ⟨textG, ["YQ==".toList], [], 5, ['n']⟩

/-- member 1 with the share of the pool key -/
def diskG : Storage.Disk := [(Storage.join [] (Storage.localFileName (String.ofList textG)), [1])]

/-- the signature is received -/
def heard : List (KeySign.Event Nat) :=
  [.waitStart, .notifier (.notify (Protobuf.encNotice ⟨"YQ==", [Protobuf.encSig sigA], true⟩)), .notifier (.receive 0), .notifier (.remove 0), .waitReturn, .waitSend]

/-- the call of member 1 -/
def demoG (h : List (KeySign.Event Nat)) : KeySign.St Nat := call (Spec.DemoServer.env 1) Base64.decode notifierEnv diskG ask [] h

/-- the party is formed -/
def formed : List (KeySign.Event Nat) :=
  [.genStart [], .join (.incoming "YQ==" (.response 10 ⟨.success, [10, 11, 12].map Spec.DemoServer.peers.str⟩)), .join (.wake Spec.DemoServer.keep),
   .join (.step Spec.DemoServer.keep), .join (.step Spec.DemoServer.keep), .join (.step Spec.DemoServer.keep), .genJoined Spec.DemoServer.sched]

theorem heard_ok : summary (demoG (heard ++ [.genStart [], .join .timeout, .join (.step Spec.DemoServer.keep), .genJoined Spec.DemoServer.sched, .main])) = some (.success, 1, false) := by decide +kernel

theorem made_ok : summary (demoG (formed ++ [.sign (.done sigA), .genSigned, .genSend, .genFinish] ++ noWait ++ [.main])) = some (.success, 1, false) := by decide +kernel

theorem names_gen : Names textG gen := by
  have h : decodeKey textG = some (serializeCompressed baseG) ∧ parsePubKey (serializeCompressed baseG) = some baseG := by decide +kernel
  exact ⟨_, baseG, h.1, h.2, is_G⟩

theorem fresh : (SigNotifier.run notifierEnv []).crashed = false := rfl

theorem of_summary {s : KeySign.St Nat} {st : Status} {n : Nat} (h : summary s = some (st, n, false)) :
    ∃ resp, s.ret = some (resp, none) ∧ resp.status = st ∧ resp.signatures.length = n := by
  unfold summary at h
  obtain ⟨⟨resp, err⟩, h1, h2⟩ := Option.map_eq_some_iff.1 h
  cases err with
  | none => cases h2; exact ⟨resp, h1, rfl, rfl⟩
  | some e => cases h2

/-- the job of the demo -/
theorem ask_msgs {old : Bool} {task : Job Unit} (h : Accepted (Spec.DemoServer.env 1) Base64.decode diskG ask old task) : task.msgs = [[97]] := by
  have hc : (match prepare (Spec.DemoServer.env 1) Base64.decode diskG ask with | .ok (.ok t) => decide (t.msgs = [[97]]) | _ => false) = true := by
    decide +kernel
  rw [(prepare_ok _ _ _ _ _).2 ⟨old, h⟩] at hc
  exact of_decide_eq_true hc

/-- tss-lib is right: nothing is delivered, or the signature of "a" -/
theorem lib_right (ds : List Sig) (hd : ds = [] ∨ ds = [sigA]) : LibSigns gen [[97]] ds := by
  refine ⟨fun _ => sigA, ?_, ?_⟩
  · rcases hd with rfl | rfl
    · exact ⟨[], by simp, by simp, rfl⟩
    · exact ⟨[0], by simp, by simp, rfl⟩
  · intro i m hm
    have : m = [97] := by
      have := List.mem_of_getElem? hm
      simpa using this
    subst this
    refine ⟨?_, sigA_right⟩
    show Bytes.toNat sigA.m = _
    have e : sigA.m = [97] := by
      obtain ⟨⟨r, s⟩, he, -⟩ := any_some signed_a
      unfold sigA
      rw [he]
    rw [e]
    decide +kernel

/-- a signature is received from others, and is the answer -/
example : ∃ resp, (demoG (heard ++ [.genStart [], .join .timeout, .join (.step Spec.DemoServer.keep), .genJoined Spec.DemoServer.sched, .main])).ret = some (resp, none) ∧
    resp.status = .success ∧ resp.signatures.length = 1 ∧ ∀ e ∈ resp.signatures, Right gen ask.messages e := by
  obtain ⟨resp, h1, h2, h3⟩ := of_summary heard_ok
  exact ⟨resp, h1, h2, h3, c139_answer (Spec.DemoServer.env 1) diskG ask [] _ fresh gen names_gen (fun old task ha => by rw [ask_msgs ha]; exact lib_right _ (.inl rfl)) resp none h1⟩

/-- a signature is made by the session of the node, and is the answer -/
example : ∃ resp, (demoG (formed ++ [.sign (.done sigA), .genSigned, .genSend, .genFinish] ++ noWait ++ [.main])).ret = some (resp, none) ∧
    resp.status = .success ∧ resp.signatures.length = 1 ∧ ∀ e ∈ resp.signatures, Right gen ask.messages e := by
  obtain ⟨resp, h1, h2, h3⟩ := of_summary made_ok
  exact ⟨resp, h1, h2, h3, c139_answer (Spec.DemoServer.env 1) diskG ask [] _ fresh gen names_gen (fun old task ha => by rw [ask_msgs ha]; exact lib_right _ (.inr rfl)) resp none h1⟩

/-- the client reads it -/
example : ∃ body got, Http.serve (JsonHttp.httpEnv (E := Unit) (fun _ => none)
      (fun q => (call (Spec.DemoServer.env 1) Base64.decode notifierEnv diskG q [] (formed ++ [.sign (.done sigA), .genSigned, .genSend, .genFinish] ++ noWait ++ [.main])).ret)
      [] fun _ => ⟨200, []⟩) ⟨"POST", "/keysign", Json.utf8 (JsonHttp.signText ask)⟩ = (some ⟨200, body⟩, [.keysign ask]) ∧
    JsonHttp.clientSign body = some got ∧ got.signatures.length = 1 ∧ ∀ e ∈ got.signatures, Right gen ask.messages e := by
  obtain ⟨resp, h1, h2, h3⟩ := of_summary made_ok
  obtain ⟨body, got, g1, g2, -, g3, g4⟩ := c139_client (Spec.DemoServer.env 1) diskG [] _ (fun _ => none) [] (fun _ => ⟨200, []⟩) ask ⟨by decide, by decide⟩ fresh gen names_gen
    (fun old task ha => by rw [ask_msgs ha]; exact lib_right _ (.inr rfl)) resp h1
  exact ⟨body, got, g1, g2, by rw [g3, h3], g4⟩

end demo

end Verif.Props.SignedAnswers
