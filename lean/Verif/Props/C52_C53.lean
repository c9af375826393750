import Verif.Lemmas.Keygen
import Verif.Lemmas.Server
import Verif.Props.C08
import Verif.Props.C38_C41
import Verif.Props.C54_C57
import Verif.Model.KeySign
import Verif.Spec.DemoServer

/-!
# C52, C53: what Keygen answers

`run env disk req h` is the Keygen call for `req` after the events `h`, started with the files `disk`.
-/
set_option linter.unusedSectionVars false
namespace Verif.Props.KeyGeneration
open Verif.Go Verif.Conversion Verif.Blame Verif.Server Verif.Session Verif.Keygen Verif.Spec.Keygen Verif.Spec.Server
open Verif.JoinParty hiding Event
open scoped List
open Verif.Props.Storage (Good)

section main
variable {P S H L Pt A Q : Type} [DecidableEq P] [LinearOrder S] [LinearOrder H]
variable {env : KEnv P S H L Pt A Q} {req : Request} {id : String} {disk : Storage.Disk}

/-- the key of a point, if it has one -/
def PoolKey (env : KEnv P S H L Pt A Q) (pt : Pt) (k : Str) : Prop := env.onCurve pt = true ∧ env.bech32 pt = some k

/-- reading the stored share of the pool key `k` -/
abbrev stored (env : KEnv P S H L Pt A Q) (d : Storage.Disk) (k : Str) : Res (LocalState L) :=
  Storage.GetLocalState env.base.storage env.base.folder (String.ofList k) d

theorem pubKey_true (pt : Pt) (k a : Str) : GetTssPubKey env (some pt) = (k, a, true) ↔ PoolKey env pt k ∧ a = env.address pt := by
  unfold GetTssPubKey PoolKey
  dsimp only
  split
  · rename_i h
    split
    · rename_i k' hk
      rw [h, hk]
      simp only [Prod.mk.injEq, and_true, true_and, Option.some.injEq, eq_comm]
    · rename_i hk
      rw [hk]
      simp
  · rename_i h
    simp [h]

theorem refused (hn : ∀ id, ¬ HasId env req id) (h : List (Event P L A Q)) :
    (run env disk req h).ret = some (zero, some .msgID) ∧ (run env disk req h).effects = [] ∧ (run env disk req h).disk = disk ∧
      (run env disk req h).crashed = false := by
  unfold run
  unfold HasId at hn
  split
  · rename_i i hi
    exact absurd hi (hn i)
  · exact ⟨rfl, rfl, rfl, rfl⟩
  · rename_i hi
    unfold MsgId.requestToMsgId MsgId.MsgToHashString at hi
    split at hi <;> cases hi

theorem joinFailed_fail (env : KEnv P S H L Pt A Q) (keys : List Str) (out : JoinOut P) : ∃ b, Keygen.joinFailed env keys out = failed b none := by
  unfold Keygen.joinFailed
  split
  · split <;> exact ⟨_, rfl⟩
  · dsimp only
    split <;> exact ⟨_, rfl⟩

/-! ## The session and the disk -/

/-- one step of the session leaves the files alone, unless the local party delivers -/
theorem genStep_disk (lenv : LoopEnv Str P) (keys : List Str) (s : GenSt P Pt) (e : LoopEvent P (End L A Q)) (hne : ∀ r, e ≠ .done r) :
    (genStep env lenv keys s e).disk = s.disk := by
  unfold genStep
  split
  · rfl
  · cases e with
    | done r => exact absurd rfl (hne r)
    | _ =>
      dsimp only
      repeat' split
      all_goals rfl

/-- a session that has ended stays so -/
theorem genStep_ended (lenv : LoopEnv Str P) (keys : List Str) (s : GenSt P Pt) (e : LoopEvent P (End L A Q)) (r : Except LoopErr Pt)
    (hr : s.result = some r) : (genStep env lenv keys s e).result = some r ∧ (genStep env lenv keys s e).disk = s.disk := by
  unfold genStep
  split
  · exact ⟨hr, rfl⟩
  · cases e <;> simp [hr]

/-- What holds of a session: its files, and if it has delivered a key, the share is stored. -/
structure SesInv (env : KEnv P S H L Pt A Q) (disk : Storage.Disk) (keys : List Str) (lh : List (LoopEvent P (End L A Q))) (s : GenSt P Pt) : Prop where
  ok : ∀ pt, s.result = some (.ok pt) → ∃ e k, LoopEvent.done e ∈ lh ∧ pt = env.pubOf e.share ∧ PoolKey env pt k ∧
    stored env s.disk k = .ok ⟨k, e.share, keys, env.ownKey⟩
  other : ∀ k, (∀ e, LoopEvent.done e ∈ lh → ¬ PoolKey env (env.pubOf e.share) k) → stored env s.disk k = stored env disk k

theorem genDone_disk {pre : List Char} (g : Good env.base.storage pre) (keys : List Str) (e : End L A Q) (s : GenSt P Pt) :
    (∀ pt, (genDone env keys e s).result = some (.ok pt) → s.result = some (.ok pt) ∨ (∃ k, pt = env.pubOf e.share ∧ PoolKey env pt k ∧
      stored env (genDone env keys e s).disk k = .ok ⟨k, e.share, keys, env.ownKey⟩)) ∧
    ∀ k, ¬ PoolKey env (env.pubOf e.share) k → stored env (genDone env keys e s).disk k = stored env s.disk k := by
  unfold genDone
  split
  · rename_i k a hk
    have hpk := ((pubKey_true _ _ _).1 hk).1
    dsimp only
    have hind := Verif.Props.Storage.c54_independence (A := A) (Q := Q) g env.addr (fun st : LocalState L => String.ofList st.pubKey) env.base.folder
    have hind1 := fun d => (hind d).1
    have hind3 := fun d => (hind d).2.2
    have hok := fun st f d => (Verif.Props.Storage.c54_success_is_stored g (fun st : LocalState L => String.ofList st.pubKey) env.base.folder d st f).1
    have hother : ∀ k', ¬ PoolKey env (env.pubOf e.share) k' → ∀ d f, stored env (Storage.SaveLocalState env.base.storage
        (fun st : LocalState L => String.ofList st.pubKey) env.base.folder ⟨k, e.share, keys, env.ownKey⟩ f d).1 k' = stored env d k' := by
      intro k' hk' d f
      refine hind1 d ⟨k, e.share, keys, env.ownKey⟩ f _ ?_
      intro he
      have := congrArg String.toList he
      simp only [String.toList_ofList] at this
      rw [this] at hk'
      exact hk' hpk
    split
    · rename_i d u hs
      have hd : (Storage.SaveLocalState env.base.storage (fun st : LocalState L => String.ofList st.pubKey) env.base.folder
        ⟨k, e.share, keys, env.ownKey⟩ e.fault s.disk) = (d, .ok u) := hs
      constructor
      · intro pt hpt
        dsimp only at hpt
        obtain rfl : env.pubOf e.share = pt := by simpa using hpt
        refine .inr ⟨k, rfl, hpk, ?_⟩
        have := hok ⟨k, e.share, keys, env.ownKey⟩ e.fault s.disk (by rw [hd])
        rw [hd] at this
        unfold stored
        rw [hind3]
        exact this
      · intro k' hk'
        have := hother k' hk' s.disk e.fault
        rw [hd] at this
        rw [← this]
        exact hind3 _ _ _ _ _
    · rename_i d u hs
      have hd : (Storage.SaveLocalState env.base.storage (fun st : LocalState L => String.ofList st.pubKey) env.base.folder
        ⟨k, e.share, keys, env.ownKey⟩ e.fault s.disk) = (d, .err u) := hs
      refine ⟨fun pt hpt => (by simp at hpt), fun k' hk' => ?_⟩
      have := hother k' hk' s.disk e.fault
      rw [hd] at this
      exact this
    · rename_i d hs
      have hd : (Storage.SaveLocalState env.base.storage (fun st : LocalState L => String.ofList st.pubKey) env.base.folder
        ⟨k, e.share, keys, env.ownKey⟩ e.fault s.disk) = (d, .panic) := hs
      refine ⟨fun pt hpt => .inl hpt, fun k' hk' => ?_⟩
      have := hother k' hk' s.disk e.fault
      rw [hd] at this
      exact this
  · exact ⟨fun pt hpt => (by simp at hpt), fun k _ => rfl⟩

theorem sesInv {pre : List Char} (g : Good env.base.storage pre) (lenv : LoopEnv Str P) (keys : List Str) (ses : TssCommon.St Str P)
    (lh : List (LoopEvent P (End L A Q))) : SesInv env disk keys lh (genRun env lenv keys ses disk lh) := by
  induction lh using List.reverseRecOn with
  | nil => exact ⟨fun pt h => (by cases h), fun k _ => rfl⟩
  | append_singleton lh e ih =>
    have hrun : genRun env lenv keys ses disk (lh ++ [e]) = genStep env lenv keys (genRun env lenv keys ses disk lh) e := by
      unfold genRun; rw [List.foldl_append]; rfl
    rw [hrun]
    generalize genRun env lenv keys ses disk lh = s at ih ⊢
    have hother : ∀ k, (∀ e', LoopEvent.done e' ∈ lh ++ [e] → ¬ PoolKey env (env.pubOf e'.share) k) → stored env s.disk k = stored env disk k :=
      fun k hk => ih.other k fun e' he' => hk e' (by simp [he'])
    have hsame : (∀ pt, (genStep env lenv keys s e).result = some (.ok pt) → s.result = some (.ok pt)) →
        (genStep env lenv keys s e).disk = s.disk → SesInv env disk keys (lh ++ [e]) (genStep env lenv keys s e) := by
      intro h1 h2
      refine ⟨fun pt hpt => ?_, fun k hk => by rw [h2]; exact hother k hk⟩
      obtain ⟨e', k, h3, h4⟩ := ih.ok pt (h1 pt hpt)
      exact ⟨e', k, by simp [h3], by rw [h2]; exact h4⟩
    rcases hres : s.result with _ | r
    · cases e with
      | done r =>
        by_cases hcr : s.crashed = true
        · have : genStep env lenv keys s (.done r) = s := by unfold genStep; rw [if_pos hcr]
          exact hsame (fun pt h => by rw [this] at h; exact h) (by rw [this])
        · have : genStep env lenv keys s (.done r) = genDone env keys r s := by
            unfold genStep; rw [if_neg hcr]; simp [hres]
          rw [this]
          obtain ⟨h1, h2⟩ := genDone_disk g keys r s
          refine ⟨fun pt hpt => ?_, fun k hk => ?_⟩
          · rcases h1 pt hpt with h | ⟨k, h3, h4⟩
            · rw [hres] at h; cases h
            · exact ⟨r, k, by simp, h3, h4⟩
          · rw [h2 k (hk r (by simp))]
            exact hother k hk
      | _ =>
        refine hsame (fun pt h => ?_) (genStep_disk lenv keys s _ (fun r h => by cases h))
        exfalso
        revert h
        unfold genStep
        split
        · simp [hres]
        · dsimp only
          try simp only [hres]
          repeat' split
          all_goals simp [hres]
    · obtain ⟨h1, h2⟩ := genStep_ended (env := env) lenv keys s e r hres
      exact hsame (fun pt h => by rw [h1] at h; rw [hres]; exact h) h2

/-! ## C52 -/

/-- C52: when Keygen answers Success with a pool key, the share of this key, as delivered by the local party, can be read from the files, with
the sorted keys of the request and the own key; and there is no error. -/
theorem c52_success_is_stored {pre : List Char} (g : Good env.base.storage pre) (h : List (Event P L A Q)) (resp : Response) (err : Option Err)
    (hr : (run env disk req h).ret = some (resp, err)) (hs : resp.status = .success) :
    err = none ∧ ∃ e : End L A Q, Event.loop (.done e) ∈ h ∧ PoolKey env (env.pubOf e.share) resp.pubKey ∧
      resp.poolAddress = env.address (env.pubOf e.share) ∧
      stored env (run env disk req h).disk resp.pubKey = .ok ⟨resp.pubKey, e.share, sortedKeys req, env.ownKey⟩ := by
  by_cases hid : ∃ id, HasId env req id
  · obtain ⟨id, hid⟩ := hid
    have hi := inv_run (disk := disk) hid h
    generalize run env disk req h = s at hi hr ⊢
    cases hi with
    | done a d l hc =>
      cases hr
      generalize ha : (resp, err) = a at hc
      have hfail : ∀ b e, a = failed b e → False := by
        intro b e hf
        rw [← ha] at hf
        cases hf
        cases hs
      cases hc with
      | noJoin out =>
        obtain ⟨b, hb⟩ := joinFailed_fail env (sortedKeys req) out
        exact (hfail _ _ hb).elim
      | joinFailed jh leader r e =>
        obtain ⟨b, hb⟩ := joinFailed_fail env (sortedKeys req) ⟨some r.online, leader, some (.join e)⟩
        exact (hfail _ _ hb).elim
      | setup => exact (hfail _ _ rfl).elim
      | gaveUp => cases ha; cases hs
      | session => exact (hfail _ _ rfl).elim
      | generated lh st pt hses hres =>
        obtain ⟨h1, h2, sch, lenv, mgr, h3, rfl⟩ := hses
        obtain ⟨e, k, h4, rfl, h5, h6⟩ := (sesInv (disk := disk) g lenv (sortedKeys req) (TssCommon.newTssCommon mgr) lh).ok pt hres
        have hkey := (pubKey_true (env := env) (env.pubOf e.share) k _).2 ⟨h5, rfl⟩
        unfold success at ha
        rw [hkey] at ha
        cases ha
        refine ⟨rfl, e, ?_, h5, rfl, h6⟩
        have := h1.subset h4
        unfold loopEvents at this
        obtain ⟨x, hx, hx'⟩ := List.mem_filterMap.1 this
        cases x <;> simp only [Option.some.injEq, reduceCtorEq] at hx'
        subst hx'
        exact hx
    | _ => cases hr
  · push Not at hid
    rw [(refused hid h).1] at hr
    cases hr
    cases hs

/-- C52, C53: an answer other than Success has no key and no address. -/
theorem c52_no_key_without_success {pre : List Char} (g : Good env.base.storage pre) (h : List (Event P L A Q)) (resp : Response) (err : Option Err)
    (hr : (run env disk req h).ret = some (resp, err)) (hs : resp.status ≠ .success) : resp.pubKey = [] ∧ resp.poolAddress = [] := by
  by_cases hid : ∃ id, HasId env req id
  · obtain ⟨id, hid⟩ := hid
    have hi := inv_run (disk := disk) hid h
    generalize run env disk req h = s at hi hr
    cases hi with
    | done a d l hc =>
      cases hr
      generalize ha : (resp, err) = a at hc
      have hfail : ∀ b e, a = failed b e → resp.pubKey = [] ∧ resp.poolAddress = [] := by
        intro b e hf
        rw [← ha] at hf
        cases hf
        exact ⟨rfl, rfl⟩
      cases hc with
      | noJoin out =>
        obtain ⟨b, hb⟩ := joinFailed_fail env (sortedKeys req) out
        exact hfail _ _ hb
      | joinFailed jh leader r e =>
        obtain ⟨b, hb⟩ := joinFailed_fail env (sortedKeys req) ⟨some r.online, leader, some (.join e)⟩
        exact hfail _ _ hb
      | setup => exact hfail _ _ rfl
      | gaveUp => cases ha; exact ⟨rfl, rfl⟩
      | session => exact hfail _ _ rfl
      | generated lh st pt hses hres =>
        obtain ⟨h1, h2, sch, lenv, mgr, h3, rfl⟩ := hses
        obtain ⟨e, k, h4, rfl, h5, h6⟩ := (sesInv (disk := disk) g lenv (sortedKeys req) (TssCommon.newTssCommon mgr) lh).ok pt hres
        have hkey := (pubKey_true (env := env) (env.pubOf e.share) k _).2 ⟨h5, rfl⟩
        unfold success at ha
        rw [hkey] at ha
        cases ha
        exact absurd rfl hs
    | _ => cases hr
  · push Not at hid
    rw [(refused hid h).1] at hr
    cases hr
    exact ⟨rfl, rfl⟩

theorem run_append (env : KEnv P S H L Pt A Q) (disk : Storage.Disk) {id : String} (hid : HasId env req id) (h h' : List (Event P L A Q)) :
    run env disk req (h ++ h') = h'.foldl (step env req id (sortedKeys req)) (run env disk req h) := by
  unfold HasId at hid
  unfold run
  rw [hid]
  dsimp only
  rw [List.foldl_append]
  rfl

/-- C52: the answer of Keygen is final: once it has returned, neither the answer nor the files change. -/
theorem c52_final (h h' : List (Event P L A Q)) (a : Answer) (hr : (run env disk req h).ret = some a) :
    (run env disk req (h ++ h')).ret = some a ∧ (run env disk req (h ++ h')).disk = (run env disk req h).disk := by
  by_cases hid : ∃ id, HasId env req id
  · obtain ⟨id, hid⟩ := hid
    induction h' using List.reverseRecOn with
    | nil => rw [List.append_nil]; exact ⟨hr, rfl⟩
    | append_singleton h' e ih =>
      rw [← List.append_assoc, run_append env disk hid (h ++ h') [e]]
      have hi := inv_run (disk := disk) hid (h ++ h')
      rw [← ih.2]
      have hret := ih.1
      generalize run env disk req (h ++ h') = s at hi hret ⊢
      cases hi with
      | done a' d l hc =>
        simp only [List.foldl_cons, List.foldl_nil]
        unfold step
        cases e <;> exact ⟨hret, rfl⟩
      | _ => cases hret
  · push Not at hid
    obtain ⟨h1, -, h3, -⟩ := refused (disk := disk) hid (h ++ h')
    obtain ⟨g1, -, g3, -⟩ := refused (disk := disk) hid h
    rw [h1, h3, g3]
    rw [g1] at hr
    exact ⟨hr, rfl⟩

/-- C52: a failure to store the share is an error. If the local party of a session delivers while writing the share fails, then the answer, when
it comes, is Fail, without key, with the error of the storage. -/
theorem c52_write_failure (hid : HasId env req id) (h : List (Event P L A Q)) (lenv : LoopEnv Str P) (st : GenSt P Pt)
    (hph : (run env disk req h).phase = .running lenv st) (hst : st.result = none) (hcr : st.crashed = false) (e : End L A Q) (k : Str)
    (hk : PoolKey env (env.pubOf e.share) k) (msg : String)
    (hw : (Storage.SaveLocalState env.base.storage (fun st : LocalState L => String.ofList st.pubKey) env.base.folder
      ⟨k, e.share, sortedKeys req, env.ownKey⟩ e.fault st.disk).2 = .err msg) (h' : List (Event P L A Q)) (a : Answer)
    (hr : (run env disk req (h ++ .loop (.done e) :: h')).ret = some a) :
    a.2 = some (.loop .save) ∧ a.1.status = .fail ∧ a.1.pubKey = [] := by
  have key : (∃ lenv st, (run env disk req (h ++ .loop (.done e) :: h')).phase = .running lenv st ∧ st.result = some (.error .save) ∧
      (run env disk req (h ++ .loop (.done e) :: h')).ret = none) ∨ ((run env disk req (h ++ .loop (.done e) :: h')).phase = .done ∧
        ∃ b, (run env disk req (h ++ .loop (.done e) :: h')).ret = some (failed b (some (.loop .save)))) := by
    clear hr
    rw [run_append env disk hid, List.foldl_cons]
    have h0 : ∃ lenv st, (step env req id (sortedKeys req) (run env disk req h) (.loop (.done e))).phase = .running lenv st ∧
        st.result = some (.error .save) ∧ (step env req id (sortedKeys req) (run env disk req h) (.loop (.done e))).ret = none := by
      have hi := inv_run (disk := disk) hid h
      generalize run env disk req h = s at hi hph ⊢
      cases hi with
      | running lh sch lenv1 mgr st1 h1 h2 h3 h4 =>
        cases hph
        unfold step
        dsimp only
        rw [if_neg (by rw [hcr]; simp)]
        dsimp only
        refine ⟨lenv, _, rfl, ?_, rfl⟩
        unfold genStep
        rw [if_neg (by rw [hcr]; simp)]
        dsimp only
        rw [hst]
        simp only [Option.isSome_none]
        unfold genDone
        rw [(pubKey_true (env := env) _ k _).2 ⟨hk, rfl⟩]
        dsimp only
        generalize Storage.SaveLocalState env.base.storage (fun st : LocalState L => String.ofList st.pubKey) env.base.folder
          ⟨k, e.share, sortedKeys req, env.ownKey⟩ e.fault st.disk = w at hw
        obtain ⟨d, r⟩ := w
        dsimp only at hw
        subst hw
        rfl
      | _ => cases hph
    generalize step env req id (sortedKeys req) (run env disk req h) (.loop (.done e)) = s at h0
    induction h' using List.reverseRecOn with
    | nil => exact .inl h0
    | append_singleton h' e' ih =>
      rw [List.foldl_append]
      simp only [List.foldl_cons, List.foldl_nil]
      have hrr := ih
      · clear ih
        generalize List.foldl (step env req id (sortedKeys req)) s h' = s at hrr ⊢
        unfold step
        split
        · exact hrr
        rcases hrr with ⟨lenv, st, h1, h2, h3⟩ | ⟨h1, h2⟩
        · cases e' with
          | loop e' =>
            dsimp only
            rw [h1]
            dsimp only
            exact .inl ⟨lenv, _, rfl, (genStep_ended (env := env) lenv (sortedKeys req) st e' _ h2).1, h3⟩
          | finish =>
            dsimp only
            rw [h1]
            dsimp only
            rw [h2]
            exact .inr ⟨rfl, _, rfl⟩
          | _ =>
            dsimp only
            rw [h1]
            exact .inl ⟨lenv, st, h1, h2, h3⟩
        · cases e' <;> (dsimp only; rw [h1]; exact .inr ⟨h1, h2⟩)
  rcases key with ⟨_, _, -, -, h1⟩ | ⟨-, b, h1⟩
  · rw [h1] at hr; cases hr
  · rw [h1] at hr
    cases hr
    exact ⟨rfl, rfl, rfl⟩

/-! ## C53 who is blamed when the party of a key generation is not formed -/

/-- Why the party was not formed, and whom the answer then blames. -/
inductive JoinBlame (env : KEnv P S H L Pt A Q) (req : Request) (id : String) (h : List (Event P L A Q)) : Blame Str → Prop
  /-- the leaderless join could not begin: nobody -/
  | noJoin (out : JoinOut P) : NoJoin env req id h out → out.leader = "NONE" → JoinBlame env req id h (NewBlame InternalError [])
  /-- the join with a leader could not begin: the leader -/
  | noJoinLeader (out : JoinOut P) : NoJoin env req id h out → out.leader ≠ "NONE" → JoinBlame env req id h (blameLeader env.base out.leader)
  /-- the leaderless join failed: the nodes not reported online -/
  | absent (jh : List (JoinParty.Event P)) (r : JoinParty.Result P) (e : JoinErr) : jh <+ joinEvents h →
      JoinEnd env.base true (sortedKeys req) ((req.keys.length : Int) - 1) id req.blockHeight jh "NONE" r → r.err = some e →
      JoinBlame env req id h (NodeSyncBlame env.base.codec (sortedKeys req) r.online).1
  /-- the join with a leader failed and nobody is reported online: the leader -/
  | silent (jh : List (JoinParty.Event P)) (leader : String) (r : JoinParty.Result P) (e : JoinErr) : jh <+ joinEvents h →
      JoinEnd env.base false (sortedKeys req) ((req.keys.length : Int) - 1) id req.blockHeight jh leader r → r.err = some e → r.online = [] →
      JoinBlame env req id h (blameLeader env.base leader)
  /-- the join with a leader failed: the nodes not reported online and the leader -/
  | leader (jh : List (JoinParty.Event P)) (leader : String) (r : JoinParty.Result P) (e : JoinErr) : jh <+ joinEvents h →
      JoinEnd env.base false (sortedKeys req) ((req.keys.length : Int) - 1) id req.blockHeight jh leader r → r.err = some e → r.online ≠ [] →
      JoinBlame env req id h ((NodeSyncBlame env.base.codec (sortedKeys req) r.online).1.addBlameNodes (blameLeader env.base leader).nodes)

theorem joinParty_error {env : Server.Env P S H L} {gs : Groups P} {id : String} {version : Str} {bh : Int} {keys : List Str} {t : Int} {out : JoinOut P}
    (h : joinParty env gs id version bh keys t = .error out) : out.online = none := by
  unfold joinParty startJoin at h
  repeat' split at h
  all_goals (cases h; try rfl)

/-- C53 (Keygen): if the party is not formed then the answer is Fail without an error, has no key, and blames as described by `JoinBlame`. -/
theorem c53_keygen_fail (hid : HasId env req id) (hl : LawfulPeers env.base.peers) (h : List (Event P L A Q)) (hn : ¬ PartyFormed env req id h)
    (resp : Response) (err : Option Err) (hr : (run env disk req h).ret = some (resp, err)) :
    err = none ∧ resp.status = .fail ∧ resp.pubKey = [] ∧ resp.poolAddress = [] ∧ JoinBlame env req id h resp.blame := by
  have hi := inv_run (disk := disk) hid h
  generalize run env disk req h = s at hi hr
  cases hi with
  | done a d l hc =>
    cases hr
    generalize ha : (resp, err) = a at hc
    cases hc with
    | noJoin out hnj =>
      obtain ⟨online, leader, e'⟩ := out
      obtain ⟨gs, h1, h2⟩ := hnj
      have ho := joinParty_error h2
      dsimp only at ho
      subst ho
      unfold Keygen.joinFailed at ha
      dsimp only at ha
      split at ha
      · rename_i hn
        cases ha
        exact ⟨rfl, rfl, rfl, rfl, .noJoin _ ⟨gs, h1, h2⟩ hn⟩
      · rename_i hn
        cases ha
        exact ⟨rfl, rfl, rfl, rfl, .noJoinLeader _ ⟨gs, h1, h2⟩ hn⟩
    | joinFailed jh leader r e hje he =>
      obtain ⟨c, ⟨h1, -, gs, c₀, -, h3, rfl⟩, h4, h5⟩ := hje
      have hv : ∃ old, Version.VersionLTCheck env.base.parseVer req.version env.base.gate = .ok old := by
        unfold joinParty at h3
        split at h3
        · exact ⟨_, by assumption⟩
        · exact ⟨_, by assumption⟩
        · cases h3
      obtain ⟨old, hv⟩ := hv
      have hend := join_end hl hv h3 jh r h4
      rw [h5] at hend
      unfold Keygen.joinFailed at ha
      dsimp only at ha
      cases old with
      | true =>
        obtain rfl : leader = "NONE" := by
          obtain ⟨_, _, ⟨-, h, -⟩ | ⟨h, -⟩⟩ := hend
          · exact h
          · cases h
        rw [if_pos rfl] at ha
        cases ha
        exact ⟨rfl, rfl, rfl, rfl, .absent jh r e h1 hend he⟩
      | false =>
        have hne : leader ≠ "NONE" := by
          obtain ⟨committee, _, ⟨h, -⟩ | ⟨-, h, -⟩⟩ := hend
          · cases h
          · obtain ⟨p, -, hp⟩ := List.mem_map.1 (C08.c08_leader_is_min _ _ _ _ _ h).1
            rw [← hp]
            exact str_ne_none hl p
        rw [if_neg hne] at ha
        simp only [Option.getD_some] at ha
        split at ha
        · rename_i ho
          cases ha
          exact ⟨rfl, rfl, rfl, rfl, .leader jh leader r e h1 hend he (fun h => ho (by rw [h]; rfl))⟩
        · rename_i ho
          cases ha
          exact ⟨rfl, rfl, rfl, rfl, .silent jh leader r e h1 hend he (List.length_eq_zero_iff.1 (by simpa using ho))⟩
    | setup sch e h1 => exact absurd h1 hn
    | gaveUp sch h1 => exact absurd h1 hn
    | session lh st e h1 => exact absurd h1.2.1 hn
    | generated lh st pt h1 => exact absurd h1.2.1 hn
  | _ => cases hr

/-- C53 (Keygen without leader): a failed join blames exactly the nodes this node has not heard from when it stopped waiting (`h1`); not itself. -/
theorem c53_keygen_absent (env : Server.Env P S H L) (keys : List Str) (own : Str) (hown : own ∈ keys) (hme : GetPeerIDFromPubKey env.codec own = .ok env.me)
    (t : Int) (id : String) (bh : Int) (jh : List (JoinParty.Event P)) (r : JoinParty.Result P) (hj : JoinEnd env true keys t id bh jh "NONE" r)
    (hnd : ∀ committee, GetPeerIDsFromPubKeys env.codec keys = .ok committee → committee.Nodup) :
    ∃ h1, h1 <+: jh ∧ (NodeSyncBlame env.codec keys r.online).1.failReason = "signers fail to sync before keygen/keysign" ∧
      ∀ n, n ∈ (NodeSyncBlame env.codec keys r.online).1.nodes ↔
        ∃ k ∈ keys, n = ⟨k, [], []⟩ ∧ ∃ p, GetPeerIDFromPubKey env.codec k = .ok p ∧ p ≠ env.me ∧ p ∉ heard id h1 := by
  obtain ⟨committee, hc, ⟨-, -, hv⟩ | ⟨h0, -⟩⟩ := hj
  · have hf := (getPeerIDs_forall₂ _ _ _).1 hc
    obtain ⟨q, hq, hq1⟩ := forall₂_mem_left hf hown
    rw [hme] at hq1
    cases hq1
    obtain ⟨h1, hp, g1, g2, g3, g4⟩ := hv (hnd committee hc) hq
    have hall : ∀ k ∈ keys, ∃ p, GetPeerIDFromPubKey env.codec k = .ok p := fun k hk => by
      obtain ⟨p, -, h⟩ := forall₂_mem_left hf hk
      exact ⟨p, h⟩
    refine ⟨h1, hp, ?_⟩
    rw [Timeouts.c38_absent_blamed _ _ _ hall]
    refine ⟨rfl, fun n => ?_⟩
    simp only [List.mem_map, List.mem_filter, decide_eq_true_eq]
    constructor
    · rintro ⟨k, ⟨hk1, hk2⟩, rfl⟩
      obtain ⟨p, hpc, hp1⟩ := forall₂_mem_left hf hk1
      refine ⟨k, hk1, rfl, p, hp1, ?_, ?_⟩
      · intro hpm
        exact hk2 p ((g2 p).2 (.inl hpm)) hp1
      · intro hh
        exact hk2 p ((g2 p).2 (.inr ⟨hpc, hh⟩)) hp1
    · rintro ⟨k, hk1, rfl, p, hp1, hpm, hh⟩
      refine ⟨k, ⟨hk1, fun q hq hq1 => ?_⟩, rfl⟩
      rw [hp1] at hq1
      cases hq1
      rcases (g2 p).1 hq with h | h
      · exact hpm h
      · exact hh h.2
  · cases h0

/-! ## C78 when the peers are told -/

/-- C78 (partial): a node tells its peers that its key generation is done only after its local party has delivered a share. Missing: that this
share is stored; `c78_told_but_not_stored` below shows a run in which it is not. -/
theorem c78_delivered_partial (lenv : LoopEnv Str P) (keys : List Str) (ses : TssCommon.St Str P) (lh : List (LoopEvent P (End L A Q)))
    (hn : (genRun env lenv keys ses disk lh).notified = true) : ∃ e, LoopEvent.done e ∈ lh := by
  induction lh using List.reverseRecOn with
  | nil => cases hn
  | append_singleton lh e ih =>
    cases e with
    | done r => exact ⟨r, by simp⟩
    | _ =>
      have : (genRun env lenv keys ses disk lh).notified = true := by
        unfold genRun at hn ⊢
        rw [List.foldl_append] at hn
        simp only [List.foldl_cons, List.foldl_nil] at hn
        generalize List.foldl (genStep env lenv keys) (genInit ses disk) lh = s at hn ⊢
        revert hn
        unfold genStep
        dsimp only
        repeat' split
        all_goals exact fun h => h
      obtain ⟨r, hr⟩ := ih this
      exact ⟨r, by simp [hr]⟩

/-! ## C79 keys can be used -/

/-- C79: after Keygen has answered Success with a pool key, a request to sign with this key passes the checks of KeySign and is taken up, if its
messages can be decoded and its version parsed, and, for the leaderless join, it has more signers than the threshold of the number of keys of the
Keygen request. -/
theorem c79_key_is_usable {pre : List Char} (g : Good env.base.storage pre) (h : List (Event P L A Q)) (resp : Response) (err : Option Err)
    (hr : (run env disk req h).ret = some (resp, err)) (hs : resp.status = .success) (base64 : Str → Option Bytes) (sreq : KeySign.Request)
    (hpool : sreq.poolPubKey = resp.pubKey) (hm : ∀ m ∈ sreq.messages, base64 m ≠ none)
    (hne : MsgId.msgData (.keysign sreq.poolPubKey sreq.messages sreq.signerPubKeys sreq.blockHeight sreq.version) ≠ [])
    (old : Bool) (hv : Version.VersionLTCheck env.base.parseVer sreq.version env.base.gate = .ok old)
    (t : Int) (ht : Threshold.GetThreshold req.keys.length = .ok t) (ho : old = true → sreq.signerPubKeys ≠ [] ∧ t < sreq.signerPubKeys.length) :
    ∃ job, KeySign.prepare env.base base64 (run env disk req h).disk sreq = .ok (.ok job) ∧ job.state.participantKeys.Perm req.keys ∧
      job.state.localPartyKey = env.ownKey := by
  obtain ⟨-, e, -, hk, -, hst⟩ := c52_success_is_stored g h resp err hr hs
  unfold KeySign.prepare
  rw [MsgId.requestToMsgId, MsgId.MsgToHashString, if_neg (fun h => hne (List.length_eq_zero_iff.1 h))]
  dsimp only
  rw [hpool]
  unfold stored at hst
  rw [hst]
  have hdec : ∀ l : List Str, (∀ m ∈ l, base64 m ≠ none) → ∃ d, KeySign.decodeAll base64 l = some d := by
    intro l
    induction l with
    | nil => intro _; exact ⟨[], rfl⟩
    | cons m l ih =>
      intro hl
      obtain ⟨d, hd⟩ := ih fun m hm => hl m (by simp [hm])
      obtain ⟨b, hb⟩ := Option.ne_none_iff_exists'.1 (hl m (by simp))
      exact ⟨b :: d, by simp [KeySign.decodeAll, hb, hd]⟩
  obtain ⟨d, hd⟩ := hdec (MsgId.sortStrings sreq.messages) (by
    intro m hm'
    unfold MsgId.sortStrings at hm'
    exact hm m ((List.perm_insertionSort _ _).mem_iff.1 hm'))
  have hlen : (MsgId.sortStrings sreq.signerPubKeys).length = sreq.signerPubKeys.length := List.length_insertionSort _ _
  dsimp only
  rw [hd, hv, sortedKeys_length, ht, hlen]
  dsimp only
  have h1 : ¬ (sreq.signerPubKeys.length = 0 ∧ old = true) := fun ⟨h0, h1⟩ => (ho h1).1 (List.length_eq_zero_iff.1 h0)
  have h2 : ¬ ((sreq.signerPubKeys.length : Int) ≤ t ∧ old = true) := fun ⟨h0, h1⟩ => by have := (ho h1).2; omega
  rw [if_neg h1, if_neg h2]
  exact ⟨_, rfl, List.perm_insertionSort _ _, rfl⟩

/-! ## C80 metrics of key generation -/

/-- the keys of the request are canonical and belong to peers -/
def ProperKeys (env : KEnv P S H L Pt A Q) (req : Request) : Prop :=
  ∀ k ∈ req.keys, ∃ b p, Conv.Canonical env.base.codec k b ∧ env.base.codec.peerOf b = some p

theorem setup_not_nothing (hk : ProperKeys env req) (sch : SetupSched P) (id : String) : genSetup env sch id (sortedKeys req) ≠ .nothing := by
  intro h
  have hmem : ∀ k ∈ sortedKeys req, k ∈ req.keys := fun k hk => (List.perm_insertionSort _ _).mem_iff.1 hk
  unfold genSetup at h
  split at h
  · cases h
  · cases h
  · rename_i parties loc hp
    split at h
    · cases h
    · cases h
    · split at h
      · cases h
      · dsimp only at h
        have hok : ∀ σ : Go.Shuffle (Nat × Party), (SetupIDMaps env.base.codec (σ.f (SetupPartyIDMap parties)) []).2 = .ok () := by
          intro σ
          rw [Conv.setupIDMaps_ok]
          intro x hx
          have hx' := mem_partyIDMap ((σ.perm _).mem_iff.1 hx)
          obtain ⟨k, hki, -, hpe, -⟩ := Conv.c04_conversions_inverse env.base.codec (sortedKeys req) ((sortedKeys req).insertionSort (· ≤ ·)) env.ownKey
            (List.perm_insertionSort _ _) (List.pairwise_insertionSort _ _)
            (fun k hk' => by obtain ⟨b, p, h1, -⟩ := hk k (hmem k hk'); exact ⟨b, h1⟩) parties loc hp x.2 hx'
          obtain ⟨b, p, h1, h2⟩ := hk k (hmem k ((List.perm_insertionSort (· ≤ ·) _).mem_iff.1 (List.mem_of_getElem? hki)))
          refine ⟨p, ?_⟩
          rw [hpe]
          unfold GetPeerIDFromPubKey
          rw [h1.dec]
          dsimp only
          rw [h2]
        rw [if_pos ⟨hok _, hok _⟩] at h
        split at h <;> cases h

/-- the key generation counters a call updates, in order -/
def metrics (l : List Effect) : List Bool := l.filterMap fun e => match e with | .metric b => some b | _ => none

/-- the join counters a call updates, in order -/
def joinMetrics (l : List Effect) : List Bool := l.filterMap fun e => match e with | .joinMetric b => some b | _ => none

/-- C80: every Keygen call that passes its first check counts exactly once in the key generation counter when it returns, and not before; for
proper keys it counts as a success iff its answer is Success. -/
theorem c80_counted_once {pre : List Char} (g : Good env.base.storage pre) (hid : HasId env req id) (hk : ProperKeys env req) (h : List (Event P L A Q)) :
    match (run env disk req h).ret with
    | none => metrics (run env disk req h).effects = []
    | some a => metrics (run env disk req h).effects = [decide (a.1.status = .success)] := by
  have hi := inv_run (disk := disk) hid h
  have hsucc := fun a b => c52_success_is_stored (env := env) (disk := disk) (req := req) g h a b
  generalize run env disk req h = s at hi hsucc ⊢
  cases hi with
  | start => rfl
  | joining => rfl
  | running => rfl
  | done a d l hc =>
    dsimp only
    cases hc with
    | noJoin out =>
      obtain ⟨b, hb⟩ := joinFailed_fail env (sortedKeys req) out
      rw [hb]; rfl
    | joinFailed jh leader r e =>
      obtain ⟨b, hb⟩ := joinFailed_fail env (sortedKeys req) ⟨some r.online, leader, some (.join e)⟩
      rw [hb]; rfl
    | setup => rfl
    | gaveUp sch h1 h2 => exact absurd h2 (setup_not_nothing hk sch id)
    | session => rfl
    | generated lh st pt hses hres =>
      obtain ⟨h1, h2, sch, lenv, mgr, h3, rfl⟩ := hses
      obtain ⟨e, k, h4, rfl, h5, h6⟩ := (sesInv (disk := disk) g lenv (sortedKeys req) (TssCommon.newTssCommon mgr) lh).ok pt hres
      unfold success
      rw [(pubKey_true (env := env) (env.pubOf e.share) k _).2 ⟨h5, rfl⟩]
      rfl

/-- C80: the join counter counts exactly once, when the join is over, and as a success iff the party was formed (before the call returned). -/
theorem c80_join_counted (hid : HasId env req id) (h : List (Event P L A Q)) (a : Answer) (hr : (run env disk req h).ret = some a) :
    ∃ b, joinMetrics (run env disk req h).effects = [b] ∧ (b = true → PartyFormed env req id h) ∧
      (b = false → Outcome env req id disk h a ∧ Effect.generating ∉ (run env disk req h).effects ∧ a.1.status = .fail) := by
  have hi := inv_run (disk := disk) hid h
  generalize run env disk req h = s at hi hr ⊢
  cases hi with
  | done a d l hc =>
    cases hr
    have ho := Closed.outcome hc
    cases hc with
    | noJoin out =>
      obtain ⟨b, hb⟩ := joinFailed_fail env (sortedKeys req) out
      exact ⟨false, rfl, (by simp), fun _ => ⟨ho, by simp, by rw [hb]; rfl⟩⟩
    | joinFailed jh leader r e =>
      obtain ⟨b, hb⟩ := joinFailed_fail env (sortedKeys req) ⟨some r.online, leader, some (.join e)⟩
      exact ⟨false, rfl, (by simp), fun _ => ⟨ho, by simp, by rw [hb]; rfl⟩⟩
    | setup _ _ h1 => exact ⟨true, rfl, fun _ => h1, by simp⟩
    | gaveUp _ h1 => exact ⟨true, rfl, fun _ => h1, by simp⟩
    | session _ _ _ h1 => exact ⟨true, rfl, fun _ => h1.2.1, by simp⟩
    | generated _ _ _ h1 => exact ⟨true, rfl, fun _ => h1.2.1, by simp⟩
  | _ => cases hr

/-! ## C81 other keys -/

/-- C81: a Keygen call, at any time and also when it fails, crashes or writing fails, leaves the stored shares of all pool keys unchanged, except
for keys that its own local party has delivered. -/
theorem c81_other_keys {pre : List Char} (g : Good env.base.storage pre) (h : List (Event P L A Q)) (k : Str)
    (hk : ∀ e, Event.loop (.done e) ∈ h → ¬ PoolKey env (env.pubOf e.share) k) : stored env (run env disk req h).disk k = stored env disk k := by
  have hses : ∀ {id} lh (st : GenSt P Pt), SessionRun env req id disk h lh st → stored env st.disk k = stored env disk k := by
    rintro id lh st ⟨h1, -, sch, lenv, mgr, -, rfl⟩
    refine (sesInv (disk := disk) g lenv (sortedKeys req) (TssCommon.newTssCommon mgr) lh).other k fun e he => hk e ?_
    have := h1.subset he
    unfold loopEvents at this
    obtain ⟨x, hx, hx'⟩ := List.mem_filterMap.1 this
    cases x <;> simp only [Option.some.injEq, reduceCtorEq] at hx'
    subst hx'
    exact hx
  by_cases hid : ∃ id, HasId env req id
  · obtain ⟨id, hid⟩ := hid
    have hi := inv_run (disk := disk) hid h
    generalize run env disk req h = s at hi ⊢
    cases hi with
    | start => rfl
    | joining => rfl
    | running lh sch lenv mgr st h1 h2 h3 h4 => exact hses lh st ⟨h1, h2, sch, lenv, mgr, h3, h4⟩
    | done a d l hc =>
      cases hc with
      | noJoin => rfl
      | joinFailed => rfl
      | setup => rfl
      | gaveUp => rfl
      | session lh st e h1 => exact hses lh st h1
      | generated lh st e h1 => exact hses lh st h1
  · push Not at hid
    rw [(refused hid h).2.2.1]

/-! ## C82 crashes -/

/-- C82 (partial): a Keygen call crashes the program only in a session. Missing: sessions do crash on certain messages, see C76 and the session
properties. -/
theorem c82_crash_causes_partial (hid : HasId env req id) (h : List (Event P L A Q)) (hcr : (run env disk req h).crashed = true) :
    ∃ lh st, SessionRun env req id disk h lh st ∧ st.crashed = true := by
  have hi := inv_run (disk := disk) hid h
  have hno : ∀ sch, genSetup env sch id (sortedKeys req) ≠ .panic := by
    intro sch hs
    unfold genSetup at hs
    split at hs
    · cases hs
    · rename_i hp
      rcases GetParties_eq env.base.codec.dec (sortedKeys req) env.ownKey with ⟨-, e⟩ | ⟨-, -, e⟩ | ⟨-, -, lp, i, -, -, -, -, e⟩ <;>
        (rw [e] at hp; cases hp)
    · split at hs
      · cases hs
      · rename_i ht
        unfold Threshold.GetThreshold at ht
        split at ht <;> cases ht
      · split at hs
        · cases hs
        · dsimp only at hs
          split at hs
          · split at hs
            · cases hs
            · rename_i hn
              exact hn _ rfl
          · cases hs
  generalize run env disk req h = s at hi hcr
  cases hi with
  | start => cases hcr
  | joining jh c cr h1 h2 =>
    rcases h2 hcr with ⟨sch, h⟩ | h
    · exact absurd h (hno sch)
    · exact h
  | running lh sch lenv mgr st h1 h2 h3 h4 => exact ⟨lh, st, ⟨h1, h2, sch, lenv, mgr, h3, h4⟩, hcr⟩
  | done => cases hcr

end main

/-! ## Examples and limits -/

section demo
open Verif.Spec.DemoServer (key peers codec)

deriving instance DecidableEq for LocalState

/-- the share of the new pool key "p1y" of node `i` -/
def share (i : Nat) : LocalState Unit := ⟨"p1y".toList, (), [key 0, key 1, key 2, key 3], key i⟩

/-- storage that can hold this share -/
def storage (i : Nat) : Storage.Env (LocalState Unit) :=
  ⟨fun k => .ok (decide (k = "p1y")), fun s => if s = share i then some [1, 2] else none, fun b => if b = [1, 2] then some (share i) else none⟩

/-- node `i` -/
def env (i : Nat) : KEnv Nat Nat Nat Unit Unit Unit Nat where
  base := { Spec.DemoServer.env i with storage := storage i }
  ownKey := key i
  preParams := true
  pubOf := id
  onCurve _ := true
  bech32 _ := some "p1y".toList
  address _ := "addr".toList
  addr := ⟨fun _ => ['a'], fun _ => ['q'], fun _ => none, fun _ => [], fun _ => []⟩

theorem good (i : Nat) : Good (env i).base.storage ['p'] where
  slash := by decide
  key k h := by
    simp only [env, storage, Res.ok.injEq, decide_eq_true_eq] at h
    subst h
    exact ⟨['y'], by decide, by decide⟩
  json s b h := by
    simp only [env, storage] at h ⊢
    split at h
    · rename_i hs
      cases h
      rw [hs]; rfl
    · cases h

/-- a request for a key of the four members -/
def request (version : Str) : Request := ⟨[key 2, key 0, key 3, key 1], 5, version⟩

/-- how the local party ends -/
def delivers (fault : Option Storage.Fault) : Event Nat Unit Unit Nat := .loop (.done ⟨(), fault, Go.Shuffle.id _, [], none⟩)

/-- the leader (peer 10) answers node 1 with the list `l` -/
def answer (l : List Nat) (t : RespType) : List (Event Nat Unit Unit Nat) :=
  [.start [], .join (.incoming "kakbkckd" (.response 10 ⟨t, l.map peers.str⟩)), .join (.wake Spec.DemoServer.keep), .join (.step Spec.DemoServer.keep),
   .join (.step Spec.DemoServer.keep), .join (.step Spec.DemoServer.keep), .joined ⟨Go.Shuffle.id _, Go.Shuffle.id _, Go.Shuffle.id _⟩]

/-- node 1 handles the request with a leader -/
def demo (h : List (Event Nat Unit Unit Nat)) : St Nat Unit := run (env 1) [] (request ['n']) h

/-- status, key, blamed keys and whether there is an error -/
def summary (s : St Nat Unit) : Option (Status × String × List Str × Bool) :=
  s.ret.map fun a => (a.1.status, String.ofList a.1.pubKey, a.1.blame.nodes.map (·.pubkey), a.2.isSome)

/-- visiting orders -/
def sched : SetupSched Nat := ⟨Go.Shuffle.id _, Go.Shuffle.id _, Go.Shuffle.id _⟩

/-- the hypotheses of the theorems above hold of the example -/
example : Good (env 1).base.storage ['p'] ∧ LawfulPeers (env 1).base.peers ∧ HasId (env 1) (request ['n']) "kakbkckd" ∧
    ProperKeys (env 1) (request ['n']) := by
  refine ⟨good 1, Spec.DemoServer.lawfulPeers, by unfold HasId; decide +kernel, ?_⟩
  have h : ∀ i, i < 4 → GetPubKeyFromPeerID codec (10 + i) = .ok (key i) := by decide +kernel
  intro k hk
  have : ∃ i, i < 4 ∧ k = key i := by
    simp only [request, List.mem_cons, List.not_mem_nil, or_false] at hk
    rcases hk with rfl | rfl | rfl | rfl
    exacts [⟨2, by decide, rfl⟩, ⟨0, by decide, rfl⟩, ⟨3, by decide, rfl⟩, ⟨1, by decide, rfl⟩]
  obtain ⟨i, hi, rfl⟩ := this
  obtain ⟨b, h1, h2⟩ := Spec.DemoServer.lawfulKeys (10 + i) (key i) (h i hi)
  exact ⟨b, _, h1, h2⟩

/-- C52, C79, C80: the party is formed, the local party delivers, the share is written: Success -/
example : summary (demo (answer [10, 11, 12, 13] .success ++ [delivers none, .finish])) = some (.success, "p1y", [], false) ∧
    metrics (demo (answer [10, 11, 12, 13] .success ++ [delivers none, .finish])).effects = [true] := by decide +kernel

/-- C52: the write fails half-way: Fail with an error (the hypotheses of `c52_write_failure`) -/
example : summary (demo (answer [10, 11, 12, 13] .success ++ [delivers (some (.after 1)), .finish])) = some (.fail, "", [], true) ∧
    (match (demo (answer [10, 11, 12, 13] .success)).phase with | .running _ st => decide (st.result.isNone ∧ st.crashed = false) | _ => false) = true ∧
    PoolKey (env 1) () "p1y".toList ∧
    (Storage.SaveLocalState (env 1).base.storage (fun st : LocalState Unit => String.ofList st.pubKey) (env 1).base.folder
      ⟨"p1y".toList, (), sortedKeys (request ['n']), (env 1).ownKey⟩ (some (.after 1)) []).2 = .err "write" := by
  refine ⟨by decide +kernel, by decide +kernel, ⟨rfl, rfl⟩, by decide +kernel⟩

/-- C53: without leader, the absent member 2 is blamed -/
example : summary (run (env 1) [] (request ['o']) [.start [], .join (.incoming "kakbkckd" (.leaderless 10)), .join (.incoming "kakbkckd" (.leaderless 13)),
    .join .timeout, .join (.step Spec.DemoServer.keep), .joined sched]) = some (.fail, "", [key 2], false) := by decide +kernel

/-- C53: the leader does not answer and is blamed alone -/
example : summary (demo [.start [], .join .timeout, .join (.step Spec.DemoServer.keep), .joined sched]) = some (.fail, "", [key 0], false) := by
  decide +kernel

/-- C53 is false for the join with a leader: member 2 does not show up, the leader says so, and the leader is blamed as well. -/
theorem c53_keygen_leader_blamed : summary (demo (answer [10, 11, 13] .timeout)) = some (.fail, "", [key 2, key 0], false) := by decide +kernel

/-- C53 is false for the join with a leader: a leader who has waited for member 2 in vain blames itself as well. -/
theorem c53_keygen_leader_blames_itself : summary (run (env 0) [] (request ['n']) [.start [], .join (.incoming "kakbkckd" (.request 11)),
    .join (.incoming "kakbkckd" (.request 13)), .join .timeout, .join (.step Spec.DemoServer.keep), .joined sched]) =
      some (.fail, "", [key 2, key 0], false) := by decide +kernel

/-- C78 is false: the peers are told that the key generation is done although writing the share fails. -/
theorem c78_told_but_not_stored : ∃ h : List (Event Nat Unit Unit Nat), summary (demo (h ++ [.finish])) = some (.fail, "", [], true) ∧
    (match (demo h).phase with | .running _ st => st.notified | _ => false) = true ∧
    (match stored (env 1) (demo h).disk "p1y".toList with | .ok _ => false | _ => true) = true :=
  ⟨answer [10, 11, 12, 13] .success ++ [delivers (some .open_)], by decide +kernel⟩

/-- C79: after the Success of the example, a request to sign "ma" with the reported key is accepted (the hypotheses of `c79_key_is_usable`) -/
example : (match KeySign.prepare (env 1).base Spec.DemoServer.base64 (demo (answer [10, 11, 12, 13] .success ++ [delivers none, .finish])).disk
      ⟨"p1y".toList, [['m', 'a']], [key 0, key 1, key 2, key 3], 5, ['o']⟩ with
    | .ok (.ok job) => decide (job.state = share 1)
    | _ => false) = true := by decide +kernel

/-- C81: the key "x" is not the key of the example -/
example : ¬ PoolKey (env 1) () "x".toList := by
  rintro ⟨-, h⟩
  revert h
  decide

/-- C80 is false for keys that are not canonical: the call fails silently (Fail without error) and counts as a success. -/
theorem c80_silent_failure_counted : ∃ (req : Request) (h : List (Event Nat Unit Unit Nat)),
    summary (run (env 1) [] req h) = some (.fail, "", [], false) ∧ metrics (run (env 1) [] req h).effects = [true] :=
  ⟨⟨[['k', '`'], key 1], 5, ['o']⟩, [.start [], .join (.incoming "k`kb" (.leaderless 9)), .join .timeout,
    .join (.step Spec.DemoServer.keep), .joined sched], by decide +kernel⟩

end demo

end Verif.Props.KeyGeneration
