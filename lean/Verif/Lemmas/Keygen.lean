import Verif.Spec.Keygen

/-! # The invariant of a Keygen call -/
set_option linter.unusedSectionVars false
namespace Verif.Keygen
open Verif.Go Verif.Conversion Verif.Blame Verif.Server Verif.Session Verif.Spec.Keygen
open Verif.JoinParty hiding Event
open scoped List

variable {P S H L Pt A Q : Type} [DecidableEq P] [LinearOrder S] [LinearOrder H]
variable {env : KEnv P S H L Pt A Q} {req : Request} {id : String} {disk : Storage.Disk}

theorem joinEvents_snoc (h : List (Event P L A Q)) (e : Event P L A Q) :
    joinEvents (h ++ [e]) = joinEvents h ++ (match e with | .join e => [e] | _ => []) := by
  unfold joinEvents
  rw [List.filterMap_append]
  congr 1
  cases e <;> rfl

theorem loopEvents_snoc (h : List (Event P L A Q)) (e : Event P L A Q) :
    loopEvents (h ++ [e]) = loopEvents h ++ (match e with | .loop e => [e] | _ => []) := by
  unfold loopEvents
  rw [List.filterMap_append]
  congr 1
  cases e <;> rfl

theorem JoinRun.mono {h : List (Event P L A Q)} {jh : List (JoinParty.Event P)} {c : JoinCall P} (e : Event P L A Q)
    (hj : JoinRun env req id h jh c) : JoinRun env req id (h ++ [e]) jh c := by
  obtain ⟨h1, h2, gs, c₀, h3, h4⟩ := hj
  refine ⟨h1.trans ?_, h2, gs, c₀, by simp [h3], h4⟩
  rw [joinEvents_snoc]
  exact List.sublist_append_left _ _

theorem JoinEnded.mono {h : List (Event P L A Q)} {jh : List (JoinParty.Event P)} {leader : String} {r : JoinParty.Result P} (e : Event P L A Q)
    (hj : JoinEnded env req id h jh leader r) : JoinEnded env req id (h ++ [e]) jh leader r := by
  obtain ⟨c, h1, h2⟩ := hj
  exact ⟨c, JoinRun.mono e h1, h2⟩

theorem PartyFormed.mono {h : List (Event P L A Q)} (e : Event P L A Q) (hj : PartyFormed env req id h) : PartyFormed env req id (h ++ [e]) := by
  obtain ⟨jh, l, r, h1, h2⟩ := hj
  exact ⟨jh, l, r, JoinEnded.mono e h1, h2⟩

theorem SessionRun.mono {h : List (Event P L A Q)} {lh : List (LoopEvent P (End L A Q))} {st : GenSt P Pt} (e : Event P L A Q)
    (hj : SessionRun env req id disk h lh st) : SessionRun env req id disk (h ++ [e]) lh st := by
  obtain ⟨h1, h2, h3⟩ := hj
  refine ⟨h1.trans ?_, PartyFormed.mono e h2, h3⟩
  rw [loopEvents_snoc]
  exact List.sublist_append_left _ _

theorem Outcome.mono {h : List (Event P L A Q)} {a : Answer} (e : Event P L A Q) (ho : Outcome env req id disk h a) :
    Outcome env req id disk (h ++ [e]) a := by
  cases ho with
  | noJoin out h1 =>
    obtain ⟨gs, h1, h2⟩ := h1
    exact .noJoin out ⟨gs, by simp [h1], h2⟩
  | joinFailed jh leader r e' h1 h2 => exact .joinFailed jh leader r e' (JoinEnded.mono e h1) h2
  | setup sch e' h1 h2 => exact .setup sch e' (PartyFormed.mono e h1) h2
  | gaveUp sch h1 h2 => exact .gaveUp sch (PartyFormed.mono e h1) h2
  | session lh st e' h1 h2 => exact .session lh st e' (SessionRun.mono e h1) h2
  | generated lh st pt h1 h2 => exact .generated lh st pt (SessionRun.mono e h1) h2

/-- what holds of the disk and of the effects when the call has returned `a` -/
inductive Closed (env : KEnv P S H L Pt A Q) (req : Request) (id : String) (disk : Storage.Disk) (h : List (Event P L A Q)) :
    Answer → Storage.Disk → List Effect → Prop
  | noJoin (out : JoinOut P) : NoJoin env req id h out →
      Closed env req id disk h (Keygen.joinFailed env (sortedKeys req) out) disk [.joinMetric false, .metric false]
  | joinFailed (jh : List (JoinParty.Event P)) (leader : String) (r : JoinParty.Result P) (e : JoinErr) : JoinEnded env req id h jh leader r →
      r.err = some e → Closed env req id disk h (Keygen.joinFailed env (sortedKeys req) ⟨some r.online, leader, some (.join e)⟩) disk
        [.joining, .joinMetric false, .metric false]
  | setup (sch : SetupSched P) (e : Err) : PartyFormed env req id h → genSetup env sch id (sortedKeys req) = .error e →
      Closed env req id disk h (failed (NewBlame "" []) (some e)) disk [.joining, .joinMetric true, .metric false]
  | gaveUp (sch : SetupSched P) : PartyFormed env req id h → genSetup env sch id (sortedKeys req) = .nothing →
      Closed env req id disk h (success env none (NewBlame "" [])) disk [.joining, .joinMetric true, .metric true]
  | session (lh : List (LoopEvent P (End L A Q))) (st : GenSt P Pt) (e : LoopErr) : SessionRun env req id disk h lh st →
      st.result = some (.error e) →
      Closed env req id disk h (failed st.ses.mgr.blame (some (.loop e))) st.disk [.joining, .joinMetric true, .generating, .metric false]
  | generated (lh : List (LoopEvent P (End L A Q))) (st : GenSt P Pt) (pt : Pt) : SessionRun env req id disk h lh st →
      st.result = some (.ok pt) →
      Closed env req id disk h (success env (some pt) st.ses.mgr.blame) st.disk [.joining, .joinMetric true, .generating, .metric true]

theorem Closed.mono {h : List (Event P L A Q)} {a : Answer} {d : Storage.Disk} {l : List Effect} (e : Event P L A Q)
    (ho : Closed env req id disk h a d l) : Closed env req id disk (h ++ [e]) a d l := by
  cases ho with
  | noJoin out h1 =>
    obtain ⟨gs, h1, h2⟩ := h1
    exact .noJoin out ⟨gs, by simp [h1], h2⟩
  | joinFailed jh leader r e' h1 h2 => exact .joinFailed jh leader r e' (JoinEnded.mono e h1) h2
  | setup sch e' h1 h2 => exact .setup sch e' (PartyFormed.mono e h1) h2
  | gaveUp sch h1 h2 => exact .gaveUp sch (PartyFormed.mono e h1) h2
  | session lh st e' h1 h2 => exact .session lh st e' (SessionRun.mono e h1) h2
  | generated lh st pt h1 h2 => exact .generated lh st pt (SessionRun.mono e h1) h2

theorem Closed.outcome {h : List (Event P L A Q)} {a : Answer} {d : Storage.Disk} {l : List Effect}
    (ho : Closed env req id disk h a d l) : Outcome env req id disk h a := by
  cases ho with
  | noJoin out h1 => exact .noJoin out h1
  | joinFailed jh leader r e' h1 h2 => exact .joinFailed jh leader r e' h1 h2
  | setup sch e' h1 h2 => exact .setup sch e' h1 h2
  | gaveUp sch h1 h2 => exact .gaveUp sch h1 h2
  | session lh st e' h1 h2 => exact .session lh st e' h1 h2
  | generated lh st pt h1 h2 => exact .generated lh st pt h1 h2

/-- why the call crashed -/
def Crash (env : KEnv P S H L Pt A Q) (req : Request) (id : String) (disk : Storage.Disk) (h : List (Event P L A Q)) : Prop :=
  (∃ sch, genSetup env sch id (sortedKeys req) = .panic) ∨
  ∃ lh st, SessionRun env req id disk h lh st ∧ st.crashed = true

/-- the invariant, phase by phase -/
inductive Inv (env : KEnv P S H L Pt A Q) (req : Request) (id : String) (disk : Storage.Disk) (h : List (Event P L A Q)) : St P Pt → Prop
  | start : Inv env req id disk h ⟨.start, disk, [], false, none⟩
  | joining (jh : List (JoinParty.Event P)) (c : JoinCall P) (crashed : Bool) : JoinRun env req id h jh c →
      (crashed = true → Crash env req id disk h) → Inv env req id disk h ⟨.joining c, disk, [.joining], crashed, none⟩
  | running (lh : List (LoopEvent P (End L A Q))) (sch : SetupSched P) (lenv : LoopEnv Str P) (mgr : Manager Str P) (st : GenSt P Pt) :
      lh <+ loopEvents h → PartyFormed env req id h → genSetup env sch id (sortedKeys req) = .run lenv mgr →
      st = genRun env lenv (sortedKeys req) (TssCommon.newTssCommon mgr) disk lh →
      Inv env req id disk h ⟨.running lenv st, st.disk, [.joining, .joinMetric true, .generating], st.crashed, none⟩
  | done (a : Answer) (d : Storage.Disk) (l : List Effect) : Closed env req id disk h a d l → Inv env req id disk h ⟨.done, d, l, false, some a⟩

theorem Inv.mono {h : List (Event P L A Q)} {s : St P Pt} (e : Event P L A Q) (hi : Inv env req id disk h s) : Inv env req id disk (h ++ [e]) s := by
  cases hi with
  | start => exact .start
  | joining jh c1 cr h1 h2 =>
    refine .joining jh c1 cr (JoinRun.mono e h1) fun hc => ?_
    rcases h2 hc with h | ⟨lh, st, h3, h4⟩
    · exact .inl h
    · exact .inr ⟨lh, st, SessionRun.mono e h3, h4⟩
  | running lh sch lenv1 mgr st1 h1 h2 h3 h4 =>
    refine .running lh sch lenv1 mgr st1 (h1.trans ?_) (PartyFormed.mono e h2) h3 h4
    rw [loopEvents_snoc]
    exact List.sublist_append_left _ _
  | done a d l h1 => exact .done a d l (Closed.mono e h1)

theorem sortedKeys_length (req : Request) : (sortedKeys req).length = req.keys.length := by
  unfold sortedKeys MsgId.sortStrings
  exact List.length_insertionSort _ _

theorem inv_step {h : List (Event P L A Q)} {s : St P Pt} (e : Event P L A Q) (hi : Inv env req id disk h s) :
    Inv env req id disk (h ++ [e]) (step env req id (sortedKeys req) s e) := by
  have hm := hi.mono e
  unfold step
  split
  · exact hm
  rename_i hcr
  cases e with
  | start gs =>
    dsimp only
    split
    · rename_i hph
      cases hi <;> simp only [reduceCtorEq] at hph
      rw [sortedKeys_length]
      split
      · rename_i c hc
        refine .joining [] c false ⟨List.nil_sublist _, by simp, gs, c, by simp, hc, rfl⟩ (by simp)
      · rename_i out ho
        exact .done _ _ _ (.noJoin out ⟨gs, by simp, ho⟩)
    · exact hm
  | join e =>
    dsimp only
    split
    · rename_i c hph
      cases hi with
      | joining jh c1 cr h1 h2 =>
        dsimp only at hph hcr
        cases hph
        have key : (∀ x, e ≠ .sig x) → Inv env req id disk (h ++ [.join e])
            { (⟨.joining c, disk, [.joining], cr, none⟩ : St P Pt) with phase := .joining (c.step env.base e) } := by
          intro hne
          refine .joining (jh ++ [e]) _ cr ?_ (fun h => absurd h hcr)
          obtain ⟨g1, g2, gs, c₀, g3, g4, g5⟩ := h1
          refine ⟨?_, ?_, gs, c₀, by simp [g3], g4, by rw [List.foldl_append, ← g5]; rfl⟩
          · rw [joinEvents_snoc]
            exact g1.append (List.Sublist.refl _)
          · intro x hx
            rcases List.mem_append.1 hx with hx | hx
            · exact g2 x hx
            · exact hne x ((by simpa using hx : JoinParty.Event.sig x = e)).symm
        split
        · exact hm
        · rename_i hne
          exact key hne
      | _ => cases hph
    · exact hm
  | joined sch =>
    dsimp only
    split
    · rename_i c hph
      cases hi with
      | joining jh c1 cr h1 h2 =>
        dsimp only at hph hcr
        cases hph
        have hcr' : cr = false := by simpa using hcr
        subst hcr'
        split
        · rename_i out ho
          unfold JoinCall.out at ho
          obtain ⟨r, hr, rfl⟩ := Option.map_eq_some_iff.1 ho
          have hje : JoinEnded env req id (h ++ [.joined sch]) jh c.leader r := ⟨c, JoinRun.mono _ h1, hr, rfl⟩
          dsimp only
          rcases he : r.err with _ | e
          · have hpf : PartyFormed env req id (h ++ [.joined sch]) := ⟨jh, _, r, hje, he⟩
            simp only [Option.map_none]
            unfold St.joined
            split
            · rename_i e hs
              exact .done _ _ _ (.setup sch e hpf hs)
            · rename_i hs
              exact .done _ _ _ (.gaveUp sch hpf hs)
            · rename_i hs
              exact .joining jh c true (JoinRun.mono _ h1) fun _ => .inl ⟨sch, hs⟩
            · rename_i lenv mgr hs
              exact .running [] sch lenv mgr _ (List.nil_sublist _) hpf hs rfl
          · simp only [Option.map_some]
            exact .done _ _ _ (.joinFailed jh _ r e hje he)
        · exact hm
      | _ => cases hph
    · exact hm
  | loop e =>
    dsimp only
    split
    · rename_i lenv st hph
      cases hi with
      | running lh sch lenv1 mgr st1 h1 h2 h3 h4 =>
        dsimp only at hph hcr
        cases hph
        refine .running (lh ++ [e]) sch lenv mgr _ ?_ (PartyFormed.mono _ h2) h3 ?_
        · rw [loopEvents_snoc]
          exact h1.append (List.Sublist.refl _)
        · rw [h4]
          unfold genRun
          rw [List.foldl_append]
          rfl
      | _ => cases hph
    · exact hm
  | finish =>
    dsimp only
    split
    · rename_i lenv st hph
      cases hi with
      | running lh sch lenv1 mgr st1 h1 h2 h3 h4 =>
        dsimp only at hph hcr
        cases hph
        have hs : SessionRun env req id disk (h ++ [.finish]) lh st := SessionRun.mono _ ⟨h1, h2, sch, lenv, mgr, h3, h4⟩
        have hcr' : st.crashed = false := by simpa using hcr
        split
        · rename_i pt hr
          have := Inv.done (env := env) _ _ _ (.generated lh st pt hs hr)
          unfold St.return
          rw [hcr']
          exact this
        · rename_i e hr
          have := Inv.done (env := env) _ _ _ (.session lh st e hs hr)
          unfold St.return
          rw [hcr']
          exact this
        · exact hm
      | _ => cases hph
    · exact hm

theorem inv_run (hid : HasId env req id) (h : List (Event P L A Q)) : Inv env req id disk h (run env disk req h) := by
  unfold HasId at hid
  unfold run
  rw [hid]
  induction h using List.reverseRecOn with
  | nil => exact .start
  | append_singleton h e ih =>
    dsimp only at ih ⊢
    rw [List.foldl_append]
    exact inv_step e ih

end Verif.Keygen
