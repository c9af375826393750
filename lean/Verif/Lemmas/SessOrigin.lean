import Verif.Lemmas.SessNet

/-! Where the messages on the network of a session come from, whoever else takes part. -/
set_option linter.unusedSectionVars false
namespace Verif.SessNet
open Verif.Go Verif.Conversion Verif.Messages Verif.Blame Verif.TssCommon Verif.Spec
open scoped List

variable {K P : Type} [DecidableEq K] [DecidableEq P]
variable {enc : Encoders P} {site : P → Site K P} {honest : P → Bool}

/-- the honest node `x.1` has written this message -/
def Origin (enc : Encoders P) (site : P → Site K P) (h : List (NetEvent P)) (n : Net K P) (x : P × P × Bytes) : Prop :=
  (∃ b ∈ (n.nodes x.1).out.sent, x ∈ renderBulk enc (site x.1) b) ∨
  (∃ y ∈ (n.nodes x.1).ses.sent, x ∈ renderSent enc (site x.1) y) ∨
  (.at_ x.1 .notifyDone ∈ h ∧ x ∈ toPeers (site x.1).env.localPeer (enc.wrap TSSTaskDone (enc.task true)) (site x.1).env.p2pPeers)

theorem Origin.mono {h h' : List (NetEvent P)} {n n' : Net K P} {x : P × P × Bytes} (hx : Origin enc site h n x)
    (h1 : (n.nodes x.1).out.sent <+: (n'.nodes x.1).out.sent) (h2 : (n.nodes x.1).ses.sent <+: (n'.nodes x.1).ses.sent) (h3 : ∀ e ∈ h, e ∈ h') :
    Origin enc site h' n' x := by
  rcases hx with ⟨b, hb, hx⟩ | ⟨y, hy, hx⟩ | ⟨hm, hx⟩
  · exact Or.inl ⟨b, h1.subset hb, hx⟩
  · exact Or.inr (Or.inl ⟨y, h2.subset hy, hx⟩)
  · exact Or.inr (Or.inr ⟨h3 _ hm, hx⟩)

/-- the network of a session with arbitrary outsiders -/
structure Origins (enc : Encoders P) (site : P → Site K P) (honest : P → Bool) (h : List (NetEvent P)) (n : Net K P) : Prop where
  ses : ∀ q, honest q = true → (n.nodes q).ses = run (site q).env (newTssCommon (site q).mgr) (n.nodes q).hist
  pool : ∀ x ∈ n.pool, honest x.1 = true ∧ Origin enc site h n x
  hist : ∀ q, honest q = true → ∀ raw p sch, Event.msg raw p sch ∈ (n.nodes q).hist →
    (honest p = true ∧ Origin enc site h n (p, q, raw)) ∨ (honest p = false ∧ ∃ sch, NetEvent.foreign p q raw sch ∈ h)
  signed : ∀ q, (n.nodes q).signed = (n.nodes q).out.sent.map (fun b => enc.bulk b.shares)

theorem origins_inbound (hl : ∀ q, honest q = true → (site q).env.localPeer = q) {h : List (NetEvent P)} {n : Net K P}
    (hi : Origins enc site honest h n) {q : P} (hq : honest q = true) (e : Event P) (ev : NetEvent P) (pool : List (P × P × Bytes))
    (hp : ∀ x ∈ pool, x ∈ n.pool)
    (he : ∀ raw p sch, e = .msg raw p sch → (honest p = true ∧ Origin enc site h n (p, q, raw)) ∨
      (honest p = false ∧ ∃ sch, NetEvent.foreign p q raw sch ∈ h ++ [ev])) :
    Origins enc site honest (h ++ [ev]) ⟨n.update q (inbound enc (site q) (n.nodes q) e).1, pool ++ (inbound enc (site q) (n.nodes q) e).2⟩ := by
  unfold inbound
  split
  · rename_i hal
    dsimp only
    have hpre := step_sent (site q).env (n.nodes q).ses e
    have mono : ∀ x, Origin enc site h n x → Origin enc site (h ++ [ev])
        ⟨n.update q { n.nodes q with ses := TssCommon.step (site q).env (n.nodes q).ses e, hist := (n.nodes q).hist ++ [e] },
          pool ++ ((TssCommon.step (site q).env (n.nodes q).ses e).sent.drop (n.nodes q).ses.sent.length).flatMap (renderSent enc (site q))⟩ x := by
      intro x hx
      refine hx.mono ?_ ?_ (fun e he => List.mem_append_left _ he)
      · simp only [Net.update]
        split
        · rename_i h; rw [h]
        · exact List.prefix_rfl
      · simp only [Net.update]
        split
        · rename_i h; rw [h]; exact hpre
        · exact List.prefix_rfl
    refine ⟨?_, ?_, ?_, ?_⟩
    · intro q' hq'
      simp only [Net.update]
      split
      · rename_i h; subst h
        dsimp only
        rw [TssCommon.run, List.foldl_append, List.foldl_cons, List.foldl_nil, ← TssCommon.run, ← hi.ses q' hq']
      · exact hi.ses q' hq'
    · intro x hx
      rcases List.mem_append.1 hx with hx | hx
      · obtain ⟨h1, h2⟩ := hi.pool x (hp x hx)
        exact ⟨h1, mono x h2⟩
      · obtain ⟨y, hy, hxy⟩ := List.mem_flatMap.1 hx
        have hx1 : x.1 = q := by rw [← hl q hq]; exact (mem_toPeers hxy).1
        refine ⟨by rw [hx1]; exact hq, Or.inr (Or.inl ⟨y, ?_, by rw [hx1]; exact hxy⟩)⟩
        simp only [Net.update, hx1, if_true]
        rw [drop_prefix hpre]
        exact List.mem_append_right _ hy
    · intro q' hq' raw p sch hm
      have old : Event.msg raw p sch ∈ (n.nodes q').hist → (honest p = true ∧ Origin enc site (h ++ [ev])
          ⟨n.update q { n.nodes q with ses := TssCommon.step (site q).env (n.nodes q).ses e, hist := (n.nodes q).hist ++ [e] },
            pool ++ ((TssCommon.step (site q).env (n.nodes q).ses e).sent.drop (n.nodes q).ses.sent.length).flatMap (renderSent enc (site q))⟩
          (p, q', raw)) ∨ (honest p = false ∧ ∃ sch, NetEvent.foreign p q' raw sch ∈ h ++ [ev]) := fun hm => by
        rcases hi.hist q' hq' raw p sch hm with ⟨h1, h2⟩ | ⟨h1, sch', h2⟩
        · exact Or.inl ⟨h1, mono _ h2⟩
        · exact Or.inr ⟨h1, sch', List.mem_append_left _ h2⟩
      simp only [Net.update] at hm
      split at hm
      · rename_i h; subst h
        dsimp only at hm
        rcases List.mem_append.1 hm with hm | hm
        · exact old hm
        · rcases he raw p sch (List.mem_singleton.1 hm).symm with ⟨h1, h2⟩ | h2
          · exact Or.inl ⟨h1, mono _ h2⟩
          · exact Or.inr h2
      · exact old hm
    · intro q'
      simp only [Net.update]
      split
      · rename_i h; subst h; exact hi.signed q'
      · exact hi.signed q'
  · dsimp only
    have hsame : n.update q (n.nodes q) = n.nodes := by
      funext x; simp only [Net.update]; split
      · rename_i h; rw [h]
      · rfl
    rw [hsame]
    have mono : ∀ x, Origin enc site h n x → Origin enc site (h ++ [ev]) ⟨n.nodes, pool ++ []⟩ x :=
      fun x hx => hx.mono List.prefix_rfl List.prefix_rfl (fun e he => List.mem_append_left _ he)
    refine ⟨hi.ses, ?_, ?_, hi.signed⟩
    · intro x hx
      rw [List.append_nil] at hx
      obtain ⟨h1, h2⟩ := hi.pool x (hp x hx)
      exact ⟨h1, mono x h2⟩
    · intro q' hq' raw p sch hm
      rcases hi.hist q' hq' raw p sch hm with ⟨h1, h2⟩ | ⟨h1, sch', h2⟩
      · exact Or.inl ⟨h1, mono _ h2⟩
      · exact Or.inr ⟨h1, sch', List.mem_append_left _ h2⟩

theorem Origins.same {h : List (NetEvent P)} {n : Net K P} (hi : Origins enc site honest h n) (ev : NetEvent P) (pool : List (P × P × Bytes))
    (hp : ∀ x ∈ pool, x ∈ n.pool) : Origins enc site honest (h ++ [ev]) ⟨n.nodes, pool⟩ := by
  have mono : ∀ x, Origin enc site h n x → Origin enc site (h ++ [ev]) ⟨n.nodes, pool⟩ x :=
    fun x hx => hx.mono List.prefix_rfl List.prefix_rfl (fun e he => List.mem_append_left _ he)
  refine ⟨hi.ses, ?_, ?_, hi.signed⟩
  · intro x hx
    obtain ⟨h1, h2⟩ := hi.pool x (hp x hx)
    exact ⟨h1, mono x h2⟩
  · intro q' hq' raw p sch hm
    rcases hi.hist q' hq' raw p sch hm with ⟨h1, h2⟩ | ⟨h1, sch', h2⟩
    · exact Or.inl ⟨h1, mono _ h2⟩
    · exact Or.inr ⟨h1, sch', List.mem_append_left _ h2⟩

theorem origins_run (hl : ∀ q, honest q = true → (site q).env.localPeer = q) (h : List (NetEvent P)) :
    Origins enc site honest h (netRun enc site honest h) := by
  induction h using List.reverseRecOn with
  | nil => exact ⟨fun q _ => rfl, fun x hx => (by cases hx), fun q _ raw p sch hm => (by cases hm), fun q => rfl⟩
  | append_singleton h e hi =>
    have hrun : netRun enc site honest (h ++ [e]) = netStep enc site honest (netRun enc site honest h) e := by
      rw [netRun, List.foldl_append, List.foldl_cons, List.foldl_nil, ← netRun]
    rw [hrun]
    generalize netRun enc site honest h = n at hi
    cases e with
    | at_ q e =>
      unfold netStep
      dsimp only
      split
      · rename_i hq
        cases e with
        | work job =>
          exact origins_inbound hl hi hq _ _ _ (fun x hx => hx) (fun raw p sch h => by cases h)
        | output sch o =>
          unfold localStep
          dsimp only
          split
          · obtain ⟨new, h1, -⟩ := processOut_sent (site q).out sch o (site q).type (n.nodes q).out
            dsimp only
            rw [h1, List.drop_left]
            generalize hs : (Node.mk (n.nodes q).ses (OutBatch.ProcessOutCh (site q).out sch o (site q).type (n.nodes q).out).1
              (decide ((OutBatch.ProcessOutCh (site q).out sch o (site q).type (n.nodes q).out).2 = Res.panic)) (n.nodes q).hist
              ((n.nodes q).signed ++ new.map (fun b => enc.bulk b.shares))) = s'
            have f1 : s'.ses = (n.nodes q).ses := by rw [← hs]
            have f2 : s'.hist = (n.nodes q).hist := by rw [← hs]
            have f3 : s'.out.sent = (n.nodes q).out.sent ++ new := by rw [← hs]; exact h1
            have f4 : s'.signed = (n.nodes q).signed ++ new.map (fun b => enc.bulk b.shares) := by rw [← hs]
            clear hs
            have mono : ∀ x, Origin enc site h n x → Origin enc site (h ++ [.at_ q (.output sch o)])
                ⟨n.update q s', n.pool ++ new.flatMap (renderBulk enc (site q))⟩ x := by
              intro x hx
              refine hx.mono ?_ ?_ (fun e he => List.mem_append_left _ he)
              · simp only [Net.update]
                split
                · rename_i h; rw [h, f3]; exact List.prefix_append _ _
                · exact List.prefix_rfl
              · simp only [Net.update]
                split
                · rename_i h; rw [h, f1]
                · exact List.prefix_rfl
            refine ⟨?_, ?_, ?_, ?_⟩
            · intro q' hq'
              simp only [Net.update]
              split
              · rename_i h; subst h; rw [f1, f2]; exact hi.ses q' hq'
              · exact hi.ses q' hq'
            · intro x hx
              rcases List.mem_append.1 hx with hx | hx
              · obtain ⟨h1, h2⟩ := hi.pool x hx
                exact ⟨h1, mono x h2⟩
              · obtain ⟨b, hb, hxb⟩ := List.mem_flatMap.1 hx
                have hx1 : x.1 = q := by rw [← hl q hq]; exact (mem_toPeers hxb).1
                refine ⟨by rw [hx1]; exact hq, Or.inl ⟨b, ?_, by rw [hx1]; exact hxb⟩⟩
                simp only [Net.update, hx1, if_true, f3]
                exact List.mem_append_right _ hb
            · intro q' hq' raw p sch hm
              have hm' : Event.msg raw p sch ∈ (n.nodes q').hist := by
                simp only [Net.update] at hm
                split at hm
                · rename_i h; subst h; rw [f2] at hm; exact hm
                · exact hm
              rcases hi.hist q' hq' raw p sch hm' with ⟨h1, h2⟩ | ⟨h1, sch', h2⟩
              · exact Or.inl ⟨h1, mono _ h2⟩
              · exact Or.inr ⟨h1, sch', List.mem_append_left _ h2⟩
            · intro q'
              simp only [Net.update]
              split
              · rename_i h; subst h; rw [f4, f3, List.map_append, hi.signed q']
              · exact hi.signed q'
          · have hsame : n.update q (n.nodes q) = n.nodes := by
              funext x; simp only [Net.update]; split
              · rename_i h; rw [h]
              · rfl
            dsimp only
            rw [hsame]
            exact hi.same _ _ (fun x hx => by simpa using hx)
        | notifyDone =>
          unfold localStep
          dsimp only
          have hsame : n.update q (n.nodes q) = n.nodes := by
            funext x; simp only [Net.update]; split
            · rename_i h; rw [h]
            · rfl
          split
          · dsimp only
            rw [hsame]
            have hi' := hi.same (.at_ q .notifyDone) n.pool (fun x hx => hx)
            refine ⟨hi'.ses, ?_, hi'.hist, hi'.signed⟩
            intro x hx
            rcases List.mem_append.1 hx with hx | hx
            · exact hi'.pool x hx
            · have hx1 : x.1 = q := by rw [← hl q hq]; exact (mem_toPeers hx).1
              exact ⟨by rw [hx1]; exact hq, Or.inr (Or.inr ⟨by rw [hx1]; simp, by rw [hx1]; exact hx⟩)⟩
          · dsimp only
            rw [hsame]
            exact hi.same _ _ (fun x hx => by simpa using hx)
      · exact hi.same _ _ (fun x hx => hx)
    | deliver i sch =>
      unfold netStep
      dsimp only
      rcases hx : n.pool[i]? with _ | ⟨p, q, raw⟩
      · exact hi.same _ _ (fun x hx => hx)
      · dsimp only
        have hm := List.mem_of_getElem? hx
        split
        · rename_i hq
          refine origins_inbound hl hi hq _ _ _ (fun x hx => (List.eraseIdx_sublist _ _).subset hx) ?_
          rintro raw' p' sch' he
          cases he
          exact Or.inl (hi.pool _ hm)
        · exact hi.same _ _ (fun x hx => (List.eraseIdx_sublist _ _).subset hx)
    | foreign p q raw sch =>
      unfold netStep
      dsimp only
      split
      · rename_i hpq
        refine origins_inbound hl hi hpq.2 _ _ _ (fun x hx => hx) ?_
        rintro raw' p' sch' he
        cases he
        exact Or.inr ⟨hpq.1, sch, by simp⟩
      · exact hi.same _ _ (fun x hx => hx)

/-! ## shares of bulks are outputs -/

theorem mem_del {V : Type} {m : Map String V} {k : String} {e : String × V} (h : e ∈ Map.del m k) : e ∈ m := by
  induction m with
  | nil => exact h
  | cons a m ih =>
    obtain ⟨k', v'⟩ := a
    unfold Map.del at h
    split at h
    · exact List.mem_cons_of_mem _ (ih h)
    · rcases List.mem_cons.1 h with rfl | h
      · exact List.mem_cons_self
      · exact List.mem_cons_of_mem _ (ih h)

theorem mem_set {V : Type} {m : Map String V} {k : String} {v : V} {e : String × V} (h : e ∈ Map.set m k v) : e = (k, v) ∨ e ∈ m := by
  induction m with
  | nil => simp [Map.set] at h; exact Or.inl h
  | cons a m ih =>
    obtain ⟨k', v'⟩ := a
    unfold Map.set at h
    split at h
    · rcases List.mem_cons.1 h with rfl | h
      · exact Or.inl rfl
      · exact Or.inr (List.mem_cons_of_mem _ h)
    · rcases List.mem_cons.1 h with rfl | h
      · exact Or.inr List.mem_cons_self
      · rcases ih h with h | h
        · exact Or.inl h
        · exact Or.inr (List.mem_cons_of_mem _ h)

theorem flush_shares (Q : BulkWireMsg → Prop) (n : Nat) (mk : String → List BulkWireMsg → OutBatch.Bulk P)
    (hmk : ∀ k l, (mk k l).shares = l) (σ : Shuffle (String × List BulkWireMsg)) (ok : String → Bool) (m : Map String (List BulkWireMsg))
    (sent : List (OutBatch.Bulk P)) (hm : ∀ e ∈ m, ∀ x ∈ e.2, Q x) (hs : ∀ b ∈ sent, ∀ x ∈ b.shares, Q x) :
    (∀ e ∈ (OutBatch.flush n mk σ ok m sent).1, ∀ x ∈ e.2, Q x) ∧ ∀ b ∈ (OutBatch.flush n mk σ ok m sent).2, ∀ x ∈ b.shares, Q x := by
  unfold OutBatch.flush
  have ht : ∀ e ∈ σ.f m, ∀ x ∈ e.2, Q x := fun e he => hm e ((σ.perm m).mem_iff.1 he)
  generalize σ.f m = todo at ht
  induction todo generalizing m sent with
  | nil => exact ⟨hm, hs⟩
  | cons e todo ih =>
    rw [List.foldl_cons]
    unfold OutBatch.visit
    split
    · split
      · refine ih _ _ ?_ ?_ (fun e he => ht e (by simp [he]))
        · intro e' he'
          exact hm e' (mem_del he')
        · intro b hb
          rcases List.mem_append.1 hb with hb | hb
          · exact hs b hb
          · rw [List.mem_singleton.1 hb, hmk]
            exact ht e (by simp)
      · exact ih _ _ hm hs (fun e he => ht e (by simp [he]))
    · exact ih _ _ hm hs (fun e he => ht e (by simp [he]))

theorem append_shares (Q : BulkWireMsg → Prop) (m : Map String (List BulkWireMsg)) (k : String) (x : BulkWireMsg) (hm : ∀ e ∈ m, ∀ x ∈ e.2, Q x)
    (hx : Q x) : ∀ e ∈ OutBatch.append m k x, ∀ x ∈ e.2, Q x := by
  intro e he y hy
  unfold OutBatch.append at he
  rcases mem_set he with rfl | he
  · rcases List.mem_append.1 hy with hy | hy
    · rcases hg : Map.get m k with _ | l
      · rw [hg] at hy; cases hy
      · rw [hg] at hy
        exact hm _ (Map.mem_of_get hg) y hy
    · rw [List.mem_singleton.1 hy]; exact hx
  · exact hm e he y hy

theorem processOut_shares (Q : BulkWireMsg → Prop) (env : OutBatch.Env P) (sch : OutBatch.Sched) (o : OutBatch.Output) (t : MsgType)
    (s : OutBatch.St P) (hQ : ∀ b r, o.wire = some (b, r) → Q ⟨b, o.moniker, some r⟩) (hu : ∀ e ∈ s.uni, ∀ x ∈ e.2, Q x)
    (hb : ∀ e ∈ s.bro, ∀ x ∈ e.2, Q x) (hs : ∀ b ∈ s.sent, ∀ x ∈ b.shares, Q x) :
    (∀ e ∈ (OutBatch.ProcessOutCh env sch o t s).1.uni, ∀ x ∈ e.2, Q x) ∧ (∀ e ∈ (OutBatch.ProcessOutCh env sch o t s).1.bro, ∀ x ∈ e.2, Q x) ∧
    ∀ b ∈ (OutBatch.ProcessOutCh env sch o t s).1.sent, ∀ x ∈ b.shares, Q x := by
  unfold OutBatch.ProcessOutCh
  rcases hw : o.wire with _ | ⟨data, r⟩
  · exact ⟨hu, hb, hs⟩
  · dsimp only
    have fin : ∀ uni bro : Map String (List BulkWireMsg), (∀ e ∈ uni, ∀ x ∈ e.2, Q x) → (∀ e ∈ bro, ∀ x ∈ e.2, Q x) → _ := fun uni bro h1 h2 =>
      let a := flush_shares Q env.msgNum (fun key l => OutBatch.sendBulkMsg env (OutBatch.beforeColon key) t l) (fun _ _ => rfl) sch.σu sch.ok uni
        s.sent h1 hs
      let b := flush_shares Q env.msgNum (fun key l => OutBatch.sendBulkMsg env key t l) (fun _ _ => rfl) sch.σb sch.ok bro _ h2 a.2
      And.intro a.1 (And.intro b.1 b.2)
    split
    · exact fin _ _ hu (append_shares Q _ _ _ hb (hQ _ _ hw))
    · split
      · exact ⟨hu, hb, hs⟩
      · exact fin _ _ (append_shares Q _ _ _ hu (hQ _ _ hw)) hb

theorem runOut_shares (env : OutBatch.Env P) (t : MsgType) (l : List (OutBatch.Sched × OutBatch.Output)) :
    ∀ b ∈ (OutBatch.runOut env t OutBatch.init l).sent, ∀ x ∈ b.shares, ∃ e ∈ l, ∃ r, e.2.wire = some (x.wired, r) ∧ x.ident = e.2.moniker ∧
      x.routing = some r := by
  have key : ∀ (Q : BulkWireMsg → Prop) (l : List (OutBatch.Sched × OutBatch.Output)) (s : OutBatch.St P),
      (∀ e ∈ l, ∀ b r, e.2.wire = some (b, r) → Q ⟨b, e.2.moniker, some r⟩) → (∀ e ∈ s.uni, ∀ x ∈ e.2, Q x) → (∀ e ∈ s.bro, ∀ x ∈ e.2, Q x) →
      (∀ b ∈ s.sent, ∀ x ∈ b.shares, Q x) → ∀ b ∈ (OutBatch.runOut env t s l).sent, ∀ x ∈ b.shares, Q x := by
    intro Q l
    induction l with
    | nil => intro s _ _ _ h; exact h
    | cons e l ih =>
      intro s h1 h2 h3 h4
      obtain ⟨sch, o⟩ := e
      obtain ⟨g1, g2, g3⟩ := processOut_shares Q env sch o t s (h1 (sch, o) (by simp)) h2 h3 h4
      exact ih _ (fun e he => h1 e (by simp [he])) g1 g2 g3
  refine key _ l OutBatch.init ?_ (by simp [OutBatch.init]) (by simp [OutBatch.init]) (by simp [OutBatch.init])
  intro e he b r hw
  exact ⟨e, he, r, hw, rfl, rfl⟩

end Verif.SessNet
