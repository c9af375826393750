import Verif.Props.C49_C51
import Verif.Spec.DemoWire

/-! # C95, C96: what a node tells the other members of the pool about a signing request -/
set_option linter.unusedSectionVars false
namespace Verif.Props.Announced
open Verif.Go Verif.Conversion Verif.Blame Verif.JoinParty Verif.Server Verif.Session Verif.KeySign Verif.Spec.KeySign Verif.Props.KeySigning
open scoped List

section main
variable {P S H L : Type} [DecidableEq P] [LinearOrder S] [LinearOrder H]
variable {env : Env P S H L} {base64 : Str → Option Bytes} {nenv : SigNotifier.Env} {disk : Storage.Disk} {req : KeySign.Request} {old : Bool}
  {task : Job L} {nh : List SigNotifier.Event}

/-! ## specification -/

/-- what was told to others: signatures or failures, in order -/
def told (ef : List (Effect P)) : List (Effect P) :=
  ef.filter fun e => match e with | .broadcastSigs _ _ => true | .broadcastFailure _ => true | _ => false

/-- what was counted about forming the party -/
def joinCounts (ef : List (Effect P)) : List Bool := ef.filterMap fun e => match e with | .joinMetric b => some b | _ => none

/-- the peers of the members of the pool -/
def Pool (env : Env P S H L) (task : Job L) (peers : List P) : Prop := GetPeerIDsFromPubKeys env.codec task.state.participantKeys = .ok peers

/-- how the node's own attempt to sign ended, what it told the pool about it and what it counted -/
inductive Announcement (env : Env P S H L) (req : KeySign.Request) (task : Job L) (old : Bool) (h : List (KeySign.Event P)) : Answer → List (Effect P) → List Bool → Prop
  /-- the members of the pool have no peers: nobody to tell -/
  | noPool : (∀ l, ¬ Pool env task l) → Announcement env req task old h (failed (NewBlame InternalError [])) [] []
  /-- the node is not asked to sign -/
  | notSigner : old = true → ¬ OwnKeyAmongSigners env task → Announcement env req task old h (zero, some .notActive) [] []
  /-- forming the party was given up as the signatures were received -/
  | received : Announcement env req task old h (zero, some .signReceived) [] []
  /-- the party could not be formed -/
  | noParty (b : Blame Str) (peers : List P) : Pool env task peers → Announcement env req task old h (failed b) [.broadcastFailure peers] [false]
  /-- the party was formed without this node -/
  | notOnline (online : List P) : PartyFormed env req task old h online → env.me ∉ online → Announcement env req task old h (zero, some .notActive) [] [true]
  /-- the party was formed, but some member of it has no key -/
  | noKeys (online : List P) : PartyFormed env req task old h online → (∀ l, GetPubKeysFromPeerIDs env.codec online ≠ .ok l) →
      Announcement env req task old h (failed (NewBlame "" [])) [] [true]
  /-- the party was formed and the signing failed -/
  | failed (b : Blame Str) (peers : List P) : (∃ online signers, Member env req task old h online signers) → Pool env task peers →
      Announcement env req task old h (failed b) [.broadcastFailure peers] [true]
  /-- signed -/
  | signed (l : List Sig) (r : Response) (peers : List P) : (∃ online signers, Member env req task old h online signers) → Pool env task peers →
      batchSignatures l task.msgs = some r → Announcement env req task old h (r, none) [.broadcastSigs l peers] [true]

/-! ## the invariant -/

/-- what is known at any time -/
def Inv (env : Env P S H L) (req : KeySign.Request) (task : Job L) (old : Bool) (h : List (KeySign.Event P)) (s : KeySign.St P) : Prop :=
  match s.gen with
  | .start => told s.effects = [] ∧ joinCounts s.effects = []
  | .joining _ => told s.effects = [] ∧ (∃ l, Pool env task l) ∧ (s.crashed = false → joinCounts s.effects = []) ∧ (joinCounts s.effects).length ≤ 1
  | .signing _ _ | .send _ | .finish _ => told s.effects = [] ∧ (∃ l, Pool env task l) ∧ joinCounts s.effects = [true]
  | .done a => Announcement env req task old h a (told s.effects) (joinCounts s.effects)

theorem poolPeers_eq {l : List P} (h : Pool env task l) : poolPeers env task = l := by
  unfold poolPeers
  rw [show GetPeerIDsFromPubKeys env.codec task.state.participantKeys = .ok l from h]

theorem told_append (a b : List (Effect P)) : told (a ++ b) = told a ++ told b := List.filter_append ..

theorem joinCounts_append (a b : List (Effect P)) : joinCounts (a ++ b) = joinCounts a ++ joinCounts b := List.filterMap_append ..

theorem Announcement.mono {h h' : List (KeySign.Event P)} {a : Answer} {t : List (Effect P)} {j : List Bool} (hp : h <+ h')
    (ha : Announcement env req task old h a t j) : Announcement env req task old h' a t j := by
  cases ha with
  | noPool h => exact .noPool h
  | notSigner h h' => exact .notSigner h h'
  | received => exact .received
  | noParty b p h => exact .noParty b p h
  | notOnline o h h' => exact .notOnline o (partyFormed_mono h hp) h'
  | noKeys o h h' => exact .noKeys o (partyFormed_mono h hp) h'
  | failed b p h h' =>
    obtain ⟨o, s, hm⟩ := h
    exact .failed b p ⟨o, s, member_mono hm hp⟩ h'
  | signed l r p h h' h'' =>
    obtain ⟨o, s, hm⟩ := h
    exact .signed l r p ⟨o, s, member_mono hm hp⟩ h' h''

theorem joinFail_inv (h : List (KeySign.Event P)) (s : KeySign.St P) (hp : ∃ l, Pool env task l) (ht : told s.effects = [])
    (hj : joinCounts s.effects = []) (out : JoinOut P) (e : JErr) : Inv env req task old h (s.joinFail env task out e) := by
  obtain ⟨l, hl⟩ := hp
  have key : ∀ b, Announcement env req task old h (failed b) (told (s.effects ++ [.joinMetric false, .broadcastFailure (poolPeers env task)]))
      (joinCounts (s.effects ++ [.joinMetric false, .broadcastFailure (poolPeers env task)])) := by
    intro b
    rw [told_append, joinCounts_append, ht, hj, poolPeers_eq hl]
    exact .noParty b l hl
  show Announcement env req task old h (joinFailed env task.signers out e).1
    (told (s.effects ++ if (joinFailed env task.signers out e).2 then [.joinMetric false, .broadcastFailure (poolPeers env task)] else []))
    (joinCounts (s.effects ++ if (joinFailed env task.signers out e).2 then [.joinMetric false, .broadcastFailure (poolPeers env task)] else []))
  unfold joinFailed
  split
  · show Announcement env req task old h _ (told (s.effects ++ [])) (joinCounts (s.effects ++ []))
    rw [List.append_nil, ht, hj]
    exact .received
  · split
    · split
      · exact key _
      · exact key _
    · exact key _

theorem inv_same {h h' : List (KeySign.Event P)} {s s' : KeySign.St P} (hi : Inv env req task old h s) (hp : h <+ h') (hg : s'.gen = s.gen)
    (ht : told s'.effects = told s.effects) (hj : joinCounts s'.effects = joinCounts s.effects) (hc : s'.crashed = false → s.crashed = false) :
    Inv env req task old h' s' := by
  unfold Inv at hi ⊢
  rw [hg, ht, hj]
  split at hi
  · exact hi
  · exact ⟨hi.1, hi.2.1, fun h => hi.2.2.1 (hc h), hi.2.2.2⟩
  · exact hi
  · exact hi
  · exact hi
  · exact hi.mono hp

theorem inv_genStart (hacc : Accepted env base64 disk req old task) (gs : Groups P) {h : List (KeySign.Event P)} {s : KeySign.St P}
    (hg : s.gen = .start) (hi : Inv env req task old h s) : Inv env req task old h (s.genStart env req task gs) := by
  have h0 := hi
  simp only [Inv, hg] at hi
  obtain ⟨ht, hj⟩ := hi
  unfold St.genStart
  split
  · rename_i l hl
    rw [hacc.version]
    have hb : ∀ parts : List Str, Inv env req task old h
        (match joinParty env gs task.msgID req.version req.blockHeight parts task.threshold with
        | .ok c => { s with gen := .joining c, effects := s.effects ++ [.joining] }
        | .error out => match out.err with
          | some e => s.joinFail env task out e
          | none => s) := by
      intro parts
      split
      · have hj' : joinCounts (s.effects ++ [.joining]) = [] := by
          rw [joinCounts_append, hj]
          rfl
        refine ⟨?_, ⟨l, hl⟩, fun _ => hj', ?_⟩
        · show told (s.effects ++ [.joining]) = []
          rw [told_append, ht]
          rfl
        · show (joinCounts (s.effects ++ [.joining])).length ≤ 1
          rw [hj']
          exact Nat.zero_le _
      · split
        · exact joinFail_inv h s ⟨l, hl⟩ ht hj _ _
        · exact h0
    have hn : ¬ OwnKeyAmongSigners env task → old = true → Inv env req task old h { s with gen := .done (zero, some .notActive) } := by
      intro hn ho
      show Announcement env req task old h _ (told s.effects) (joinCounts s.effects)
      rw [ht, hj]
      exact .notSigner ho hn
    dsimp only
    split
    · rename_i ho
      split
      · rename_i pk hpk
        split
        · exact hb _
        · rename_i hne
          refine hn ?_ ho
          rintro ⟨pk', h1, h2⟩
          rw [hpk] at h1
          cases h1
          exact hne h2
      · rename_i hne
        exact hn (fun ⟨pk, h1, _⟩ => hne pk h1) ho
    · exact hb _
  · rename_i hne
    show Announcement env req task old h _ (told s.effects) (joinCounts s.effects)
    rw [ht, hj]
    exact .noPool fun l hl => hne l hl

theorem inv_genJoined {h : List (KeySign.Event P)} {s : KeySign.St P} (hp : ∃ l, Pool env task l) (ht : told s.effects = []) (hj : joinCounts s.effects = [])
    (sch : SetupSched P) (online : List P) (hf : PartyFormed env req task old h online) {c : JoinCall P} (hg : s.gen = .joining c) :
    Inv env req task old h (s.genJoined env task sch online) := by
  have t1 : told (s.effects ++ [.joinMetric true]) = [] := by rw [told_append, ht]; rfl
  have j1 : joinCounts (s.effects ++ [.joinMetric true]) = [true] := by rw [joinCounts_append, hj]; rfl
  unfold St.genJoined
  split
  · rename_i hm
    show Announcement env req task old h _ (told (s.effects ++ [.joinMetric true])) (joinCounts (s.effects ++ [.joinMetric true]))
    rw [t1, j1]
    exact .notOnline online hf hm
  · split
    · split
      · exact ⟨t1, hp, j1⟩
      · exact ⟨t1, hp, j1⟩
      · simp only [Inv, hg]
        exact ⟨t1, hp, (fun h => by cases h), by rw [j1]; exact le_refl _⟩
      · refine ⟨?_, hp, ?_⟩
        · show told (s.effects ++ [.joinMetric true, .signing online]) = []
          rw [told_append, ht]; rfl
        · show joinCounts (s.effects ++ [.joinMetric true, .signing online]) = [true]
          rw [joinCounts_append, hj]; rfl
    · exact ⟨t1, hp, j1⟩

theorem inv_genFinish {h : List (KeySign.Event P)} {s : KeySign.St P} (hp : ∃ l, Pool env task l) (ht : told s.effects = []) (hj : joinCounts s.effects = [true])
    {k : After P} (hk : AfterInv env req task old h k) (hg : s.gen = .finish k) :
    Inv env req task old h (s.genFinish env task k) := by
  obtain ⟨l, hl⟩ := hp
  have hfail : ∀ b, (∃ online signers, Member env req task old h online signers) →
      Announcement env req task old h (KeySign.failed b) (told (s.effects ++ [.broadcastFailure (poolPeers env task)]))
      (joinCounts (s.effects ++ [.broadcastFailure (poolPeers env task)])) := by
    intro b hm
    rw [told_append, joinCounts_append, ht, hj, poolPeers_eq hl]
    exact .failed b l hm hl
  have hsig : ∀ sigs, (∃ online signers, Member env req task old h online signers) → Inv env req task old h (s.genFinish env task (.signed sigs)) ∨
      batchSignatures sigs task.msgs = none := by
    intro sigs hm
    unfold St.genFinish
    dsimp only
    split
    · rename_i r hr
      left
      show Announcement env req task old h _ (told (s.effects ++ [.broadcastSigs sigs (poolPeers env task)]))
        (joinCounts (s.effects ++ [.broadcastSigs sigs (poolPeers env task)]))
      rw [told_append, joinCounts_append, ht, hj, poolPeers_eq hl]
      exact .signed sigs r l hm hl hr
    · rename_i hr
      exact .inr hr
  cases hk with
  | badKeys online h1 h2 h3 =>
    show Announcement env req task old h _ (told s.effects) (joinCounts s.effects)
    rw [ht, hj]
    exact .noKeys online h1 h3
  | setupFailed online signers sch h1 h2 => exact hfail _ ⟨online, signers, h1⟩
  | failed lenv lh st e online signers sch mgr h0 h1 h2 h3 h4 => exact hfail _ ⟨online, signers, h1⟩
  | signed results hr =>
    obtain ⟨r, hb⟩ := batch_some (sortResults results) task.msgs (by rw [sortResults_length, generated_length hr])
    obtain ⟨lh, st, ⟨-, online, signers, sch, lenv, mgr, hm, -⟩, -⟩ := hr
    rcases hsig (sortResults results) ⟨online, signers, hm⟩ with h | h
    · exact h
    · rw [hb] at h
      cases h
  | gaveUp hr =>
    obtain ⟨online, signers, sch, hm, -⟩ := hr
    rcases hsig [] ⟨online, signers, hm⟩ with h | h
    · exact h
    · cases h

theorem inv_step (hacc : Accepted env base64 disk req old task) {h : List (KeySign.Event P)} {s : KeySign.St P} {nh' : List SigNotifier.Event}
    (hi : Inv env req task old h s) (hk : KeySign.Inv env nenv req task old h nh' s) (e : KeySign.Event P) :
    Inv env req task old (h ++ [e]) (KeySign.step env nenv req task s e) := by
  have hsub : h <+ h ++ [e] := List.sublist_append_left _ _
  have keep : ∀ s' : KeySign.St P, s'.gen = s.gen → s'.effects = s.effects → (s'.crashed = false → s.crashed = false) →
      Inv env req task old (h ++ [e]) s' := fun s' hg he hc => inv_same hi hsub hg (by rw [he]) (by rw [he]) hc
  have hi' : Inv env req task old (h ++ [e]) s := keep s rfl rfl fun h => h
  have hgi := hk.gen
  unfold KeySign.step
  split
  · exact hi'
  · rename_i hcr
    have hcr : s.crashed = false := by simpa using hcr
    cases e with
    | notifier e =>
      dsimp only
      repeat' split
      all_goals exact keep _ rfl rfl fun _ => hcr
    | waitStart =>
      dsimp only
      split
      all_goals exact keep _ rfl rfl fun _ => hcr
    | waitReturn =>
      dsimp only
      repeat' split
      all_goals exact keep _ rfl rfl fun _ => hcr
    | waitSend =>
      dsimp only
      unfold St.sendChan
      split
      · split
        · rename_i s' hs
          repeat' split at hs
          all_goals cases hs
          all_goals exact keep _ rfl rfl fun _ => hcr
        · exact hi'
      · exact hi'
    | genStart gs =>
      dsimp only
      split
      · rename_i hg
        exact inv_genStart hacc gs hg hi'
      · exact hi'
    | join e =>
      dsimp only
      split
      · rename_i c hg
        have hj : ∀ (c' : JoinCall P) (buf : List String), Inv env req task old (h ++ [.join e]) { s with gen := .joining c', buf } := by
          intro c' buf
          simp only [Inv, hg] at hi
          exact ⟨hi.1, hi.2.1, fun h => hi.2.2.1 hcr, hi.2.2.2⟩
        split
        · split
          · split
            · exact hj _ _
            · exact hi'
          · split
            · exact hj _ _
            · exact hi'
          · exact hi'
        · exact hj _ s.buf
      · exact hi'
    | genJoined sch =>
      dsimp only
      split
      · rename_i c hg
        have h0 := hi'
        simp only [Inv, hg] at h0
        obtain ⟨ht, hp, hj, -⟩ := h0
        have hj := hj hcr
        rw [hg] at hgi
        cases hgi with
        | joining jh _ h1 h2 =>
          split
          · rename_i out hout
            split
            · exact joinFail_inv _ s hp ht hj _ _
            · rename_i he
              unfold JoinCall.out at hout
              obtain ⟨r, hr, hro⟩ := Option.map_eq_some_iff.1 hout
              subst hro
              exact inv_genJoined hp ht hj sch _ ⟨jh, c, r, joinRun_mono h1 hsub, hr, rfl, by simpa using he⟩ hg
          · exact hi'
      · exact hi'
    | sign e =>
      dsimp only
      split
      · rename_i hg
        simp only [Inv, hg] at hi'
        exact hi'
      · rename_i hg
        split
        · simp only [Inv, hg] at hi'
          exact hi'
        · exact hi'
      · rename_i hg
        split
        · simp only [Inv, hg] at hi'
          exact hi'
        · exact hi'
      · exact hi'
    | genSigned =>
      dsimp only
      split
      · rename_i hg
        split
        · simp only [Inv, hg] at hi'
          exact hi'
        · simp only [Inv, hg] at hi'
          exact hi'
        · exact hi'
      · exact hi'
    | genSend =>
      dsimp only
      unfold St.sendChan
      split
      · rename_i hg
        have h0 := hi'
        simp only [Inv, hg] at h0
        split
        · rename_i s' hs
          repeat' split at hs
          all_goals cases hs
          all_goals exact h0
        · exact hi'
      · exact hi'
    | genFinish =>
      dsimp only
      split
      · rename_i k hg
        have h0 := hi'
        simp only [Inv, hg] at h0
        rw [hg] at hgi
        cases hgi with
        | finish _ hk => exact inv_genFinish h0.2.1 h0.1 h0.2.2 (hk.mono hsub) hg
      · exact hi'
    | main =>
      dsimp only
      repeat' split
      all_goals first
        | exact keep _ rfl rfl fun _ => hcr
        | exact inv_same hi hsub rfl (by rw [told_append]; exact List.append_nil _) (by rw [joinCounts_append]; exact List.append_nil _) fun _ => hcr

theorem inv_call (hc : (SigNotifier.run nenv nh).crashed = false) (hacc : Accepted env base64 disk req old task) (h : List (KeySign.Event P)) :
    Inv env req task old h (call env base64 nenv disk req nh h) := by
  induction h using List.reverseRecOn with
  | nil =>
    rw [call_accepted hacc]
    exact ⟨rfl, rfl⟩
  | append_singleton h e ih =>
    obtain ⟨ex, -, hk⟩ := call_inv hc hacc h
    rw [call_snoc hacc]
    exact inv_step hacc ih hk e

/-! ## C95 -/

/-- C95: however a signing call goes, it tells the pool at most one thing, signatures or a failure, and it addresses the peers of all members
of the pool and nobody else; it counts at most one party. -/
theorem c95_at_most_one (hc : (SigNotifier.run nenv nh).crashed = false) (hacc : Accepted env base64 disk req old task) (h : List (KeySign.Event P)) :
    let s := call env base64 nenv disk req nh h
    (told s.effects = [] ∨ ∃ peers, Pool env task peers ∧ (told s.effects = [.broadcastFailure peers] ∨ ∃ l, told s.effects = [.broadcastSigs l peers])) ∧
    (joinCounts s.effects).length ≤ 1 := by
  have hi := inv_call hc hacc h
  dsimp only
  generalize call env base64 nenv disk req nh h = s at hi ⊢
  unfold Inv at hi
  split at hi
  · exact ⟨.inl hi.1, by rw [hi.2]; exact Nat.zero_le _⟩
  · exact ⟨.inl hi.1, hi.2.2.2⟩
  · exact ⟨.inl hi.1, by rw [hi.2.2]; exact le_refl _⟩
  · exact ⟨.inl hi.1, by rw [hi.2.2]; exact le_refl _⟩
  · exact ⟨.inl hi.1, by rw [hi.2.2]; exact le_refl _⟩
  · generalize told s.effects = t at hi
    generalize joinCounts s.effects = j at hi
    cases hi with
    | noPool h => exact ⟨.inl rfl, Nat.zero_le _⟩
    | notSigner h h' => exact ⟨.inl rfl, Nat.zero_le _⟩
    | received => exact ⟨.inl rfl, Nat.zero_le _⟩
    | noParty b p h => exact ⟨.inr ⟨p, h, .inl rfl⟩, le_refl _⟩
    | notOnline o h h' => exact ⟨.inl rfl, le_refl _⟩
    | noKeys o h h' => exact ⟨.inl rfl, le_refl _⟩
    | failed b p h h' => exact ⟨.inr ⟨p, h', .inl rfl⟩, le_refl _⟩
    | signed l r p h h' h'' => exact ⟨.inr ⟨p, h', .inr ⟨l, rfl⟩⟩, le_refl _⟩

/-- C95: what a finished call has told, if it received no signatures: the signatures of its answer, if the answer is Success; a failure, if it
is Fail; nothing, if the node does not take part. The exceptions, in which a Fail is not told to anybody: the keys of the pool have no peers,
or the keys of the members of the formed party cannot be told. -/
theorem c95_told (hc : (SigNotifier.run nenv nh).crashed = false) (hacc : Accepted env base64 disk req old task) (h : List (KeySign.Event P))
    (resp : Response) (err : Option Err) (hr : (call env base64 nenv disk req nh h).ret = some (resp, err))
    (hn : "signature received" ∉ (call env base64 nenv disk req nh h).sends) :
    let s := call env base64 nenv disk req nh h
    resp.status = .success ∧ joinCounts s.effects = [true] ∧
      (∃ l peers, told s.effects = [.broadcastSigs l peers] ∧ Pool env task peers ∧ Entries l task.msgs resp.signatures ∧
        (l = [] ∧ GaveUp env req task old h ∨ ∃ results, Generated env req task old h results ∧ l = sortResults results)) ∨
    resp.status = .fail ∧ (∃ peers, told s.effects = [.broadcastFailure peers] ∧ Pool env task peers ∧
        (joinCounts s.effects = [false] ∨ joinCounts s.effects = [true] ∧ ∃ online signers, Member env req task old h online signers)) ∨
    resp.status = .fail ∧ told s.effects = [] ∧ ((∀ l, ¬ Pool env task l) ∨
      ∃ online, PartyFormed env req task old h online ∧ ∀ l, GetPubKeysFromPeerIDs env.codec online ≠ .ok l) ∨
    resp = zero ∧ told s.effects = [] ∧
      (old = true ∧ ¬ OwnKeyAmongSigners env task ∨ ∃ online, PartyFormed env req task old h online ∧ env.me ∉ online) := by
  obtain ⟨ex, -, hk⟩ := call_inv hc hacc h
  have hi := inv_call hc hacc h
  obtain ⟨w, g, hw, hg, hd⟩ := hk.ret _ hr
  have hwn : w = none := by
    rcases w with _ | r
    · rfl
    · exact absurd (hk.sentMem (by rw [hw]; trivial)) hn
  subst hwn
  have hrcv : g.2 ≠ some .signReceived := by
    have := hk.gen
    rw [hg, hw] at this
    cases this with | done _ _ hx => exact fun he => hx he
  dsimp only
  have heff := hk.effSigs
  generalize call env base64 nenv disk req nh h = s at hi hg heff ⊢
  simp only [Inv, hg] at hi
  have hmem : ∀ l p, told s.effects = [.broadcastSigs l p] → Effect.broadcastSigs l p ∈ s.effects := by
    intro l p ht
    have : Effect.broadcastSigs l p ∈ told s.effects := by rw [ht]; exact List.mem_singleton.2 rfl
    exact (List.mem_filter.1 this).1
  generalize told s.effects = t at hi hmem
  generalize joinCounts s.effects = j at hi
  cases hi with
  | noPool h =>
    cases hd
    exact .inr (.inr (.inl ⟨rfl, rfl, .inl h⟩))
  | notSigner h h' =>
    cases hd
    exact .inr (.inr (.inr ⟨rfl, rfl, .inl ⟨h, h'⟩⟩))
  | received => exact absurd rfl hrcv
  | noParty b p h =>
    cases hd
    exact .inr (.inl ⟨rfl, p, rfl, h, .inl rfl⟩)
  | notOnline o h h' =>
    cases hd
    exact .inr (.inr (.inr ⟨rfl, rfl, .inr ⟨o, h, h'⟩⟩))
  | noKeys o h h' =>
    cases hd
    exact .inr (.inr (.inl ⟨rfl, rfl, .inr ⟨o, h, h'⟩⟩))
  | failed b p h h' =>
    cases hd
    exact .inr (.inl ⟨rfl, p, rfl, h', .inr ⟨rfl, h⟩⟩)
  | signed l r p h h' h'' =>
    cases hd
    obtain ⟨b1, -, b3⟩ := batch_eq h''
    obtain ⟨-, -, -, h4⟩ := heff l p (hmem l p rfl)
    exact .inl ⟨b1, rfl, l, p, rfl, h', b3, h4⟩

theorem effects_step (s : KeySign.St P) (e : KeySign.Event P) : ∃ l, (KeySign.step env nenv req task s e).effects = s.effects ++ l := by
  have nil : ∃ l, s.effects = s.effects ++ l := ⟨[], (List.append_nil _).symm⟩
  have hsend : ∀ x s', s.sendChan x = some s' → s'.effects = s.effects := by
    intro x s' h
    unfold St.sendChan at h
    repeat' split at h
    all_goals cases h
    all_goals rfl
  unfold KeySign.step
  split
  · exact nil
  · cases e with
    | genStart gs =>
      dsimp only
      split
      · unfold St.genStart
        dsimp only
        repeat' split
        all_goals first | exact nil | exact ⟨_, rfl⟩
      · exact nil
    | genJoined sch =>
      dsimp only
      split
      · split
        · split
          · exact ⟨_, rfl⟩
          · unfold St.genJoined
            repeat' split
            all_goals exact ⟨_, rfl⟩
        · exact nil
      · exact nil
    | genFinish =>
      dsimp only
      split
      · unfold St.genFinish
        repeat' split
        all_goals first | exact nil | exact ⟨_, rfl⟩
      · exact nil
    | main =>
      dsimp only
      repeat' split
      all_goals first | exact nil | exact ⟨_, rfl⟩
    | waitSend =>
      dsimp only
      split
      · split
        · rename_i hs
          have he := hsend _ _ hs
          exact ⟨[], by rw [List.append_nil]; exact he⟩
        · exact nil
      · exact nil
    | genSend =>
      dsimp only
      split
      · split
        · rename_i hs
          have he := hsend _ _ hs
          exact ⟨[], by rw [List.append_nil]; exact he⟩
        · exact nil
      · exact nil
    | _ =>
      dsimp only
      repeat' split
      all_goals exact nil

/-- C95: what was told stays told, and nothing contradicts it later: a node never announces both signatures and a failure for a request. -/
theorem c95_final (hc : (SigNotifier.run nenv nh).crashed = false) (hacc : Accepted env base64 disk req old task) (h h' : List (KeySign.Event P))
    (ht : told (call env base64 nenv disk req nh h).effects ≠ []) :
    told (call env base64 nenv disk req nh (h ++ h')).effects = told (call env base64 nenv disk req nh h).effects := by
  have hpre : ∃ l, (call env base64 nenv disk req nh (h ++ h')).effects = (call env base64 nenv disk req nh h).effects ++ l := by
    induction h' using List.reverseRecOn with
    | nil => exact ⟨[], by simp⟩
    | append_singleton h' e ih =>
      obtain ⟨l, hl⟩ := ih
      rw [← List.append_assoc, call_snoc hacc]
      obtain ⟨l', hl'⟩ := effects_step (env := env) (nenv := nenv) (req := req) (task := task) (call env base64 nenv disk req nh (h ++ h')) e
      exact ⟨l ++ l', by rw [hl', hl, List.append_assoc]⟩
  obtain ⟨l, hl⟩ := hpre
  have h2 := (c95_at_most_one hc hacc (h ++ h')).1
  rw [hl, told_append] at h2 ⊢
  have hlen : (told (call env base64 nenv disk req nh h).effects ++ told l).length ≤ 1 := by
    rcases h2 with h2 | ⟨_, _, h2 | ⟨_, h2⟩⟩ <;> rw [h2] <;> simp
  have hpos := List.length_pos_iff.2 ht
  rw [List.length_append] at hlen
  have : told l = [] := List.eq_nil_of_length_eq_zero (by omega)
  rw [this, List.append_nil]

/-! ## C96 what the others receive -/

/-- Specification: what is encoded is decoded by the receiver as the same (a signature that is present but empty need not be). -/
structure RoundTrip (enc : SigNotifier.Enc) (nenv : SigNotifier.Env) : Prop where
  msg : ∀ m b, enc.encMsg m = some b → nenv.decMsg b = some m
  sig : ∀ x b, x.signature ≠ some [] → enc.encSig x = some b → nenv.decSig b = some x

/-- Specification: the announcement can be encoded, and each of its signatures that is present is not empty. -/
def Fits (enc : SigNotifier.Enc) (id : String) (l : List Sig) : Prop :=
  (SigNotifier.noticeBytes enc id l).isSome ∧ ∀ x ∈ l, x.signature ≠ some []

/-- what a call writes to the peers, if all streams can be opened: for each announcement a notice -/
def written (enc : SigNotifier.Enc) (me : P) (id : String) (ef : List (Effect P)) : List (P × Bytes) :=
  ef.flatMap fun e => match e with
    | .broadcastSigs l peers => SigNotifier.broadcastCommon enc me id l peers
    | .broadcastFailure peers => SigNotifier.broadcastCommon enc me id [] peers
    | _ => []

/-- C96: who gets an announcement: every peer it is addressed to other than the node itself, and all of them get the same bytes. -/
theorem c96_recipients (enc : SigNotifier.Enc) (me : P) (id : String) (data : List Sig) (peers : List P) (p : P) (b : Bytes) :
    (p, b) ∈ SigNotifier.broadcastCommon enc me id data peers ↔ p ∈ peers ∧ p ≠ me ∧ SigNotifier.noticeBytes enc id data = some b := by
  unfold SigNotifier.broadcastCommon
  rw [List.mem_filterMap]
  constructor
  · rintro ⟨q, hq, h⟩
    split at h
    · cases h
    · rename_i hne
      obtain ⟨b', hb', h⟩ := Option.map_eq_some_iff.1 h
      cases h
      exact ⟨hq, hne, hb'⟩
  · rintro ⟨hp, hne, hb⟩
    exact ⟨p, hp, by rw [if_neg hne, hb]; rfl⟩

/-- C96: nobody gets it twice, if the peers are different. -/
theorem c96_once (enc : SigNotifier.Enc) (me : P) (id : String) (data : List Sig) (peers : List P) (hn : peers.Nodup) :
    ((SigNotifier.broadcastCommon enc me id data peers).map (·.1)).Nodup := by
  have : ((SigNotifier.broadcastCommon enc me id data peers).map (·.1)) <+ peers := by
    unfold SigNotifier.broadcastCommon
    induction peers with
    | nil => exact List.Sublist.refl _
    | cons p ps ih =>
      have ih := ih (List.nodup_cons.1 hn).2
      rw [List.filterMap_cons]
      split
      · exact ih.cons _
      · rename_i x hx
        split at hx
        · cases hx
        · obtain ⟨b', hb', h⟩ := Option.map_eq_some_iff.1 hx
          cases h
          exact ih.cons_cons _
  exact hn.sublist this

theorem notice_carries {enc : SigNotifier.Enc} (hrt : RoundTrip enc nenv) (id : String) (l : List Sig) (hl : l ≠ []) (hfit : Fits enc id l) :
    ∃ b, SigNotifier.noticeBytes enc id l = some b ∧ Notified.Carries nenv b id l := by
  have hm : ∀ bs, l.mapM enc.encSig = some bs → List.Forall₂ (fun b s => nenv.decSig b = some s) bs l := by
    have hne := hfit.2
    clear hl hfit
    induction l with
    | nil => intro bs h; simp at h; subst h; exact .nil
    | cons x l ih =>
      intro bs h
      rw [List.mapM_cons] at h
      simp only [Option.bind_eq_bind, Option.bind_eq_some_iff] at h
      obtain ⟨b, h1, bs', h2, h3⟩ := h
      cases h3
      exact .cons (hrt.sig x b (hne x (by simp)) h1) (ih (fun y hy => hne y (by simp [hy])) bs' h2)
  obtain ⟨b, hb⟩ := Option.isSome_iff_exists.1 hfit.1
  refine ⟨b, hb, ?_⟩
  unfold SigNotifier.noticeBytes at hb
  rw [if_neg hl, Option.bind_eq_some_iff] at hb
  obtain ⟨bs, h1, h3⟩ := hb
  have h2 := hm bs h1
  refine ⟨_, hrt.msg _ _ h3, rfl, rfl, ?_, h2⟩
  intro h
  dsimp only at h
  rw [h] at h2
  cases h2
  exact hl rfl

theorem notice_failure {enc : SigNotifier.Enc} (hrt : RoundTrip enc nenv) (id : String) (b : Bytes) (hb : SigNotifier.noticeBytes enc id [] = some b) :
    ∀ h, Notified.Useless nenv h b := by
  unfold SigNotifier.noticeBytes at hb
  rw [if_pos rfl] at hb
  exact fun h => .inr ⟨_, hrt.msg _ _ hb, .inr (.inl rfl)⟩

/-- what is written is what was told -/
theorem written_told (enc : SigNotifier.Enc) (me : P) (id : String) (ef : List (Effect P)) : written enc me id ef = written enc me id (told ef) := by
  induction ef with
  | nil => rfl
  | cons e ef ih =>
    unfold written told at ih ⊢
    cases e with
    | broadcastSigs l p => simpa using ih
    | broadcastFailure p => simpa using ih
    | _ => simpa using ih

/-- C96: a node whose signing failed makes no other node crash, stop waiting or take signatures: each notice of failure leaves the notifier of
the receiver as it was. -/
theorem c96_failure_harmless {enc : SigNotifier.Enc} (hrt : RoundTrip enc nenv) (hc : (SigNotifier.run nenv nh).crashed = false)
    (hacc : Accepted env base64 disk req old task) (h : List (KeySign.Event P)) (peers : List P)
    (ht : told (call env base64 nenv disk req nh h).effects = [.broadcastFailure peers]) (hfit : Fits enc task.msgID []) :
    Pool env task peers ∧
    (∀ p ∈ peers, p ≠ env.me → ∃ b, (p, b) ∈ written enc env.me task.msgID (call env base64 nenv disk req nh h).effects) ∧
    ∀ p b, (p, b) ∈ written enc env.me task.msgID (call env base64 nenv disk req nh h).effects →
      ∀ rh, SigNotifier.run nenv (rh ++ [.notify b]) = SigNotifier.run nenv rh := by
  obtain ⟨b, h1⟩ := Option.isSome_iff_exists.1 hfit.1
  have h2 := notice_failure hrt task.msgID b h1
  have hw : written enc env.me task.msgID (call env base64 nenv disk req nh h).effects = SigNotifier.broadcastCommon enc env.me task.msgID [] peers := by
    rw [written_told, ht]
    simp [written]
  refine ⟨?_, fun p hp hne => ⟨b, ?_⟩, fun p b' hb rh => ?_⟩
  · rcases (c95_at_most_one hc hacc h).1 with h0 | ⟨ps, hps, h0 | ⟨l, h0⟩⟩
    · rw [ht] at h0; cases h0
    · rw [ht] at h0; cases h0; exact hps
    · rw [ht] at h0; cases h0
  · rw [hw, c96_recipients]
    exact ⟨hp, hne, h1⟩
  · rw [hw, c96_recipients] at hb
    have hb' := hb.2.2
    rw [h1] at hb'
    cases hb'
    exact Notified.c48_useless nenv rh b (h2 rh)

theorem carries_unique {b : Bytes} {id id' : String} {d d' : List Sig} (h : Notified.Carries nenv b id d) (h' : Notified.Carries nenv b id' d') :
    id = id' ∧ d = d' := by
  obtain ⟨m, h1, h2, -, -, h5⟩ := h
  obtain ⟨m', h1', h2', -, -, h5'⟩ := h'
  rw [h1] at h1'
  cases h1'
  refine ⟨h2.symm.trans h2', ?_⟩
  generalize m.signatures = l at h5 h5'
  induction h5 generalizing d' with
  | nil => cases h5'; rfl
  | cons hx _ ih =>
    cases h5' with
    | cons hy h6 =>
      rw [hx] at hy
      cases hy
      rw [ih h6]

/-- the events at a node that gets a notice while its call waits, up to the end of the wait -/
def receives (b : Bytes) (w : Nat) : List (KeySign.Event P) :=
  [.notifier (.notify b), .notifier (.receive w), .notifier (.remove w), .waitReturn, .waitSend]

theorem waiter_done (s : KeySign.St P) (e : KeySign.Event P) (x : Option Response) (hw : s.waiter = .done x) :
    (KeySign.step env nenv req task s e).waiter = .done x := by
  have hsend : ∀ x s', s.sendChan x = some s' → s'.waiter = s.waiter := by
    intro x s' h
    unfold St.sendChan at h
    repeat' split at h
    all_goals cases h
    all_goals rfl
  unfold KeySign.step
  split
  · exact hw
  · cases e with
    | genStart gs =>
      dsimp only
      split
      · unfold St.genStart
        dsimp only
        repeat' split
        all_goals exact hw
      · exact hw
    | genJoined sch =>
      dsimp only
      split
      · split
        · split
          · exact hw
          · unfold St.genJoined
            repeat' split
            all_goals exact hw
        · exact hw
      · exact hw
    | genFinish =>
      dsimp only
      split
      · unfold St.genFinish
        repeat' split
        all_goals exact hw
      · exact hw
    | genSend =>
      dsimp only
      split
      · split
        · rename_i hs
          have he := hsend _ _ hs
          exact he.trans hw
        · exact hw
      · exact hw
    | join e =>
      dsimp only
      repeat' split
      all_goals exact hw
    | sign e =>
      dsimp only
      repeat' split
      all_goals exact hw
    | genSigned =>
      dsimp only
      repeat' split
      all_goals exact hw
    | main =>
      dsimp only
      repeat' split
      all_goals exact hw
    | notifier e =>
      dsimp only
      rw [hw]
    | _ =>
      simp only [hw]

theorem same_task {env' : Env P S H L} {disk' : Storage.Disk} {old' : Bool} {task' : Job L} (hid : env'.shaID = env.shaID)
    (hacc : Accepted env base64 disk req old task) (hacc' : Accepted env' base64 disk' req old' task') :
    task'.msgID = task.msgID ∧ task'.msgs = task.msgs := by
  constructor
  · have h1 := hacc.id
    have h2 := hacc'.id
    rw [hid, h1] at h2
    injection h2 with h2
    exact h2.symm
  · obtain ⟨d, h1, h2⟩ := hacc.decoded
    obtain ⟨d', h1', h2'⟩ := hacc'.decoded
    rw [h2, h2']
    congr 1
    clear h2 h2'
    generalize MsgId.sortStrings req.messages = ms at h1 h1'
    induction h1 generalizing d' with
    | nil => cases h1'; rfl
    | cons hx _ ih =>
      cases h1' with
      | cons hy h6 =>
        rw [hx] at hy
        cases hy
        rw [ih _ h6]

theorem waitsOf_ids {s : SigNotifier.St} {h : List SigNotifier.Event} (hi : Notified.Inv nenv h s) (hc : s.crashed = false)
    (hn : (s.waits.map (·.1.messageID)).Nodup) : ((Notified.waitsOf h).map (·.1)).Nodup := by
  have : (Notified.waitsOf h).map (·.1) = s.waits.map (·.1.messageID) := by
    apply List.ext_getElem?
    intro i
    rw [List.getElem?_map, List.getElem?_map]
    rcases hw : s.waits[i]? with _ | ⟨n, ph⟩
    · rw [List.getElem?_eq_none_iff] at hw
      rw [hi.len hc] at hw
      rw [List.getElem?_eq_none_iff.2 hw]
      rfl
    · rw [hi.fields i n ph hw]
      rfl
  rw [this]
  exact hn

theorem receive_steps {s : KeySign.St P} {w : Nat} {b : Bytes} {l : List Sig} {resp : Response} (hal : s.crashed = false) (hwait : s.waiter = .waiting w)
    (hnc : (SigNotifier.step nenv s.nt (.notify b)).crashed = false)
    (hub : (SigNotifier.step nenv (SigNotifier.step nenv s.nt (.notify b)) (.receive w)).blocked = false)
    (hres : (SigNotifier.step nenv (SigNotifier.step nenv s.nt (.notify b)) (.receive w)).result w = some (.ok l))
    (hl : l ≠ []) (hb : batchSignatures l task.msgs = some resp) :
    let r := KeySign.step env nenv req task (KeySign.step env nenv req task (KeySign.step env nenv req task (KeySign.step env nenv req task
            s (.notifier (.notify b))) (.notifier (.receive w))) (.notifier (.remove w))) .waitReturn
    r.crashed = false ∧ r.waiter = .send resp := by
  have e1 : KeySign.step env nenv req task s (.notifier (.notify b)) = { s with nt := SigNotifier.step nenv s.nt (.notify b), crashed := false } := by
    unfold KeySign.step
    rw [if_neg (by simp [hal])]
    simp only [hwait, isCancel, Bool.false_eq_true, if_false, hnc]
  rw [e1]
  generalize SigNotifier.step nenv s.nt (.notify b) = nt1 at *
  have hc2 : (SigNotifier.step nenv nt1 (.receive w)).crashed = false := by
    unfold SigNotifier.step
    split
    · exact hnc
    · dsimp only
      repeat' split
      all_goals exact hnc
  have e2 : KeySign.step env nenv req task { s with nt := nt1, crashed := false } (.notifier (.receive w)) =
      { s with nt := SigNotifier.step nenv nt1 (.receive w), crashed := false } := by
    unfold KeySign.step
    rw [if_neg (by simp)]
    simp only [hwait, isCancel, Bool.false_eq_true, if_false, hc2]
  rw [e2]
  generalize SigNotifier.step nenv nt1 (.receive w) = nt2 at *
  have h3 : (SigNotifier.step nenv nt2 (.remove w)).crashed = false ∧ ∃ n, (SigNotifier.step nenv nt2 (.remove w)).waits[w]? = some (n, .ended (.ok l)) := by
    unfold SigNotifier.step
    rw [if_neg (by simp [hc2, hub])]
    unfold SigNotifier.St.result at hres
    rcases hx : nt2.waits[w]? with _ | ⟨n, _ | x | x⟩
    · rw [hx] at hres; cases hres
    · rw [hx] at hres; cases hres
    · rw [hx] at hres
      cases hres
      simp only [hx]
      have hlt : w < nt2.waits.length := (List.getElem?_eq_some_iff.1 hx).1
      exact ⟨hc2, n, by rw [List.getElem?_set_self hlt]⟩
    · rw [hx] at hres
      cases hres
      simp only [hx]
      exact ⟨hc2, n, rfl⟩
  have e3 : KeySign.step env nenv req task { s with nt := nt2, crashed := false } (.notifier (.remove w)) =
      { s with nt := SigNotifier.step nenv nt2 (.remove w), crashed := false } := by
    unfold KeySign.step
    rw [if_neg (by simp)]
    simp only [hwait, isCancel, Bool.false_eq_true, if_false, h3.1]
  rw [e3]
  obtain ⟨-, n, hn⟩ := h3
  generalize SigNotifier.step nenv nt2 (.remove w) = nt3 at *
  unfold KeySign.step
  rw [if_neg (by simp)]
  have hl0 : l.length ≠ 0 := fun h => hl (List.eq_nil_of_length_eq_zero h)
  simp only [hwait, hn, hl0, if_false, hb, and_self]

/-- C96: all members of the pool that wait get the same answer. Let a node (`env`, after `h`) have answered a request with Success and signatures it
generated itself, all valid and not too long to be encoded. Then it has written one and the same notice to every other member of the pool. If such a member is processing the
same request and still waits for signatures, and has no other wait for the same request, then, when the notice arrives, it stops waiting, and
whatever else happens, its answer is the same as the first node's. -/
theorem c96_delivered {enc : SigNotifier.Enc} (hrt : RoundTrip enc nenv) (hc : (SigNotifier.run nenv nh).crashed = false)
    (hacc : Accepted env base64 disk req old task) (h : List (KeySign.Event P)) (resp : Response) (err : Option Err)
    (hr : (call env base64 nenv disk req nh h).ret = some (resp, err)) (hn : "signature received" ∉ (call env base64 nenv disk req nh h).sends)
    (hs : resp.status = .success)
    (hv : ∀ l peers, Effect.broadcastSigs l peers ∈ (call env base64 nenv disk req nh h).effects →
      Notified.AllValid nenv (String.ofList req.poolPubKey) task.msgs l ∧ Fits enc task.msgID l) :
    ∃ (b : Bytes) (peers : List P), Pool env task peers ∧
      (∀ p b', (p, b') ∈ written enc env.me task.msgID (call env base64 nenv disk req nh h).effects ↔ p ∈ peers ∧ p ≠ env.me ∧ b' = b) ∧
      ∀ (env' : Env P S H L) (disk' : Storage.Disk) (nh' : List SigNotifier.Event) (old' : Bool) (task' : Job L) (h' : List (KeySign.Event P))
        (w : Nat) (n : SigNotifier.Notifier), env'.shaID = env.shaID → (SigNotifier.run nenv nh').crashed = false →
        Accepted env' base64 disk' req old' task' → (call env' base64 nenv disk' req nh' h').crashed = false →
        (call env' base64 nenv disk' req nh' h').waiter = .waiting w →
        (call env' base64 nenv disk' req nh' h').nt.waits[w]? = some (n, .waiting) → n.resp = [] →
        ((call env' base64 nenv disk' req nh' h').nt.waits.map (·.1.messageID)).Nodup →
        (call env' base64 nenv disk' req nh' (h' ++ receives b w)).crashed = false ∧
        "signature received" ∈ (call env' base64 nenv disk' req nh' (h' ++ receives b w)).sends ∧
        ∀ h'' resp' err', (call env' base64 nenv disk' req nh' (h' ++ receives b w ++ h'')).ret = some (resp', err') → resp' = resp ∧ err' = none := by
  have hcase : ∃ l peers, told (call env base64 nenv disk req nh h).effects = [.broadcastSigs l peers] ∧ Pool env task peers ∧
      batchSignatures l task.msgs = some resp := by
    rcases c95_told hc hacc h resp err hr hn with ⟨-, -, l, peers, h1, h2, h3, -⟩ | ⟨h0, -⟩ | ⟨h0, -⟩ | ⟨h0, -⟩
    · refine ⟨l, peers, h1, h2, ?_⟩
      have hm : Effect.broadcastSigs l peers ∈ told (call env base64 nenv disk req nh h).effects := by rw [h1]; exact List.mem_singleton.2 rfl
      obtain ⟨ex, -, hk⟩ := call_inv hc hacc h
      obtain ⟨r, g1, g2, -⟩ := hk.effSigs l peers (List.mem_filter.1 hm).1
      obtain ⟨w, g, hw, hg, hd⟩ := hk.ret _ hr
      rw [g1] at hg
      cases hg
      rcases w with _ | r'
      · cases hd
        exact g2
      · exact absurd (hk.sentMem (by rw [hw]; trivial)) hn
    · rw [hs] at h0; cases h0
    · rw [hs] at h0; cases h0
    · rw [h0] at hs; cases hs
  obtain ⟨l, peers, h1, h2, h3⟩ := hcase
  obtain ⟨hval, hfit⟩ : Notified.AllValid nenv (String.ofList req.poolPubKey) task.msgs l ∧ Fits enc task.msgID l := by
    have hm : Effect.broadcastSigs l peers ∈ told (call env base64 nenv disk req nh h).effects := by rw [h1]; exact List.mem_singleton.2 rfl
    exact hv l peers (List.mem_filter.1 hm).1
  obtain ⟨b, hb, hcar⟩ := notice_carries hrt task.msgID l hval.1 hfit
  refine ⟨b, peers, h2, ?_, ?_⟩
  · intro p b'
    have hw : written enc env.me task.msgID (call env base64 nenv disk req nh h).effects = SigNotifier.broadcastCommon enc env.me task.msgID l peers := by
      rw [written_told, h1]
      simp [written]
    rw [hw, c96_recipients, hb]
    constructor
    · rintro ⟨g1, g2, g3⟩
      cases g3
      exact ⟨g1, g2, rfl⟩
    · rintro ⟨g1, g2, rfl⟩
      exact ⟨g1, g2, rfl⟩
  · intro env' disk' nh' old' task' h' w n hid hc' hacc' hal hwait hw hresp hnd
    obtain ⟨e1, e2⟩ := same_task hid hacc hacc'
    obtain ⟨ex, -, hk⟩ := call_inv hc' hacc' h'
    have hni := Notified.inv_run nenv (nh' ++ ex)
    have hnt := hk.nt
    have hwi := hk.waiter
    rw [hwait] at hwi
    have hcr := hk.alive hal
    have hends : ∀ (x : KeySign.Event P) (h : List (KeySign.Event P)), call env' base64 nenv disk' req nh' (h ++ [x]) =
      KeySign.step env' nenv req task' (call env' base64 nenv disk' req nh' h) x := fun x h => call_snoc hacc' h x
    -- the notifier
    rw [← hnt] at hni
    have hfields : n.messageID = task.msgID ∧ n.messages = task.msgs ∧ n.poolPubKey = String.ofList req.poolPubKey := by
      cases hwi with
      | waiting _ hx =>
        rw [hni.fields w n _ hw] at hx
        injection hx with hx
        rw [Prod.ext_iff, Prod.ext_iff] at hx
        exact ⟨hx.1.trans e1, hx.2.1.trans e2, hx.2.2⟩
    obtain ⟨f1, f2, f3⟩ := hfields
    have hnd' := waitsOf_ids hni hcr hnd
    have hserve := Notified.c74_served_partial nenv (nh' ++ ex) hnd' w n (by rw [← hnt]; exact hcr) (by rw [← hnt]; exact hw) b l
      (by rw [f1]; exact hcar) (by rw [f2, f3]; exact hval)
    obtain ⟨d', hres, hd'⟩ := hserve
    rw [hd' hresp] at hres
    have hr2 : SigNotifier.run nenv (nh' ++ ex ++ [.notify b, .receive w]) =
        SigNotifier.step nenv (SigNotifier.step nenv (SigNotifier.run nenv (nh' ++ ex)) (.notify b)) (.receive w) := by
      simp [SigNotifier.run]
    have hnc : (SigNotifier.step nenv (SigNotifier.run nenv (nh' ++ ex)) (.notify b)).crashed = false := by
      have hrun : SigNotifier.run nenv (nh' ++ ex ++ [.notify b]) = SigNotifier.step nenv (SigNotifier.run nenv (nh' ++ ex)) (.notify b) := by
        simp [SigNotifier.run]
      rw [← hrun]
      refine Bool.eq_false_iff.2 fun hx => ?_
      obtain ⟨id, d, w', msgs, key, g1, g2, g3, g4, g5⟩ :=
        (Notified.c75_crash_iff_partial nenv (nh' ++ ex) b (by rw [← hnt]; exact hcr)).1 hx
      obtain ⟨u1, u2⟩ := carries_unique g1 hcar
      have g6 := hni.fields w n _ hw
      have hww : w' = w := by
        have a1 : ((Notified.waitsOf (nh' ++ ex)).map (·.1))[w']? = some id := by rw [List.getElem?_map, g3]; rfl
        have a2 : ((Notified.waitsOf (nh' ++ ex)).map (·.1))[w]? = some id := by rw [List.getElem?_map, g6, u1, ← f1]; rfl
        obtain ⟨b1, b2⟩ := List.getElem?_eq_some_iff.1 a1
        obtain ⟨b3, b4⟩ := List.getElem?_eq_some_iff.1 a2
        exact (List.Nodup.getElem_inj_iff hnd').1 (b2.trans b4.symm)
      subst hww
      rw [g6] at g3
      injection g3 with g3
      rw [Prod.ext_iff, Prod.ext_iff] at g3
      have g7 : msgs = task.msgs := g3.2.1.symm.trans f2
      have g8 := hval.2.1
      rw [u2, g7] at g4
      omega
    rw [hr2, ← hnt] at hres
    rw [← hnt] at hnc
    -- the steps of the call
    have hcall : ∀ r, call env' base64 nenv disk' req nh' (h' ++ [.notifier (.notify b), .notifier (.receive w), .notifier (.remove w), .waitReturn]) = r →
        r.crashed = false ∧ r.waiter = .send resp := by
      intro r hr
      have hs4 : ∀ (x1 x2 x3 x4 : KeySign.Event P), call env' base64 nenv disk' req nh' (h' ++ [x1, x2, x3, x4]) =
          KeySign.step env' nenv req task' (KeySign.step env' nenv req task' (KeySign.step env' nenv req task' (KeySign.step env' nenv req task'
            (call env' base64 nenv disk' req nh' h') x1) x2) x3) x4 := by
        intro x1 x2 x3 x4
        rw [call_accepted hacc', call_accepted hacc', List.foldl_append]
        rfl
      rw [hs4] at hr
      subst hr
      have hub : (SigNotifier.step nenv (SigNotifier.step nenv (call env' base64 nenv disk' req nh' h').nt (.notify b)) (.receive w)).blocked = false := by
        rw [hnt, ← hr2]
        exact Notified.c48_never_blocks nenv _
      exact receive_steps hal hwait hnc hub hres hval.1 (by rw [e2]; exact h3)
    obtain ⟨k1, k2⟩ := hcall _ rfl
    obtain ⟨k3, k4⟩ := (c50_sends_succeed hc' hacc' _ k1).1 resp k2
    have heq : h' ++ receives b w = h' ++ [.notifier (.notify b), .notifier (.receive w), .notifier (.remove w), .waitReturn] ++ [.waitSend] := by
      simp [receives]
    rw [← heq] at k3 k4
    obtain ⟨ex', -, hk'⟩ := call_inv hc' hacc' (h' ++ receives b w)
    refine ⟨k4, hk'.sentMem (by rw [k3]; trivial), fun h'' resp' err' hret => ?_⟩
    have hdone : (call env' base64 nenv disk' req nh' (h' ++ receives b w ++ h'')).waiter = .done (some resp) := by
      clear hret
      induction h'' using List.reverseRecOn with
      | nil => rw [List.append_nil]; exact k3
      | append_singleton h'' e ih =>
        rw [← List.append_assoc, call_snoc hacc']
        exact waiter_done _ e _ ih
    obtain ⟨ex'', -, hk''⟩ := call_inv hc' hacc' (h' ++ receives b w ++ h'')
    obtain ⟨w', g, hw', -, hd⟩ := hk''.ret _ hret
    rw [hdone] at hw'
    cases hw'
    cases hd
    exact ⟨rfl, rfl⟩

end main

/-! ## Examples -/
section demo
open Verif.Spec Verif.Spec.DemoServer

/-- node `i` handles the request to sign "ma" with a leader, with the lawful wire format -/
def node (i : Nat) (h : List (KeySign.Event Nat)) : KeySign.St Nat := call (env i) base64 DemoWire.notifier (disk i) (request ['n'] []) [] h

/-- node 1 signs -/
def signs : List (KeySign.Event Nat) := answer [10, 11, 12] .success ++ signed ++ noWait ++ [.main]

/-- the hypotheses of C95 and C96 hold: node 1 tells its signature to the pool -/
example : (SigNotifier.run DemoWire.notifier []).crashed = false ∧ RoundTrip DemoWire.enc DemoWire.notifier ∧
    (∃ old task, Accepted (env 1) base64 (disk 1) (request ['n'] []) old task ∧ decide (task.msgs = [[97]] ∧ task.msgID = "ma") = true) ∧
    summary (node 1 signs) = some (.success, 1, false) ∧ "signature received" ∉ (node 1 signs).sends ∧
    told (node 1 signs).effects = [.broadcastSigs [sig] [10, 11, 12, 13]] ∧ joinCounts (node 1 signs).effects = [true] :=
  ⟨rfl, ⟨fun m b h => by cases h; exact DemoWire.decMsg_enc m, fun x b _ h => by cases h; exact DemoWire.decSig_enc x⟩, accepted_of_check (by decide +kernel), by decide +kernel, by decide +kernel,
    by decide +kernel, by decide +kernel⟩

/-- C95: a node which is told by the leader that the party was not formed tells the pool of the failure -/
example : told (node 1 (answer [10, 11] .timeout ++ noWait ++ [.main])).effects = [.broadcastFailure [10, 11, 12, 13]] ∧
    joinCounts (node 1 (answer [10, 11] .timeout ++ noWait ++ [.main])).effects = [false] := by decide +kernel

/-- C96: the signature is valid -/
example : Notified.AllValid DemoWire.notifier (String.ofList (request ['n'] []).poolPubKey) [[97]] [sig] := by
  have : SigNotifier.verifyLoop DemoWire.notifier (String.ofList (request ['n'] []).poolPubKey) [sig] [[97]] = some true := by decide +kernel
  exact ⟨by decide, (Notified.verifyLoop_true _ _ _ _).1 this⟩

/-- C96: and can be encoded, and so can the notice of failure -/
example : Fits DemoWire.enc "ma" [sig] ∧ Fits DemoWire.enc "ma" [] := by unfold Fits; decide +kernel

/-- C96: what node 1 writes -/
def notice : Bytes := ((SigNotifier.noticeBytes DemoWire.enc "ma" [sig]).getD [])

example : written DemoWire.enc 11 "ma" (node 1 signs).effects = [(10, notice), (12, notice), (13, notice)] := by decide +kernel

/-- C96: node 3, which is not in the party, waits, and then answers with the same signature -/
example : (node 3 [.waitStart]).crashed = false ∧ (match (node 3 [.waitStart]).waiter with | .waiting w => some w | _ => none) = some 0 ∧
    ((node 3 [.waitStart]).nt.waits[0]?.map fun x => (x.1, match x.2 with | .waiting => true | _ => false)) = some (⟨"ma", [[97]], "y", []⟩, true) ∧ ((node 3 [.waitStart]).nt.waits.map (·.1.messageID)).Nodup ∧
    (node 3 ([.waitStart] ++ receives notice 0 ++ (answer [10, 11, 12] .success ++ [.main]))).ret = (node 1 signs).ret :=
  ⟨by decide +kernel, by decide +kernel, by decide +kernel, by decide +kernel, by decide +kernel⟩

end demo

/-! ## Limits -/
section limits
open Verif.Spec Verif.Spec.DemoServer

/-- C95, an exception: the leader announces a peer without key; node 1 answers Fail and tells nobody. -/
theorem c95_untold : summary (node 1 (answer [10, 11, 5] .success ++ [.genSend, .genFinish] ++ noWait ++ [.main])) = some (.fail, 0, false) ∧
    told (node 1 (answer [10, 11, 5] .success ++ [.genSend, .genFinish] ++ noWait ++ [.main])).effects = [] := by decide +kernel

/-- C95: a node which received the signature may still tell the pool that signing failed, as its own attempt failed. It answers Success. -/
theorem c95_failure_told_though_received : summary (node 1 (([.waitStart] ++ receives notice 0) ++ answer [10, 11] .timeout ++ [.main])) = some (.success, 1, false) ∧
    told (node 1 (([.waitStart] ++ receives notice 0) ++ answer [10, 11] .timeout ++ [.main])).effects = [.broadcastFailure [10, 11, 12, 13]] := by
  decide +kernel

end limits
end Verif.Props.Announced
