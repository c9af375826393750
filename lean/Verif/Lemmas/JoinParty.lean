import Verif.Model.JoinParty
import Verif.Lemmas.PeerStatus
import Mathlib.Data.List.Induction

/-! Facts about p2p/party_coordinator.go; `heard`, `answers`: what the events of a history say about one message id. -/
set_option linter.unusedSectionVars false
namespace Verif.JoinParty
open Verif.Go Verif.Peers

variable {P : Type} [DecidableEq P]

/-- the senders of join requests for message id `id`, in order -/
def heard (id : String) : List (Event P) → List P
  | [] => []
  | .incoming id' (.leaderless p) :: h => if id' = id then p :: heard id h else heard id h
  | .incoming id' (.request p) :: h => if id' = id then p :: heard id h else heard id h
  | _ :: h => heard id h

/-- the responses for message id `id` sent by the peer whose id prints as `leader`, in order -/
def answers (cd : PeerCodec P) (id leader : String) : List (Event P) → List Resp
  | [] => []
  | .incoming id' (.response p r) :: h =>
    if id' = id ∧ cd.str p = leader then r :: answers cd id leader h else answers cd id leader h
  | _ :: h => answers cd id leader h

theorem heard_append (id : String) (h1 h2 : List (Event P)) : heard id (h1 ++ h2) = heard id h1 ++ heard id h2 := by
  induction h1 with
  | nil => rfl
  | cons e h ih =>
    rcases e with ⟨id', _ | _ | _⟩ | _ | _ | _ | _ | _ <;> simp only [List.cons_append, heard, ih] <;> split <;> simp

theorem answers_append (cd : PeerCodec P) (id leader : String) (h1 h2 : List (Event P)) :
    answers cd id leader (h1 ++ h2) = answers cd id leader h1 ++ answers cd id leader h2 := by
  induction h1 with
  | nil => rfl
  | cons e h ih =>
    rcases e with ⟨id', _ | _ | _⟩ | _ | _ | _ | _ | _ <;> simp only [List.cons_append, answers, ih] <;> split <;> simp

/-- the own group is described by the history -/
def GInv (cd : PeerCodec P) (id : String) (g0 : Group P) (h : List (Event P)) (gs : Groups P) : Prop :=
  ∃ g, Map.get gs id = some g ∧ g.ps = psAfter g0.ps (heard id h) ∧
    g.leaderResponse = (answers cd id g0.ps.leader h).getLast?

theorem GInv_incoming {cd : PeerCodec P} {id : String} {g0 : Group P} {h : List (Event P)} {gs : Groups P}
    (hi : GInv cd id g0 h gs) (id' : String) (b : Body P) :
    GInv cd id g0 (h ++ [.incoming id' b]) (handle cd gs id' b) := by
  obtain ⟨g, hg, hps, hr⟩ := hi
  by_cases he : id' = id
  · subst he
    refine ⟨g.handle cd b, by simp [handle, hg], ?_, ?_⟩
    · rw [heard_append]
      cases b with
      | leaderless p =>
        have : heard id' [Event.incoming id' (Body.leaderless p)] = [p] := by simp [heard]
        rw [this, psAfter_snoc, ← hps]
        simp only [Group.handle]; split <;> rfl
      | request p =>
        have : heard id' [Event.incoming id' (Body.request p)] = [p] := by simp [heard]
        rw [this, psAfter_snoc, ← hps]
        simp only [Group.handle]; split <;> rfl
      | response p r =>
        simp only [heard, List.append_nil, Group.handle]
        split <;> exact hps
    · rw [answers_append]
      have hl : g.ps.leader = g0.ps.leader := by rw [hps, psAfter_leader]
      cases b with
      | leaderless p => simp only [answers, List.append_nil, Group.handle]; split <;> exact hr
      | request p => simp only [answers, List.append_nil, Group.handle]; split <;> exact hr
      | response p r =>
        simp only [answers, Group.handle, hl, true_and]
        split
        · simp
        · simpa using hr
  · refine ⟨g, ?_, ?_, ?_⟩
    · unfold handle
      split
      · exact hg
      · rw [Map.get_set_ne _ _ (Ne.symm he), hg]
    · rw [heard_append]
      cases b <;> simp [heard, he, hps]
    · rw [answers_append]
      cases b <;> simp [answers, he, hr]

theorem GInv_other {cd : PeerCodec P} {id : String} {g0 : Group P} {h : List (Event P)} {gs : Groups P}
    (hi : GInv cd id g0 h gs) (id' : String) (o : Option (Group P)) :
    GInv cd id g0 (h ++ [.other id' o]) (otherJoin gs id id' o) := by
  obtain ⟨g, hg, hps, hr⟩ := hi
  refine ⟨g, ?_, by simpa [heard_append, heard] using hps, by simpa [answers_append, answers] using hr⟩
  unfold otherJoin
  by_cases he : id' = id
  · simp [he, hg]
  · simp only [he, if_false]
    cases o with
    | none => simp only; rw [Map.get_del_ne _ (Ne.symm he), hg]
    | some g' => simp only; rw [Map.get_set_ne _ _ (Ne.symm he), hg]

/-- an event which changes neither requests nor responses -/
def silent : Event P → Prop
  | .incoming _ _ => False
  | _ => True

theorem GInv_silent {cd : PeerCodec P} {id : String} {g0 : Group P} {h : List (Event P)} {gs : Groups P}
    (hi : GInv cd id g0 h gs) {e : Event P} (he : silent e) : GInv cd id g0 (h ++ [e]) gs := by
  obtain ⟨g, hg, hps, hr⟩ := hi
  refine ⟨g, hg, ?_, ?_⟩
  · rw [heard_append]; cases e <;> simp_all [heard, silent]
  · rw [answers_append]; cases e <;> simp_all [answers, silent]

theorem GInv_recv {cd : PeerCodec P} {id : String} {g0 : Group P} {h : List (Event P)} {gs gs' : Groups P}
    (hi : GInv cd id g0 h gs) (hr : recvNotify gs id = some gs') : GInv cd id g0 h gs' := by
  obtain ⟨g, hg, hps, hl⟩ := hi
  unfold recvNotify at hr
  simp only [hg] at hr
  rcases hc : g.notify.recv with _ | c
  · simp [hc] at hr
  · simp only [hc, Option.some.injEq] at hr
    subst hr
    exact ⟨{ g with notify := c }, by simp, hps, hl⟩

theorem GInv_start (cd : PeerCodec P) (id : String) (gs : Groups P) (g0 : Group P) (hg : Map.get gs id = some g0)
    (hn : g0.leaderResponse = none) : GInv cd id g0 [] (start gs).groups := ⟨g0, hg, rfl, by simpa [answers] using hn⟩

theorem createJoin_ok {cd : PeerCodec P} {me : P} {gs gs' : Groups P} {id leader : String} {peers : List String}
    {t : Int} (h : createJoinPartyGroups cd me gs id leader peers t = .ok gs') :
    ∃ ps, getPeerIDs cd peers = .ok ps ∧ gs' = Map.set gs id (newGroup ps me leader t) := by
  unfold createJoinPartyGroups at h
  rw [Res.bind_eq_ok] at h
  obtain ⟨ps, h1, h2⟩ := h
  cases h2
  exact ⟨ps, h1, rfl⟩

/-- runs of the three kinds of join calls -/
def runLeader (cd : PeerCodec P) (me : P) (t : Int) (id : String) (gs : Groups P) (h : List (Event P)) : State P :=
  h.foldl (leaderStep cd me t id) (start gs)
def runMember (cd : PeerCodec P) (t : Int) (id : String) (gs : Groups P) (h : List (Event P)) : State P :=
  h.foldl (memberStep cd t id) (start gs)
def runRetry (cd : PeerCodec P) (me : P) (npeers : Nat) (id : String) (gs : Groups P) (h : List (Event P)) : State P :=
  h.foldl (retryStep cd me npeers id) (start gs)

theorem runLeader_snoc (cd : PeerCodec P) (me : P) (t : Int) (id : String) (gs : Groups P) (h : List (Event P)) (e : Event P) :
    runLeader cd me t id gs (h ++ [e]) = leaderStep cd me t id (runLeader cd me t id gs h) e := by simp [runLeader]
theorem runMember_snoc (cd : PeerCodec P) (t : Int) (id : String) (gs : Groups P) (h : List (Event P)) (e : Event P) :
    runMember cd t id gs (h ++ [e]) = memberStep cd t id (runMember cd t id gs h) e := by simp [runMember]
theorem runRetry_snoc (cd : PeerCodec P) (me : P) (n : Nat) (id : String) (gs : Groups P) (h : List (Event P)) (e : Event P) :
    runRetry cd me n id gs (h ++ [e]) = retryStep cd me n id (runRetry cd me n id gs h) e := by simp [runRetry]

theorem leader_GInv (cd : PeerCodec P) (me : P) (t : Int) (id : String) (gs : Groups P) (g0 : Group P)
    (hg : Map.get gs id = some g0) (hn : g0.leaderResponse = none) (h : List (Event P)) :
    GInv cd id g0 h (runLeader cd me t id gs h).groups := by
  induction h using List.reverseRecOn with
  | nil => exact GInv_start cd id gs g0 hg hn
  | append_singleton h e ih =>
    rw [runLeader_snoc]
    cases e with
    | incoming id' b => exact GInv_incoming ih id' b
    | other id' o => exact GInv_other ih id' o
    | wake σ =>
      simp only [leaderStep]
      split
      · split
        · exact GInv_silent ih trivial
        · next gs' hr => exact GInv_silent (GInv_recv ih hr) trivial
      · exact GInv_silent ih trivial
    | timeout => simp only [leaderStep]; split <;> exact GInv_silent ih trivial
    | sig s => simp only [leaderStep]; split <;> exact GInv_silent ih trivial
    | step σ => simp only [leaderStep]; split <;> exact GInv_silent ih trivial

theorem memberStep_step_groups (cd : PeerCodec P) (t : Int) (id : String) (st : State P) (σ : Shuffle P) :
    (memberStep cd t id st (.step σ)).groups = st.groups := by
  simp only [memberStep]
  repeat' split
  all_goals rfl

theorem member_GInv (cd : PeerCodec P) (t : Int) (id : String) (gs : Groups P) (g0 : Group P)
    (hg : Map.get gs id = some g0) (hn : g0.leaderResponse = none) (h : List (Event P)) :
    GInv cd id g0 h (runMember cd t id gs h).groups := by
  induction h using List.reverseRecOn with
  | nil => exact GInv_start cd id gs g0 hg hn
  | append_singleton h e ih =>
    rw [runMember_snoc]
    cases e with
    | incoming id' b => exact GInv_incoming ih id' b
    | other id' o => exact GInv_other ih id' o
    | wake σ =>
      simp only [memberStep]
      split
      · split
        · exact GInv_silent ih trivial
        · next gs' hr => exact GInv_silent (GInv_recv ih hr) trivial
      · exact GInv_silent ih trivial
    | timeout => simp only [memberStep]; split <;> exact GInv_silent ih trivial
    | sig s => simp only [memberStep]; split <;> exact GInv_silent ih trivial
    | step σ => rw [memberStep_step_groups]; exact GInv_silent ih trivial

/-- in the leaderless run the group is as described until the end, when it is gone -/
theorem retry_GInv (cd : PeerCodec P) (me : P) (n : Nat) (id : String) (gs : Groups P) (g0 : Group P)
    (hg : Map.get gs id = some g0) (hn : g0.leaderResponse = none) (h : List (Event P)) :
    ((runRetry cd me n id gs h).phase ≠ .done ∧ (runRetry cd me n id gs h).result = none ∧
        GInv cd id g0 h (runRetry cd me n id gs h).groups) ∨
      ((runRetry cd me n id gs h).phase = .done ∧ Map.get (runRetry cd me n id gs h).groups id = none) := by
  induction h using List.reverseRecOn with
  | nil => left; exact ⟨by simp [runRetry, start], rfl, GInv_start cd id gs g0 hg hn⟩
  | append_singleton h e ih =>
    rw [runRetry_snoc]
    cases e with
    | incoming id' b =>
      rcases ih with ⟨hp, hr, hi⟩ | ⟨hp, hi⟩
      · left; exact ⟨hp, hr, GInv_incoming hi id' b⟩
      · right
        refine ⟨hp, ?_⟩
        simp only [retryStep, handle]
        split
        · exact hi
        · next g hg =>
          by_cases he : id = id'
          · subst he; rw [hi] at hg; cases hg
          · rw [Map.get_set_ne _ _ he, hi]
    | other id' o =>
      rcases ih with ⟨hp, hr, hi⟩ | ⟨hp, hi⟩
      · left; exact ⟨hp, hr, GInv_other hi id' o⟩
      · right
        refine ⟨hp, ?_⟩
        simp only [retryStep, otherJoin]
        by_cases he : id' = id
        · simp [he, hi]
        · simp only [he, if_false]
          cases o with
          | none => simp only; rw [Map.get_del_ne _ (Ne.symm he), hi]
          | some g' => simp only; rw [Map.get_set_ne _ _ (Ne.symm he), hi]
    | wake σ =>
      rcases ih with ⟨hp, hr, hi⟩ | ⟨hp, hi⟩
      · left
        simp only [retryStep]
        split
        · split
          · exact ⟨hp, hr, GInv_silent hi trivial⟩
          · next gs' hr' =>
            refine ⟨?_, hr, GInv_silent (GInv_recv hi hr') trivial⟩
            simp only; split <;> simp
        · exact ⟨hp, hr, GInv_silent hi trivial⟩
      · right; simp [retryStep, hp, hi]
    | timeout =>
      rcases ih with ⟨hp, hr, hi⟩ | ⟨hp, hi⟩
      · left
        simp only [retryStep]
        split
        · exact ⟨by simp, hr, GInv_silent hi trivial⟩
        · exact ⟨hp, hr, GInv_silent hi trivial⟩
      · right; simp [retryStep, hp, hi]
    | sig s =>
      rcases ih with ⟨hp, hr, hi⟩ | ⟨hp, hi⟩
      · left; exact ⟨hp, hr, GInv_silent hi trivial⟩
      · right; exact ⟨hp, hi⟩
    | step σ =>
      rcases ih with ⟨hp, hr, hi⟩ | ⟨hp, hi⟩
      · simp only [retryStep]
        split
        · right; exact ⟨rfl, by simp [removePeerGroup]⟩
        · left; exact ⟨hp, hr, GInv_silent hi trivial⟩
      · right; simp [retryStep, hp, hi]

end Verif.JoinParty
