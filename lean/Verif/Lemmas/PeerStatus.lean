import Verif.Model.PeerStatus
import Mathlib.Data.List.Induction

/-! Facts about p2p/peer_status.go -/
set_option linter.unusedSectionVars false
namespace Verif.Peers
open Verif.Go

variable {P : Type} [DecidableEq P]

/-- the state after a sequence of updates -/
def psAfter (ps : PeerStatus P) (h : List P) : PeerStatus P := h.foldl (fun ps p => (updatePeer ps p).1) ps

@[simp] theorem psAfter_nil (ps : PeerStatus P) : psAfter ps [] = ps := rfl
theorem psAfter_snoc (ps : PeerStatus P) (h : List P) (p : P) : psAfter ps (h ++ [p]) = (updatePeer (psAfter ps h) p).1 := by
  simp [psAfter]

theorem get_fillPeers (peers : List P) (me p : P) :
    Map.get (fillPeers peers me) p = if p ∈ peers ∧ p ≠ me then some false else none := by
  induction peers using List.reverseRecOn with
  | nil => simp [fillPeers]
  | append_singleton l q ih =>
    simp only [fillPeers, List.foldl_append, List.foldl_cons, List.foldl_nil] at ih ⊢
    by_cases h : q = me
    · subst h
      simp only [if_true, ih, List.mem_append, List.mem_singleton]
      by_cases hp : p = q <;> simp [hp]
    · simp only [h, if_false, Map.get_set, ih, List.mem_append, List.mem_singleton]
      by_cases hp : p = q
      · subst hp; simp [h]
      · simp [hp]

theorem WF_fillPeers (peers : List P) (me : P) : Map.WF (fillPeers peers me) := by
  induction peers using List.reverseRecOn with
  | nil => exact Map.WF_nil
  | append_singleton l q ih =>
    simp only [fillPeers, List.foldl_append, List.foldl_cons, List.foldl_nil] at ih ⊢
    split
    · exact ih
    · exact Map.WF_set ih _ _

theorem length_fillPeers (peers : List P) (me : P) : (fillPeers peers me).length ≤ peers.length := by
  induction peers using List.reverseRecOn with
  | nil => simp [fillPeers]
  | append_singleton l q ih =>
    simp only [fillPeers, List.foldl_append, List.foldl_cons, List.foldl_nil, List.length_append, List.length_singleton] at ih ⊢
    split
    · omega
    · rw [Map.length_set]; split <;> omega

theorem getPeersStatus_eq (order : List (P × Bool)) :
    getPeersStatus order = ((order.filter (fun x => x.2)).map Prod.fst, (order.filter (fun x => !x.2)).map Prod.fst) := by
  induction order using List.reverseRecOn with
  | nil => rfl
  | append_singleton l x ih =>
    obtain ⟨p, b⟩ := x
    unfold getPeersStatus at ih ⊢
    rw [List.foldl_append, ih]
    cases b <;> simp

/-- Facts about one update. -/
theorem updatePeer_wf {ps : PeerStatus P} (h : Map.WF ps.peersResponse) (p : P) : Map.WF (updatePeer ps p).1.peersResponse := by
  unfold updatePeer
  dsimp only
  repeat' split
  all_goals first | exact h | exact Map.WF_set h _ _

theorem updatePeer_leader (ps : PeerStatus P) (p : P) : (updatePeer ps p).1.leader = ps.leader := by
  unfold updatePeer
  dsimp only
  repeat' split
  all_goals rfl

theorem updatePeer_threshold (ps : PeerStatus P) (p : P) : (updatePeer ps p).1.threshold = ps.threshold := by
  unfold updatePeer
  dsimp only
  repeat' split
  all_goals rfl

theorem updatePeer_keys (ps : PeerStatus P) (p : P) : Map.keys (updatePeer ps p).1.peersResponse = Map.keys ps.peersResponse := by
  unfold updatePeer
  split
  · rfl
  · next v hv =>
    have hk : p ∈ Map.keys ps.peersResponse := (Map.get_isSome_iff _ _).1 (by simp [hv])
    dsimp only
    repeat' split
    all_goals first | rfl | exact Map.keys_set_of_mem hk _

theorem psAfter_wf {ps : PeerStatus P} (h : Map.WF ps.peersResponse) (l : List P) : Map.WF (psAfter ps l).peersResponse := by
  induction l using List.reverseRecOn with
  | nil => exact h
  | append_singleton l p ih => rw [psAfter_snoc]; exact updatePeer_wf ih p

theorem psAfter_leader (ps : PeerStatus P) (l : List P) : (psAfter ps l).leader = ps.leader := by
  induction l using List.reverseRecOn with
  | nil => rfl
  | append_singleton l p ih => rw [psAfter_snoc, updatePeer_leader, ih]

theorem psAfter_threshold (ps : PeerStatus P) (l : List P) : (psAfter ps l).threshold = ps.threshold := by
  induction l using List.reverseRecOn with
  | nil => rfl
  | append_singleton l p ih => rw [psAfter_snoc, updatePeer_threshold, ih]

theorem psAfter_keys (ps : PeerStatus P) (l : List P) : Map.keys (psAfter ps l).peersResponse = Map.keys ps.peersResponse := by
  induction l using List.reverseRecOn with
  | nil => rfl
  | append_singleton l p ih => rw [psAfter_snoc, updatePeer_keys, ih]

end Verif.Peers
