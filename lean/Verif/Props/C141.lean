import Verif.Model.BatchStart
import Verif.Props.C94

/-! # C141: all local parties of a signing are started, each with its message -/
namespace Verif.Props.BatchStart
open Verif.Go Verif.BatchStart
open Verif.Conversion (hashToInt secp256k1N)

theorem set_append {K V : Type} [DecidableEq K] (m : Map K V) (k : K) (v : V) (h : k ∉ Map.keys m) : Map.set m k v = m ++ [(k, v)] := by
  induction m with
  | nil => rfl
  | cons p m ih =>
    simp only [Map.keys, List.map_cons, List.mem_cons, not_or] at h
    unfold Map.set
    rw [if_neg (fun e => h.1 e.symm), ih h.2, List.cons_append]

theorem fold_set {α K V : Type} [DecidableEq K] (f : α → K) (g : α → V) (l : List α) (m : Map K V) (h : (Map.keys m ++ l.map f).Nodup) :
    l.foldl (fun m x => Map.set m (f x) (g x)) m = m ++ l.map fun x => (f x, g x) := by
  induction l generalizing m with
  | nil => simp
  | cons x l ih =>
    have hx : f x ∉ Map.keys m := by
      intro hm
      have := List.nodup_append.1 h
      exact this.2.2 _ hm _ (by simp) rfl
    rw [List.foldl_cons, set_append _ _ _ hx, ih]
    · simp
    · simpa [Map.keys] using h

theorem partyMap_eq (msgs : List Bytes) : partyMap msgs =
    msgs.zipIdx.map fun x => (toString (hashToInt x.1 secp256k1N) ++ ":" ++ toString x.2, ⟨x.2, hashToInt x.1 secp256k1N⟩) := by
  unfold partyMap
  rw [fold_set]
  · rfl
  · exact SetUp.monikers_nodup msgs

/-- the party of the message at place `i` -/
def partyAt (msgs : List Bytes) (i : Nat) : Party := ⟨i, hashToInt (msgs.getD i []) secp256k1N⟩

theorem parties_eq (msgs : List Bytes) : (partyMap msgs).map Prod.snd = (List.range msgs.length).map (partyAt msgs) := by
  rw [partyMap_eq]
  apply List.ext_getElem
  · simp
  · intro i h1 h2
    simp only [List.length_map, List.length_zipIdx] at h1
    simp [partyAt, h1]

/-- the parties of the messages, for the specification -/
def parties (msgs : List Bytes) : List Party := (List.range msgs.length).map (partyAt msgs)

theorem parties_nodup (msgs : List Bytes) : (parties msgs).Nodup := by
  refine List.Nodup.map ?_ List.nodup_range
  intro i j h
  exact congrArg Party.place h

/-- C141: every message has its own party, under its own moniker, which signs the number of that message; and there are no others. -/
theorem c141_parties (msgs : List Bytes) :
    (∀ i m, msgs[i]? = some m → Map.get (partyMap msgs) (toString (hashToInt m secp256k1N) ++ ":" ++ toString i) = some ⟨i, hashToInt m secp256k1N⟩) ∧
    (partyMap msgs).length = msgs.length ∧ (Map.keys (partyMap msgs)).Nodup ∧ Map.keys (partyMap msgs) = KeySign.monikers msgs := by
  have hk : Map.keys (partyMap msgs) = KeySign.monikers msgs := by
    rw [partyMap_eq]
    simp [Map.keys, KeySign.monikers]
  refine ⟨fun i m h => ?_, by rw [partyMap_eq]; simp, by rw [hk]; exact SetUp.monikers_nodup msgs, hk⟩
  have hwf : Map.WF (partyMap msgs) := by unfold Map.WF; rw [hk]; exact SetUp.monikers_nodup msgs
  apply Map.get_of_mem hwf
  rw [partyMap_eq, List.mem_map]
  exact ⟨(m, i), List.mem_zipIdx_iff_getElem?.2 h, rfl⟩

/-- the invariant of a run -/
structure Inv (n : Nat) (ps : List Party) (s : St) : Prop where
  all : (s.todo ++ (s.running ++ s.ended.map Prod.fst)).Perm ps
  counter : s.counter = n - s.ended.length
  ret : s.ret = s.ended.all Prod.snd
  returned : ∀ b, s.returned = some b → s.todo = [] ∧ s.counter = 0 ∧ b = s.ret
  alive : ps.length ≤ n → s.crashed = false

theorem inv_run (n : Nat) (order : List (String × Party)) (h : List Event) : Inv n (order.map Prod.snd) (run n order h) := by
  induction h using List.reverseRecOn with
  | nil => exact ⟨by simp [run, init], by simp [run, init], rfl, fun b hb => (by cases hb), fun _ => rfl⟩
  | append_singleton h e ih =>
    have hr : run n order (h ++ [e]) = step (run n order h) e := by simp [run]
    rw [hr]
    generalize run n order h = s at ih
    obtain ⟨i1, i2, i3, i4, i5⟩ := ih
    unfold step
    split
    · exact ⟨i1, i2, i3, i4, i5⟩
    cases e with
    | spawn =>
      dsimp only
      split
      · rename_i p t ht
        refine ⟨?_, i2, i3, fun b hb => ?_, i5⟩
        · refine List.Perm.trans ?_ i1
          rw [ht]
          simp only [List.append_assoc, List.cons_append]
          rw [← List.append_assoc]
          refine (List.perm_middle).trans ?_
          simp
        · obtain ⟨h1, -⟩ := i4 b hb
          rw [ht] at h1
          cases h1
      · exact ⟨i1, i2, i3, i4, i5⟩
    | ends p ok =>
      dsimp only
      split
      · rename_i hp
        have hlen := i1.length_eq
        simp only [List.length_append, List.length_map] at hlen
        have hpos : 0 < s.running.length := List.length_pos_of_mem hp
        split
        · rename_i hc
          refine ⟨i1, i2, i3, i4, fun hn => ?_⟩
          exfalso
          simp only [List.length_map] at hlen hn
          omega
        · refine ⟨?_, ?_, ?_, fun b hb => ?_, i5⟩
          · refine List.Perm.trans ?_ i1
            refine List.Perm.append_left _ ?_
            simp only [List.map_append, List.map_cons, List.map_nil]
            rw [← List.append_assoc]
            refine (List.perm_append_singleton _ _).trans ?_
            rw [← List.cons_append]
            exact (List.perm_cons_erase hp).symm.append_right _
          · simp only [List.length_append, List.length_singleton]
            omega
          · simp only [List.all_append, i3, List.all_cons, List.all_nil, Bool.and_true]
          · obtain ⟨h1, h2, h3⟩ := i4 b hb
            rename_i hc
            exfalso; omega
      · exact ⟨i1, i2, i3, i4, i5⟩
    | wait =>
      dsimp only
      split
      · rename_i hw
        refine ⟨i1, i2, i3, fun b hb => ?_, i5⟩
        injection hb with hb
        exact ⟨hw.1, hw.2.1, hb.symm⟩
      · exact ⟨i1, i2, i3, i4, i5⟩

section
variable (msgs : List Bytes) (order : List (String × Party)) (ho : order.Perm (partyMap msgs)) (h : List Event)

include ho in
theorem order_parties : (order.map Prod.snd).Perm (parties msgs) := by
  rw [show parties msgs = _ from (parties_eq msgs).symm]
  exact ho.map _

/-- C141: the start returns only after the `Start` of every message's party has ended, of each exactly once, and returns true exactly if none failed.
It does not panic. -/
theorem c141_returned (hn : order.Perm (partyMap msgs)) :
    (run msgs.length order h).crashed = false ∧
    ∀ b, (run msgs.length order h).returned = some b →
      ((run msgs.length order h).ended.map Prod.fst).Perm (parties msgs) ∧
      (b = true ↔ ∀ x ∈ (run msgs.length order h).ended, x.2 = true) := by
  have hi := inv_run msgs.length order h
  have hp := order_parties msgs order hn
  have hl : (order.map Prod.snd).length = msgs.length := by rw [hp.length_eq]; simp [parties]
  refine ⟨hi.alive hl.le, fun b hb => ?_⟩
  obtain ⟨h1, h2, h3⟩ := hi.returned b hb
  have hlen := hi.all.length_eq
  have hc := hi.counter
  have hall := hi.all
  rw [h1] at hall hlen
  simp only [List.nil_append, List.length_append, List.length_map] at hlen hl
  have hr : (run msgs.length order h).running = [] := List.length_eq_zero_iff.1 (by omega)
  rw [hr] at hall
  refine ⟨hall.trans hp, ?_⟩
  rw [h3, hi.ret, List.all_eq_true]

/-- C141: once the `Start` of all parties has ended the call returns. -/
theorem c141_returns (hn : order.Perm (partyMap msgs)) (hall : (run msgs.length order h).ended.length = msgs.length) :
    (run msgs.length order (h ++ [.wait])).returned ≠ none := by
  have hi := inv_run msgs.length order h
  have hp := order_parties msgs order hn
  have hl : (order.map Prod.snd).length = msgs.length := by rw [hp.length_eq]; simp [parties]
  have hlen := hi.all.length_eq
  have hc := hi.counter
  simp only [List.length_append, List.length_map] at hlen hl
  have ht : (run msgs.length order h).todo = [] := List.length_eq_zero_iff.1 (by omega)
  have hr : run msgs.length order (h ++ [.wait]) = step (run msgs.length order h) .wait := by simp [run]
  rw [hr]
  unfold step
  rw [if_neg (by simp [hi.alive (by simp [hl])])]
  dsimp only
  cases hx : (run msgs.length order h).returned with
  | none => rw [if_pos ⟨ht, by omega, rfl⟩]; simp
  | some b => rw [if_neg (by simp)]; rw [hx]; simp

/-- C141: every party gets its turn: from every state, as long as a party has not ended, the loop can visit one or the `Start` of one can end. -/
theorem c141_turn (hn : order.Perm (partyMap msgs)) (hless : (run msgs.length order h).ended.length < msgs.length) :
    (run msgs.length order h).todo ≠ [] ∨ ∃ p ∈ (run msgs.length order h).running,
      ∀ ok, (run msgs.length order (h ++ [.ends p ok])).ended = (run msgs.length order h).ended ++ [(p, ok)] := by
  have hi := inv_run msgs.length order h
  have hp := order_parties msgs order hn
  have hl : (order.map Prod.snd).length = msgs.length := by rw [hp.length_eq]; simp [parties]
  have hlen := hi.all.length_eq
  have hc := hi.counter
  simp only [List.length_append, List.length_map] at hlen hl
  by_cases ht : (run msgs.length order h).todo = []
  · right
    rw [ht] at hlen
    simp only [List.length_nil] at hlen
    obtain ⟨p, hpm⟩ := List.exists_mem_of_length_pos (l := (run msgs.length order h).running) (by omega)
    refine ⟨p, hpm, fun ok => ?_⟩
    have hr : run msgs.length order (h ++ [.ends p ok]) = step (run msgs.length order h) (.ends p ok) := by simp [run]
    rw [hr]
    unfold step
    rw [if_neg (by simp [hi.alive (by simp [hl])])]
    dsimp only
    rw [if_pos hpm, if_neg (by omega)]
  · exact .inl ht

end

/-- C141: the monikers have to be different. Were there fewer parties in the map than messages (say because the place is left out of the moniker and a
message occurs twice), the call would never return. -/
theorem c141_needs_monikers (n : Nat) (order : List (String × Party)) (hn : order.length < n) (h : List Event) : (run n order h).returned = none := by
  have hi := inv_run n order h
  cases hx : (run n order h).returned with
  | none => rfl
  | some b =>
    obtain ⟨-, h2, -⟩ := hi.returned b hx
    have hlen := hi.all.length_eq
    have hc := hi.counter
    simp only [List.length_append, List.length_map] at hlen
    omega

/-! ## a case -/

/-- two equal messages and a third: three parties; the second fails to start -/
example : (partyMap [[7], [7], [9]]).length = 3 ∧
    (run 3 (partyMap [[7], [7], [9]]) [.spawn, .spawn, .ends ⟨1, 7⟩ false, .wait, .spawn, .ends ⟨2, 9⟩ true, .wait, .ends ⟨0, 7⟩ true]).returned = none ∧
    (run 3 (partyMap [[7], [7], [9]]) [.spawn, .spawn, .ends ⟨1, 7⟩ false, .wait, .spawn, .ends ⟨2, 9⟩ true, .wait, .ends ⟨0, 7⟩ true, .wait]).returned = some false ∧
    (run 3 (partyMap [[7], [7], [9]]).reverse [.spawn, .spawn, .spawn, .ends ⟨1, 7⟩ true, .ends ⟨2, 9⟩ true, .ends ⟨0, 7⟩ true, .wait]).returned = some true := by
  decide +kernel

end Verif.Props.BatchStart
