import Verif.Props.C38_C41

/-!
# C42 missing shares, C43 blame records, C44 wrong shares
-/
set_option linter.unusedSectionVars false
namespace Verif.Props.Shares
open Verif.Go Verif.Conversion Verif.Messages Verif.Blame Verif.Spec Verif.Props.Timeouts

variable {K P : Type} [DecidableEq K] [DecidableEq P]

/-! ## C42 -/

/-- Specification: the ids of the members whose share of round `j` of message `g` was accepted -/
def acceptedAt (acc : Map RoundInfo (List Nat)) (g : String) (j : Nat) : List Nat :=
  match acc.find? (fun e => e.1.msgIdentifier = g ∧ e.1.index = j) with
  | some e => e.2
  | none => []

/-- one accepted-shares entry for a round of a message, with a round number of the protocol -/
structure Regular (acc : Map RoundInfo (List Nat)) (rounds : Nat) : Prop where
  wf : Map.WF acc
  range : ∀ ri ∈ Map.keys acc, ri.index < rounds
  one : ∀ r1 ∈ Map.keys acc, ∀ r2 ∈ Map.keys acc, r1.msgIdentifier = r2.msgIdentifier → r1.index = r2.index → r1 = r2

theorem acceptedAt_of_mem {acc : Map RoundInfo (List Nat)} {rounds : Nat} (h : Regular acc rounds) {ri : RoundInfo} {v : List Nat}
    (hm : (ri, v) ∈ acc) : acceptedAt acc ri.msgIdentifier ri.index = v := by
  unfold acceptedAt
  rcases hf : acc.find? (fun e => decide (e.1.msgIdentifier = ri.msgIdentifier ∧ e.1.index = ri.index)) with _ | e
  · rw [List.find?_eq_none] at hf
    exact absurd (hf _ hm) (by simp)
  · have h1 := List.find?_some hf
    have h2 := List.mem_of_find?_eq_some hf
    simp only [decide_eq_true_eq] at h1
    have hk : e.1 ∈ Map.keys acc := List.mem_map.2 ⟨e, h2, rfl⟩
    have hk' : ri ∈ Map.keys acc := List.mem_map.2 ⟨_, hm, rfl⟩
    have he := h.one _ hk _ hk' h1.1 h1.2
    have g1 := Map.get_of_mem h.wf hm
    have g2 : Map.get acc e.1 = some e.2 := Map.get_of_mem h.wf (by exact h2)
    rw [he, g1] at g2
    simp at g2
    rw [g2, hf]

theorem acceptedAt_of_not {acc : Map RoundInfo (List Nat)} {g : String} {j : Nat}
    (h : ∀ ri ∈ Map.keys acc, ¬ (ri.msgIdentifier = g ∧ ri.index = j)) : acceptedAt acc g j = [] := by
  unfold acceptedAt
  have : acc.find? (fun e => decide (e.1.msgIdentifier = g ∧ e.1.index = j)) = none := by
    rw [List.find?_eq_none]; intro e he; simpa using h e.1 (List.mem_map.2 ⟨e, he, rfl⟩)
  rw [this]

/-- the table of a message in the grouping: one list per round -/
def Table (rounds : Nat) (acc : List (RoundInfo × List Nat)) (g : String) (t : List (List Nat)) : Prop :=
  t.length = rounds ∧ ∀ j < rounds, ∀ l, t[j]? = some l →
    ((∀ e ∈ acc, ¬ (e.1.msgIdentifier = g ∧ e.1.index = j)) ∧ l = []) ∨
    (∃ e ∈ acc, e.1.msgIdentifier = g ∧ e.1.index = j ∧ l = e.2)

theorem groupShares_spec (rounds : Nat) (todo : List (RoundInfo × List Nat)) :
    ∀ (done : List (RoundInfo × List Nat)) (groups : Map String (List (List Nat))),
      (∀ e ∈ todo, e.1.index < rounds) → Map.WF groups →
      (∀ g t, Map.get groups g = some t → Table rounds done g t) →
      (∀ g, g ∈ Map.keys groups ↔ ∃ e ∈ done, e.1.msgIdentifier = g) →
      ∃ gs, groupShares rounds todo groups = .ok gs ∧ Map.WF gs ∧
        (∀ g t, Map.get gs g = some t → Table rounds (done ++ todo) g t) ∧
        (∀ g, g ∈ Map.keys gs ↔ ∃ e ∈ done ++ todo, e.1.msgIdentifier = g) := by
  induction todo with
  | nil => intro done groups _ hwf h1 h2; exact ⟨groups, rfl, hwf, by simpa using h1, by simpa using h2⟩
  | cons e todo ih =>
    obtain ⟨ri, v⟩ := e
    intro done groups hr hwf h1 h2
    have hlt : ri.index < rounds := hr (ri, v) (by simp)
    simp only [groupShares, if_pos hlt]
    have := ih (done ++ [(ri, v)])
      (Map.set groups ri.msgIdentifier (((Map.get groups ri.msgIdentifier).getD (List.replicate rounds [])).set ri.index v))
      (fun e he => hr e (by simp [he])) (Map.WF_set hwf _ _) ?_ ?_
    · simpa using this
    · intro g t ht
      rw [Map.get_set] at ht
      split at ht
      · rename_i hg
        subst hg
        cases ht
        have hold : Table rounds done ri.msgIdentifier ((Map.get groups ri.msgIdentifier).getD (List.replicate rounds [])) := by
          rcases hgg : Map.get groups ri.msgIdentifier with _ | t0
          · refine ⟨by simp, ?_⟩
            intro j hj l hl
            left
            have hno : ri.msgIdentifier ∉ Map.keys groups := (Map.get_eq_none_iff _ _).1 hgg
            rw [h2] at hno
            refine ⟨fun e he hh => hno ⟨e, he, hh.1⟩, ?_⟩
            simp [hj] at hl
            exact hl
          · exact h1 _ _ hgg
        refine ⟨by simpa using hold.1, ?_⟩
        intro j hj l hl
        rw [List.getElem?_set] at hl
        split at hl
        · rename_i hij
          right
          refine ⟨(ri, v), by simp, rfl, hij, ?_⟩
          split at hl
          · cases hl; rfl
          · cases hl
        · rename_i hij
          rcases hold.2 j hj l hl with ⟨h3, h4⟩ | ⟨e, h3, h4⟩
          · left
            refine ⟨?_, h4⟩
            intro e he hh
            rcases List.mem_append.1 he with he | he
            · exact h3 e he hh
            · simp at he; subst he; exact hij hh.2
          · right; exact ⟨e, by simp [h3], h4⟩
      · rename_i hg
        have hold := h1 g t ht
        refine ⟨hold.1, ?_⟩
        intro j hj l hl
        rcases hold.2 j hj l hl with ⟨h3, h4⟩ | ⟨e, h3, h4⟩
        · left
          refine ⟨?_, h4⟩
          intro e he hh
          rcases List.mem_append.1 he with he | he
          · exact h3 e he hh
          · simp at he; subst he; exact hg hh.1.symm
        · right; exact ⟨e, by simp [h3], h4⟩
    · intro g
      rw [Map.mem_keys_set, h2]
      constructor
      · rintro (rfl | ⟨e, he, hh⟩)
        · exact ⟨(ri, v), by simp, rfl⟩
        · exact ⟨e, by simp [he], hh⟩
      · rintro ⟨e, he, hh⟩
        rcases List.mem_append.1 he with he | he
        · exact Or.inr ⟨e, he, hh⟩
        · simp at he; subst he; exact Or.inl hh.symm

/-- the grouping holds, for every message, the accepted ids of every round -/
theorem groupShares_regular (rounds : Nat) (acc : Map RoundInfo (List Nat)) (h : Regular acc rounds)
    (σ : Shuffle (RoundInfo × List Nat)) :
    ∃ gs, groupShares rounds (σ.f acc) [] = .ok gs ∧ Map.WF gs ∧
      (∀ g t, Map.get gs g = some t → t = (List.range rounds).map (acceptedAt acc g)) ∧
      (∀ g, g ∈ Map.keys gs ↔ ∃ ri ∈ Map.keys acc, ri.msgIdentifier = g) := by
  have hin : ∀ e, e ∈ σ.f acc ↔ e ∈ acc := fun e => σ.mem
  obtain ⟨gs, h1, h2, h3, h4⟩ := groupShares_spec rounds (σ.f acc) [] []
    (fun e he => h.range _ (List.mem_map.2 ⟨e, (hin e).1 he, rfl⟩)) Map.WF_nil (by simp) (by simp)
  refine ⟨gs, h1, h2, ?_, ?_⟩
  · intro g t ht
    obtain ⟨hl, ht⟩ := h3 g t ht
    apply List.ext_getElem?
    intro j
    by_cases hj : j < rounds
    · have hjt : j < t.length := by omega
      have he : t[j]? = some t[j] := List.getElem?_eq_getElem hjt
      rw [List.getElem?_map, List.getElem?_range hj]
      rw [he]
      simp only [Option.map_some, Option.some.injEq]
      rcases ht j hj _ he with ⟨h5, h6⟩ | ⟨e, h5, h6, h7, h8⟩
      · rw [h6]
        symm
        apply acceptedAt_of_not
        intro ri hri hh
        obtain ⟨e, he, rfl⟩ := List.mem_map.1 hri
        exact h5 e (by simpa [hin] using he) hh
      · rw [h8]
        subst h6; subst h7
        symm
        apply acceptedAt_of_mem h
        simpa [hin] using h5
    · rw [List.getElem?_eq_none (by omega), List.getElem?_eq_none (by simpa using hj)]
  · intro g
    rw [h4]
    simp only [List.nil_append, hin, Map.keys, List.mem_map]
    constructor
    · rintro ⟨e, he, hg⟩; exact ⟨e.1, ⟨e, he, rfl⟩, hg⟩
    · rintro ⟨ri, ⟨e, he, rfl⟩, hg⟩; exact ⟨e, he, hg⟩

/-- Specification: `j` is the first round of message `g` in which not all others' shares were accepted -/
def FirstIncomplete (acc : Map RoundInfo (List Nat)) (n rounds : Nat) (g : String) (j : Nat) : Prop :=
  j < rounds ∧ (acceptedAt acc g j).length + 1 ≠ n ∧ ∀ i < j, (acceptedAt acc g i).length + 1 = n

theorem firstMissing_spec (n : Nat) (f : Nat → List Nat) (len start : Nat) :
    (∃ j, j < len ∧ (f (start + j)).length + 1 ≠ n ∧ (∀ i < j, (f (start + i)).length + 1 = n) ∧
      firstMissing n start ((List.range' start len).map f) = some (start + j, f (start + j))) ∨
    ((∀ j < len, (f (start + j)).length + 1 = n) ∧ firstMissing n start ((List.range' start len).map f) = none) := by
  induction len generalizing start with
  | zero => right; simp [firstMissing]
  | succ len ih =>
    rw [List.range'_succ, List.map_cons]
    by_cases h0 : (f start).length + 1 = n
    · simp only [firstMissing, if_pos h0]
      rcases ih (start + 1) with ⟨j, h1, h2, h3, h4⟩ | ⟨h1, h2⟩
      · left
        refine ⟨j + 1, by omega, ?_, ?_, ?_⟩
        · rw [show start + (j + 1) = start + 1 + j by omega]; exact h2
        · intro i hi
          cases i with
          | zero => simpa using h0
          | succ i => rw [show start + (i + 1) = start + 1 + i by omega]; exact h3 i (by omega)
        · rw [show start + (j + 1) = start + 1 + j by omega]; exact h4
      · right
        refine ⟨?_, h2⟩
        intro j hj
        cases j with
        | zero => simpa using h0
        | succ j => rw [show start + (j + 1) = start + 1 + j by omega]; exact h1 j (by omega)
    · left
      refine ⟨0, by omega, by simpa using h0, by simp, ?_⟩
      simp [firstMissing, h0]

theorem firstMissing_regular (acc : Map RoundInfo (List Nat)) (n rounds : Nat) (g : String) :
    (∃ j, FirstIncomplete acc n rounds g j ∧
      firstMissing n 0 ((List.range rounds).map (acceptedAt acc g)) = some (j, acceptedAt acc g j)) ∨
    ((∀ j < rounds, (acceptedAt acc g j).length + 1 = n) ∧
      firstMissing n 0 ((List.range rounds).map (acceptedAt acc g)) = none) := by
  have h := firstMissing_spec n (acceptedAt acc g) rounds 0
  rw [← List.range_eq_range'] at h
  simp only [Nat.zero_add] at h
  rcases h with ⟨j, h1, h2, h3, h4⟩ | h
  · exact Or.inl ⟨j, ⟨h1, h2, h3⟩, h4⟩
  · exact Or.inr h

theorem firstIncomplete_unique {acc : Map RoundInfo (List Nat)} {n rounds : Nat} {g : String} {i j : Nat}
    (hi : FirstIncomplete acc n rounds g i) (hj : FirstIncomplete acc n rounds g j) : i = j := by
  rcases Nat.lt_trichotomy i j with h | h | h
  · exact absurd (hj.2.2 i h) hi.2.1
  · exact h
  · exact absurd (hi.2.2 j h) hj.2.1

/-- the peers of a list of members: a member is named by its own peer only -/
theorem peer_listed {c : Codec K P} {m : Manager K P} (hc : Committee c m) {i : Nat} {p : P}
    (hp : Map.get m.partyIDtoP2PID i = some p) (l : List Nat) :
    some p ∈ l.map (fun pid => Map.get m.partyIDtoP2PID pid) ↔ i ∈ l := by
  simp only [List.mem_map]
  constructor
  · rintro ⟨j, hj, hh⟩; exact hc.inj i j p hp hh ▸ hj
  · intro hi; exact ⟨i, hi, hp⟩

/-- C42, for a session with a single message (every key generation, and signing one message), for all visiting orders:
exactly the members other than the local one whose share was not accepted in the first incomplete round are blamed, and the
unicast flag is set exactly if that round is the second message of key generation or one of the first five messages of signing. The
property as stated fails with several messages, see below. -/
theorem c42_single_message_partial (c : Codec K P) (m : Manager K P) (hc : Committee c m) (rounds : Nat)
    (hreg : Regular m.acceptedShares rounds) (g : String) (hne : m.acceptedShares ≠ [])
    (hone : ∀ ri ∈ Map.keys m.acceptedShares, ri.msgIdentifier = g) (j : Nat)
    (hj : FirstIncomplete m.acceptedShares m.partyIDtoP2PID.length rounds g j)
    (σ₁ : Shuffle (RoundInfo × List Nat)) (σ₂ : Shuffle (String × List (List Nat))) (σ : Nat → Shuffle (Nat × P)) :
    ∃ ids ks flag, m.tssMissingShareBlame c rounds σ₁ σ₂ σ = .ok (plainNodes ks, flag) ∧ ids.Nodup ∧
      Names c m.partyIDMap ids ks ∧ (flag = true ↔ (rounds = 4 ∧ j = 1) ∨ (rounds = 8 ∧ j ≤ 4)) ∧
      ∀ i, i ∈ ids ↔ i ∈ Map.keys m.partyIDMap ∧ i ≠ m.localPartyID ∧ i ∉ acceptedAt m.acceptedShares g j := by
  obtain ⟨gs, h1, h2, h3, h4⟩ := groupShares_regular rounds m.acceptedShares hreg σ₁
  have hkeys : ∀ x, x ∈ Map.keys gs ↔ x = g := by
    intro x
    rw [h4]
    constructor
    · rintro ⟨ri, hri, rfl⟩; exact hone ri hri
    · rintro rfl
      obtain ⟨e, he⟩ := List.exists_mem_of_ne_nil _ hne
      have : e.1 ∈ Map.keys m.acceptedShares := List.mem_map.2 ⟨e, he, rfl⟩
      exact ⟨e.1, this, hone _ this⟩
  have hgs : ∃ t, gs = [(g, t)] := by
    match gs, h2, hkeys with
    | [], _, hk => exact absurd ((hk g).2 rfl) (by simp)
    | [(a, t)], _, hk => exact ⟨t, by rw [(hk a).1 (by simp)]⟩
    | (a, _) :: (b, _) :: _, hwf, hk =>
      have ha := (hk a).1 (by simp)
      have hb := (hk b).1 (by simp)
      subst ha
      rw [Map.WF_cons] at hwf
      exact absurd (by simp [hb]) hwf.1
  obtain ⟨t, rfl⟩ := hgs
  have ht := h3 g t (by simp [Map.get])
  have hord : σ₂.f [(g, t)] = [(g, t)] := List.perm_singleton.1 (σ₂.perm _)
  have hfm : firstMissing m.partyIDtoP2PID.length 0 t = some (j, acceptedAt m.acceptedShares g j) := by
    rw [ht]
    rcases firstMissing_regular m.acceptedShares m.partyIDtoP2PID.length rounds g with ⟨j', hj', he⟩ | ⟨hall, _⟩
    · rw [firstIncomplete_unique hj hj']; exact he
    · exact absurd (hall j hj.1) hj.2.1
  obtain ⟨ids, ks, g1, g2, g3, g4⟩ := notInList_spec c m hc (σ 0)
    ((acceptedAt m.acceptedShares g j ++ [m.localPartyID]).map (fun pid => Map.get m.partyIDtoP2PID pid))
  refine ⟨ids, ks, missingUnicast rounds j, ?_, g2, g3, ?_, ?_⟩
  · simp only [Manager.tssMissingShareBlame, h1, Res.bind_ok, hord, missingLoop, hfm, List.nil_append, g1, Bool.false_or]
  · unfold missingUnicast TSSKEYGENROUNDS TSSKEYSIGNROUNDS; rw [Bool.or_eq_true, Bool.and_eq_true, Bool.and_eq_true]; simp only [decide_eq_true_eq, Nat.lt_succ_iff]
  · intro i
    rw [g4]
    constructor
    · rintro ⟨hne, p, hp, hnot⟩
      refine ⟨(hc.same i).1 ((Map.get_isSome_iff _ _).1 (by rw [hp]; rfl)), hne, ?_⟩
      intro hin
      exact hnot ((peer_listed hc hp _).2 (by simp [hin]))
    · rintro ⟨hin, hne, hnot⟩
      obtain ⟨p, hp⟩ := Option.isSome_iff_exists.1 ((Map.get_isSome_iff m.partyIDtoP2PID i).2 ((hc.same i).2 hin))
      refine ⟨hne, p, hp, ?_⟩
      rw [peer_listed hc hp]
      simp [hnot, hne]

/-- C42 with any number of messages, all of them with an incomplete round: whoever is blamed did miss its share in the first
incomplete round of some message (but not everybody who did is blamed, see `c42_overlooks_culprit`), and the unicast flag is set exactly
if the first incomplete round of some message is one of unicast messages. -/
theorem c42_blamed_missed_partial (c : Codec K P) (m : Manager K P) (hc : Committee c m) (rounds : Nat)
    (hreg : Regular m.acceptedShares rounds)
    (hinc : ∀ ri ∈ Map.keys m.acceptedShares, ∃ j, FirstIncomplete m.acceptedShares m.partyIDtoP2PID.length rounds ri.msgIdentifier j)
    (σ₁ : Shuffle (RoundInfo × List Nat)) (σ₂ : Shuffle (String × List (List Nat))) (σ : Nat → Shuffle (Nat × P)) :
    ∃ ids ks flag, m.tssMissingShareBlame c rounds σ₁ σ₂ σ = .ok (plainNodes ks, flag) ∧ Names c m.partyIDMap ids ks ∧
      (flag = true ↔ ∃ ri ∈ Map.keys m.acceptedShares, ∃ j,
        FirstIncomplete m.acceptedShares m.partyIDtoP2PID.length rounds ri.msgIdentifier j ∧ ((rounds = 4 ∧ j = 1) ∨ (rounds = 8 ∧ j ≤ 4))) ∧
      ∀ i ∈ ids, i ≠ m.localPartyID ∧ ∃ ri ∈ Map.keys m.acceptedShares, ∃ j,
        FirstIncomplete m.acceptedShares m.partyIDtoP2PID.length rounds ri.msgIdentifier j ∧
        i ∉ acceptedAt m.acceptedShares ri.msgIdentifier j := by
  obtain ⟨gs, h1, h2, h3, h4⟩ := groupShares_regular rounds m.acceptedShares hreg σ₁
  have loop : ∀ (l : List (String × List (List Nat))) (k : Nat) (peers : List (Option P)) (nodes : List (Node K)) (fl : Bool)
      (ids0 : List Nat) (ks0 : List K), (∀ e ∈ l, e ∈ gs) → nodes = plainNodes ks0 → Names c m.partyIDMap ids0 ks0 →
      (∀ i ∈ ids0, i ≠ m.localPartyID ∧ ∃ ri ∈ Map.keys m.acceptedShares, ∃ j,
        FirstIncomplete m.acceptedShares m.partyIDtoP2PID.length rounds ri.msgIdentifier j ∧
        i ∉ acceptedAt m.acceptedShares ri.msgIdentifier j) →
      ∃ ids ks flag, missingLoop c m rounds σ k l peers nodes fl = .ok (plainNodes ks, flag) ∧ Names c m.partyIDMap ids ks ∧
        (flag = true ↔ fl = true ∨ ∃ g ∈ l.map Prod.fst, ∃ j, FirstIncomplete m.acceptedShares m.partyIDtoP2PID.length rounds g j ∧
          ((rounds = 4 ∧ j = 1) ∨ (rounds = 8 ∧ j ≤ 4))) ∧
        ∀ i ∈ ids, i ≠ m.localPartyID ∧ ∃ ri ∈ Map.keys m.acceptedShares, ∃ j,
          FirstIncomplete m.acceptedShares m.partyIDtoP2PID.length rounds ri.msgIdentifier j ∧
          i ∉ acceptedAt m.acceptedShares ri.msgIdentifier j := by
    intro l
    induction l with
    | nil => intro k peers nodes fl ids0 ks0 _ hn hk hi; exact ⟨ids0, ks0, fl, by simp [missingLoop, hn], hk, by simp, hi⟩
    | cons e l ih =>
      intro k peers nodes fl ids0 ks0 hsub hn hk hi
      obtain ⟨g, t⟩ := e
      have hg : Map.get gs g = some t := Map.get_of_mem h2 (hsub _ (by simp))
      have ht := h3 g t hg
      obtain ⟨ri, hri, hrg⟩ := (h4 g).1 ((Map.get_isSome_iff _ _).1 (by rw [hg]; rfl))
      obtain ⟨j, hj⟩ := hinc ri hri
      rw [hrg] at hj
      have hfm : firstMissing m.partyIDtoP2PID.length 0 t = some (j, acceptedAt m.acceptedShares g j) := by
        rw [ht]
        rcases firstMissing_regular m.acceptedShares m.partyIDtoP2PID.length rounds g with ⟨j', hj', he⟩ | ⟨hall, _⟩
        · rw [firstIncomplete_unique hj hj']; exact he
        · exact absurd (hall j hj.1) hj.2.1
      obtain ⟨ids, ks, g1, g2, g3, g4⟩ := notInList_spec c m hc (σ k)
        (peers ++ (acceptedAt m.acceptedShares g j ++ [m.localPartyID]).map (fun pid => Map.get m.partyIDtoP2PID pid))
      simp only [missingLoop, hfm, g1, Res.bind_ok]
      have hmu : missingUnicast rounds j = true ↔ (rounds = 4 ∧ j = 1) ∨ (rounds = 8 ∧ j ≤ 4) := by
        unfold missingUnicast TSSKEYGENROUNDS TSSKEYSIGNROUNDS; rw [Bool.or_eq_true, Bool.and_eq_true, Bool.and_eq_true]; simp only [decide_eq_true_eq, Nat.lt_succ_iff]
      suffices hi2 : ∀ i ∈ ids0 ++ ids, i ≠ m.localPartyID ∧ ∃ ri ∈ Map.keys m.acceptedShares, ∃ j,
          FirstIncomplete m.acceptedShares m.partyIDtoP2PID.length rounds ri.msgIdentifier j ∧
          i ∉ acceptedAt m.acceptedShares ri.msgIdentifier j by
        obtain ⟨ids', ks', flag, f1, f2, f3, f4⟩ := ih (k + 1)
          (peers ++ (acceptedAt m.acceptedShares g j ++ [m.localPartyID]).map (fun pid => Map.get m.partyIDtoP2PID pid)) (nodes ++ plainNodes ks)
          (fl || missingUnicast rounds j) (ids0 ++ ids) (ks0 ++ ks) (fun e he => hsub e (by simp [he])) (by simp [hn, plainNodes])
          (List.rel_append hk g3) hi2
        refine ⟨ids', ks', flag, f1, f2, ?_, f4⟩
        rw [f3, Bool.or_eq_true, hmu, or_assoc]
        apply or_congr Iff.rfl
        simp only [List.map_cons, List.mem_cons, exists_eq_or_imp]
        apply or_congr _ Iff.rfl
        constructor
        · intro h; exact ⟨j, hj, h⟩
        · rintro ⟨j', hj', h⟩; rw [firstIncomplete_unique hj hj']; exact h
      · intro i hi'
        rcases List.mem_append.1 hi' with hi' | hi'
        · exact hi i hi'
        · obtain ⟨hne, p, hp, hnot⟩ := (g4 i).1 hi'
          refine ⟨hne, ri, hri, j, by rw [hrg]; exact hj, ?_⟩
          rw [hrg]
          intro hin
          apply hnot
          rw [List.mem_append]
          right
          exact (peer_listed hc hp _).2 (by simp [hin])
  obtain ⟨ids, ks, flag, l1, l2, l3, l4⟩ := loop (σ₂.f gs) 0 [] [] false [] [] (fun e he => (σ₂.mem).1 he) rfl List.Forall₂.nil (by simp)
  refine ⟨ids, ks, flag, by simpa [Manager.tssMissingShareBlame, h1] using l1, l2, ?_, l4⟩
  rw [l3]
  simp only [Bool.false_eq_true, false_or]
  have hmem : ∀ g, g ∈ (σ₂.f gs).map Prod.fst ↔ g ∈ Map.keys gs := fun g => ((σ₂.perm gs).map Prod.fst).mem_iff
  constructor
  · rintro ⟨g, hg, j, hj, h⟩
    obtain ⟨ri, hri, rfl⟩ := (h4 g).1 ((hmem g).1 hg)
    exact ⟨ri, hri, j, hj, h⟩
  · rintro ⟨ri, hri, j, hj, h⟩
    exact ⟨ri.msgIdentifier, (hmem _).2 ((h4 _).2 ⟨ri, hri, rfl⟩), j, hj, h⟩

/-- a manager of the demo committee (local node 0) with accepted shares -/
def withShares (acc : Map RoundInfo (List Nat)) : Manager Nat Nat := { demoManager 0 with acceptedShares := acc }

/-- C42 fails with two messages: member 3 did not deliver its share for the second message but is not blamed, because it
delivered the share for the first one (for this visiting order). -/
theorem c42_overlooks_culprit :
    let m := withShares [(⟨0, "r", "a"⟩, [1, 3]), (⟨0, "r", "b"⟩, [1, 2])]
    m.tssMissingShareBlame demoCodec 8 (Shuffle.id _) (Shuffle.id _) (fun _ => Shuffle.id _) = .ok ([⟨22, [], []⟩], true) ∧
    3 ∉ acceptedAt m.acceptedShares "b" 0 := by decide

/-- C42 fails with two messages: the order in which the map is visited changes who is blamed. -/
theorem c42_order_dependent :
    let m := withShares [(⟨0, "r", "a"⟩, [1, 3]), (⟨0, "r", "b"⟩, [1, 2])]
    m.tssMissingShareBlame demoCodec 8 (Shuffle.id _) (Shuffle.id _) (fun _ => Shuffle.id _) ≠
    m.tssMissingShareBlame demoCodec 8 (Shuffle.id _) (Shuffle.rev _) (fun _ => Shuffle.id _) := by decide

/-- C42 fails when nothing is missing: everybody else is blamed. -/
theorem c42_complete_blames_all :
    (withShares [(⟨0, "r", ""⟩, [1, 2, 3]), (⟨1, "s", ""⟩, [1, 2, 3])]).tssMissingShareBlame demoCodec 2
      (Shuffle.id _) (Shuffle.id _) (fun _ => Shuffle.id _) = .ok ([⟨21, [], []⟩, ⟨22, [], []⟩, ⟨23, [], []⟩], false) := by
  decide

/-- C42 fails when a share with a round number of the other protocol was accepted: the call panics. -/
theorem c42_foreign_round_panics (c : Codec K P) (m : Manager K P) (rounds : Nat) (ri : RoundInfo) (v : List Nat)
    (h : Map.get m.acceptedShares ri = some v) (hr : rounds ≤ ri.index)
    (σ₁ : Shuffle (RoundInfo × List Nat)) (σ₂ : Shuffle (String × List (List Nat))) (σ : Nat → Shuffle (Nat × P)) :
    m.tssMissingShareBlame c rounds σ₁ σ₂ σ = .panic := by
  have key : ∀ (l : List (RoundInfo × List Nat)) (acc : Map String (List (List Nat))), (ri, v) ∈ l →
      groupShares rounds l acc = .panic := by
    intro l
    induction l with
    | nil => simp
    | cons e l ih =>
      intro acc he
      obtain ⟨r, w⟩ := e
      by_cases hlt : r.index < rounds
      · simp only [groupShares, if_pos hlt]
        apply ih
        rcases List.mem_cons.1 he with h1 | h1
        · cases h1; omega
        · exact h1
      · simp [groupShares, hlt]
  simp [Manager.tssMissingShareBlame, key _ [] ((σ₁.mem).2 (Map.mem_of_get h))]

/-- C42: a case meeting the hypotheses of the single-message theorem: member 2's share of the second round is missing. -/
example : (withShares [(⟨0, "r", ""⟩, [1, 2, 3]), (⟨1, "s", ""⟩, [3, 1])]).tssMissingShareBlame demoCodec 4
    (Shuffle.id _) (Shuffle.id _) (fun _ => Shuffle.id _) = .ok ([⟨22, [], []⟩], true) := by decide

example : Regular (withShares [(⟨0, "r", ""⟩, [1, 2, 3]), (⟨1, "s", ""⟩, [3, 1])]).acceptedShares 4 ∧
    FirstIncomplete (withShares [(⟨0, "r", ""⟩, [1, 2, 3]), (⟨1, "s", ""⟩, [3, 1])]).acceptedShares 4 4 "" 1 := by
  refine ⟨⟨?_, ?_, ?_⟩, ?_⟩
  · show (Map.keys _).Nodup; decide
  · decide
  · decide
  · exact ⟨by decide, by decide, by decide⟩

/-! ## C43 -/

theorem equal_iff (a b : Node K) : a.equal b = true ↔ a.pubkey = b.pubkey ∧ a.sig = b.sig := by
  simp [Node.equal]

/-- C43: adding nodes, in any number of calls, keeps the entries that were there, in front; has an entry with the pub key and
signature of every added node; and never makes a second entry with the same pub key and signature. -/
theorem c43_add_blame_nodes (b : Blame K) (calls : List (List (Node K))) :
    let b' := calls.foldl Blame.addBlameNodes b
    (∃ new, b'.nodes = b.nodes ++ new ∧ ∀ n ∈ new, ∃ call ∈ calls, n ∈ call) ∧
    (∀ call ∈ calls, ∀ n ∈ call, ∃ n' ∈ b'.nodes, n'.pubkey = n.pubkey ∧ n'.sig = n.sig) ∧
    (b.nodes.Pairwise (fun x y => ¬ (x.pubkey = y.pubkey ∧ x.sig = y.sig)) →
      b'.nodes.Pairwise (fun x y => ¬ (x.pubkey = y.pubkey ∧ x.sig = y.sig))) ∧
    b'.failReason = b.failReason ∧ b'.isUnicast = b.isUnicast := by
  have flat : calls.foldl Blame.addBlameNodes b = calls.flatten.foldl Blame.addOne b := by
    induction calls generalizing b with
    | nil => rfl
    | cons c cs ih => simp only [List.foldl_cons, List.flatten_cons, List.foldl_append]; exact ih _
  have key : ∀ ns : List (Node K),
      let b' := ns.foldl Blame.addOne b
      (∃ new, b'.nodes = b.nodes ++ new ∧ ∀ n ∈ new, n ∈ ns) ∧
      (∀ n ∈ ns, ∃ n' ∈ b'.nodes, n'.pubkey = n.pubkey ∧ n'.sig = n.sig) ∧
      (b.nodes.Pairwise (fun x y => ¬ (x.pubkey = y.pubkey ∧ x.sig = y.sig)) →
        b'.nodes.Pairwise (fun x y => ¬ (x.pubkey = y.pubkey ∧ x.sig = y.sig))) ∧
      b'.failReason = b.failReason ∧ b'.isUnicast = b.isUnicast := by
    intro ns
    induction ns using List.reverseRecOn with
    | nil => exact ⟨⟨[], by simp, by simp⟩, by simp, fun h => h, rfl, rfl⟩
    | append_singleton ns n ih =>
      obtain ⟨⟨new, h1, h2⟩, h3, h4, h5, h6⟩ := ih
      simp only [List.foldl_append, List.foldl_cons, List.foldl_nil]
      by_cases hany : (ns.foldl Blame.addOne b).nodes.any (fun el => n.equal el) = true
      · have e : Blame.addOne (ns.foldl Blame.addOne b) n = ns.foldl Blame.addOne b := by simp only [Blame.addOne, if_pos hany]
        rw [e]
        refine ⟨⟨new, h1, fun x hx => by simp [h2 x hx]⟩, ?_, h4, h5, h6⟩
        intro x hx
        rcases List.mem_append.1 hx with hx | hx
        · exact h3 x hx
        · simp at hx; subst hx
          obtain ⟨y, hy, he⟩ := List.any_eq_true.1 hany
          rw [equal_iff] at he
          exact ⟨y, hy, he.1.symm, he.2.symm⟩
      · have e : Blame.addOne (ns.foldl Blame.addOne b) n =
            { ns.foldl Blame.addOne b with nodes := (ns.foldl Blame.addOne b).nodes ++ [n] } := by
          simp only [Blame.addOne, if_neg hany]
        rw [e]
        refine ⟨⟨new ++ [n], by simp [h1], ?_⟩, ?_, ?_, h5, h6⟩
        · intro x hx
          rcases List.mem_append.1 hx with hx | hx
          · simp [h2 x hx]
          · simp at hx; simp [hx]
        · intro x hx
          rcases List.mem_append.1 hx with hx | hx
          · obtain ⟨y, hy, hh⟩ := h3 x hx; exact ⟨y, by simp [hy], hh⟩
          · simp at hx; subst hx; exact ⟨x, by simp, rfl, rfl⟩
        · intro hp
          rw [List.pairwise_append]
          refine ⟨h4 hp, by simp, ?_⟩
          intro x hx y hy hh
          simp at hy; subst hy
          apply hany
          rw [List.any_eq_true]
          exact ⟨x, hx, (equal_iff _ _).2 ⟨hh.1.symm, hh.2.symm⟩⟩
  rw [flat]
  obtain ⟨⟨new, h1, h2⟩, h3, h4, h5, h6⟩ := key calls.flatten
  refine ⟨⟨new, h1, fun n hn => by simpa using h2 n hn⟩, ?_, h4, h5, h6⟩
  intro call hc n hn
  exact h3 n (List.mem_flatten.2 ⟨call, hc, hn⟩)

/-- C43: entries that differ only in their evidence data count as the same node. -/
example : ((NewBlame "r" [⟨(1 : Nat), [], [7]⟩]).addBlameNodes [⟨2, [], []⟩, ⟨1, [9], [7]⟩, ⟨1, [], [8]⟩]).nodes =
    [⟨1, [], [7]⟩, ⟨2, [], []⟩, ⟨1, [], [8]⟩] := by decide

/-- `SetBlame`, in contrast, appends without looking: repeating it lists a node twice. -/
theorem c43_setblame_repeats (b : Blame K) (r : String) (n : Node K) (u : Bool) :
    ((b.setBlame r [n] u).setBlame r [n] u).nodes = b.nodes ++ [n, n] := by simp [Blame.setBlame]

/-- Specification: a call that changes a blame record: `SetBlame` or `AddBlameNodes` -/
inductive BlameCall (K : Type)
  | set (reason : String) (nodes : List (Node K)) (isUnicast : Bool)
  | add (nodes : List (Node K))

/-- the nodes it names -/
def BlameCall.named : BlameCall K → List (Node K)
  | .set _ nodes _ => nodes
  | .add nodes => nodes

/-- its effect -/
def BlameCall.apply (b : Blame K) : BlameCall K → Blame K
  | .set r nodes u => b.setBlame r nodes u
  | .add nodes => b.addBlameNodes nodes

/-- C43: a blame record says that somebody is blamed already iff it was made with a node, or one of the calls so far named one. -/
theorem c43_already_blame (reason : String) (nodes : List (Node K)) (calls : List (BlameCall K)) :
    (calls.foldl BlameCall.apply (NewBlame reason nodes)).alreadyBlame = true ↔ ∃ n, n ∈ nodes ∨ ∃ c ∈ calls, n ∈ c.named := by
  have key : ∀ b : Blame K, (calls.foldl BlameCall.apply b).nodes ≠ [] ↔ ∃ n, n ∈ b.nodes ∨ ∃ c ∈ calls, n ∈ c.named := by
    induction calls with
    | nil => intro b; simp [List.eq_nil_iff_forall_not_mem]
    | cons c cs ih =>
      intro b
      rw [List.foldl_cons, ih]
      have hstep : (∃ n, n ∈ (BlameCall.apply b c).nodes) ↔ ∃ n, n ∈ b.nodes ∨ n ∈ c.named := by
        cases c with
        | set r ns u => simp [BlameCall.apply, BlameCall.named, Blame.setBlame]
        | add ns =>
          obtain ⟨⟨new, h1, h2⟩, h3, -⟩ := c43_add_blame_nodes b [ns]
          simp only [List.foldl_cons, List.foldl_nil] at h1 h3
          simp only [BlameCall.apply, BlameCall.named]
          constructor
          · rintro ⟨n, hn⟩
            rw [h1, List.mem_append] at hn
            exact ⟨n, hn.imp_right fun h => by simpa using h2 n h⟩
          · rintro ⟨n, hn | hn⟩
            · exact ⟨n, by rw [h1]; exact List.mem_append_left _ hn⟩
            · obtain ⟨n', hn', -⟩ := h3 ns (by simp) n hn
              exact ⟨n', hn'⟩
      simp only [exists_or] at hstep ⊢
      rw [hstep]
      simp only [List.mem_cons, exists_eq_or_imp, exists_or, or_assoc]
  rw [Blame.alreadyBlame, decide_eq_true_eq, gt_iff_lt, List.length_pos_iff]
  exact key (NewBlame reason nodes)

/-- C43: one node named by `AddBlameNodes` is enough -/
example : ([BlameCall.set "r" [] true, .add [⟨(1 : Nat), [], []⟩]].foldl BlameCall.apply (NewBlame "" [])).alreadyBlame = true := by decide

/-! ## C44 (the policy; the processing of reported culprits is in C25_C36) -/

/-- C44: the wrong-share blame names the sender of the message; it fails when the sender is not in the committee. -/
theorem c44_wrong_share_owner (c : Codec K P) (m : Manager K P) (w : WireMessage) (i : Nat) (hs : w.sender = some i) (k : K) :
    m.tssWrongShareBlame c w = .ok k ↔ Named c m.partyIDMap i k := by
  unfold Manager.tssWrongShareBlame Named
  rw [hs]
  rcases hg : Map.get m.partyIDMap i with _ | p
  · simp [hg]
  · simp [hg]

example : (demoManager (K := Nat) 0).tssWrongShareBlame demoCodec ⟨some ⟨some (some 2), [], true⟩, "R", [], []⟩ = .ok 22 := by decide

end Verif.Props.Shares
