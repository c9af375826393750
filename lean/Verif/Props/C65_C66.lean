import Verif.Lemmas.Freq

/-!
# C65 classification of rounds, C66 the most frequent vote
-/
namespace Verif.Props.Rounds
open Verif.Go Verif.Messages Verif.Blame Verif.TssCommon

/-! ## C65 -/

/-- Specification: the message types of key generation, in protocol order -/
def keygenOrder : List Content := [.KGRound1Message, .KGRound2Message1, .KGRound2Message2, .KGRound3Message]

/-- Specification: the message types of signing, in protocol order -/
def keysignOrder : List Content :=
  [.SignRound1Message1, .SignRound1Message2, .SignRound2Message, .SignRound3Message, .SignRound4Message, .SignRound5Message,
    .SignRound6Message, .SignRound7Message]

/-- Specification: the types sent to one peer only (by tss-lib) -/
def unicastTypes : List Content := [.KGRound2Message1, .SignRound1Message1, .SignRound2Message]

/-- Specification: the slot of a type is its place in the protocol -/
def InOrder (order : List Content) : Prop :=
  ∀ i c, order[i]? = some c → ∃ r, contentRound c = some r ∧ r.index = i

theorem keygen_in_order : InOrder keygenOrder := by
  intro i c hc
  match i with
  | 0 | 1 | 2 | 3 => cases hc; exact ⟨_, rfl, rfl⟩
  | (i + 4) => simp [keygenOrder] at hc

theorem keysign_in_order : InOrder keysignOrder := by
  intro i c hc
  match i with
  | 0 | 1 | 2 | 3 | 4 | 5 | 6 | 7 => cases hc; exact ⟨_, rfl, rfl⟩
  | (i + 8) => simp [keysignOrder] at hc

/-- C65: a message that can be parsed has a round exactly if it is one of the protocol's types, and a message that cannot be parsed
has none. -/
theorem c65_known (parse : Bytes → Option Content) (b : Bytes) :
    (∃ r, GetMsgRound parse b = some r) ↔ ∃ c, parse b = some c ∧ (c ∈ keygenOrder ∨ c ∈ keysignOrder) := by
  unfold GetMsgRound
  rcases parse b with _ | c
  · simp
  · cases c <;> simp [contentRound, keygenOrder, keysignOrder]

/-- C65: the slot of a message is the place of its type in the protocol, below the number of rounds; two messages with the same
slot name are of the same type. -/
theorem c65_slot (parse : Bytes → Option Content) (b : Bytes) (c : Content) (hb : parse b = some c) (r : RoundInfo)
    (h : GetMsgRound parse b = some r) :
    (keygenOrder[r.index]? = some c ∧ r.index < TSSKEYGENROUNDS ∨ keysignOrder[r.index]? = some c ∧ r.index < TSSKEYSIGNROUNDS) ∧
    ∀ b' c' r', parse b' = some c' → GetMsgRound parse b' = some r' → (r'.roundMsg = r.roundMsg ↔ c' = c) := by
  unfold GetMsgRound at h
  rw [hb] at h
  refine ⟨?_, ?_⟩
  · cases c <;> cases h <;> simp [keygenOrder, keysignOrder, TSSKEYGENROUNDS, TSSKEYSIGNROUNDS]
  · intro b' c' r' hb' h'
    unfold GetMsgRound at h'
    rw [hb'] at h'
    simp only [Option.bind_some] at h h'
    constructor
    · intro he
      have : ∀ c c' r r', contentRound c = some r → contentRound c' = some r' → r'.roundMsg = r.roundMsg → c' = c := by
        intro c c' r r' h h'
        cases c <;> cases h <;> cases c' <;> cases h' <;> decide
      exact this c c' r r' h h' he
    · rintro rfl
      rw [h] at h'; cases h'; rfl

/-- C65: the slots of one protocol are distinct: of two types of one protocol with the same index, both are the same. -/
theorem c65_distinct (order : List Content) (ho : order = keygenOrder ∨ order = keysignOrder) (c c' : Content) (r r' : RoundInfo)
    (hc : c ∈ order) (hc' : c' ∈ order) (h : contentRound c = some r) (h' : contentRound c' = some r') (hi : r.index = r'.index) :
    c = c' := by
  have hio : InOrder order := by rcases ho with rfl | rfl; exacts [keygen_in_order, keysign_in_order]
  obtain ⟨i, hi1⟩ := List.mem_iff_getElem?.1 hc
  obtain ⟨j, hj1⟩ := List.mem_iff_getElem?.1 hc'
  obtain ⟨s, h1, h2⟩ := hio i c hi1
  obtain ⟨s', h3, h4⟩ := hio j c' hj1
  rw [h] at h1; cases h1
  rw [h'] at h3; cases h3
  have : i = j := by omega
  subst this
  rw [hi1] at hj1
  exact Option.some.inj hj1

/-- C65: a fault found while handling a unicast message, or a message of the slot directly after a unicast one, is marked as
unicast, whatever the identifier of the message. -/
theorem c65_unicast (order : List Content) (ho : order = keygenOrder ∨ order = keysignOrder) (i : Nat) (u c : Content)
    (hu : u ∈ unicastTypes) (hi : order[i]? = some u) (hc : order[i]? = some c ∨ order[i + 1]? = some c) (r : RoundInfo)
    (h : contentRound c = some r) (ident : String) : checkUnicast { r with msgIdentifier := ident } = true := by
  have hid : checkUnicast { r with msgIdentifier := ident } = checkUnicast r := rfl
  rw [hid]
  rcases ho with rfl | rfl
  · match i with
    | 0 | 2 | 3 => cases hi; exact absurd hu (by decide)
    | 1 => rcases hc with hc | hc <;> cases hc <;> cases h <;> decide +kernel
    | (i + 4) => simp [keygenOrder] at hi
  · match i with
    | 1 | 3 | 4 | 5 | 6 | 7 => cases hi; exact absurd hu (by decide)
    | 0 | 2 => rcases hc with hc | hc <;> cases hc <;> cases h <;> decide +kernel
    | (i + 8) => simp [keysignOrder] at hi

/-- C65: the marking of key generation is exact: no other slot is marked. -/
theorem c65_unicast_keygen_exact (i : Nat) (c : Content) (hc : keygenOrder[i]? = some c) (r : RoundInfo) (h : contentRound c = some r)
    (ident : String) (hm : checkUnicast { r with msgIdentifier := ident } = true) :
    c ∈ unicastTypes ∨ ∃ u ∈ unicastTypes, 1 ≤ i ∧ keygenOrder[i - 1]? = some u := by
  have hm : checkUnicast r = true := hm
  match i with
  | 0 => cases hc; cases h; exact absurd hm (by decide +kernel)
  | 1 => cases hc; left; decide
  | 2 => cases hc; right; exact ⟨.KGRound2Message1, by decide, by decide, rfl⟩
  | 3 => cases hc; cases h; exact absurd hm (by decide +kernel)
  | (i + 4) => simp [keygenOrder] at hc

/-- C65: the marking of signing: exactly the messages up to the fifth are marked. -/
theorem c65_unicast_keysign (i : Nat) (c : Content) (hc : keysignOrder[i]? = some c) (r : RoundInfo) (h : contentRound c = some r)
    (ident : String) : checkUnicast { r with msgIdentifier := ident } = true ↔ i ≤ 4 := by
  have hid : checkUnicast { r with msgIdentifier := ident } = checkUnicast r := rfl
  rw [hid]
  match i with
  | 0 | 1 | 2 | 3 | 4 => cases hc; cases h; decide +kernel
  | 5 | 6 | 7 => cases hc; cases h; decide +kernel
  | (i + 8) => simp [keysignOrder] at hc

/-- The marking of signing is not exact: the fifth message of signing is marked, although neither it nor the one before it is
unicast. -/
theorem c65_unicast_keysign_inexact : ∃ r, contentRound .SignRound4Message = some r ∧ checkUnicast r = true ∧
    keysignOrder[4]? = some .SignRound4Message ∧ keysignOrder[3]? = some .SignRound3Message ∧
    Content.SignRound4Message ∉ unicastTypes ∧ Content.SignRound3Message ∉ unicastTypes :=
  ⟨_, rfl, by decide +kernel, rfl, rfl, by decide, by decide⟩

example : GetMsgRound (fun b => if b = [1] then some .SignRound3Message else none) [1] = some ⟨3, KEYSIGN3, ""⟩ := rfl

/-! ## C66 -/

/-- C66: for every visiting order of the table, the vote count fails exactly without votes; otherwise it gives a digest that was
voted for, with its number of votes, and no digest has more. -/
theorem c66_maximum {P : Type} [DecidableEq P] (σ : Shuffle (String × Nat)) (votes : Map P String) :
    (votes = [] → ∃ e, getHighestFreq σ votes = .err e) ∧
    (votes ≠ [] → ∃ d, getHighestFreq σ votes = .ok (d, (((votes.map Prod.snd).count d : Nat) : Int)) ∧ d ∈ votes.map Prod.snd ∧
      ∀ d', (votes.map Prod.snd).count d' ≤ (votes.map Prod.snd).count d) := by
  refine ⟨?_, getHighestFreq_spec σ votes⟩
  rintro rfl
  exact ⟨_, rfl⟩

example : getHighestFreq (Shuffle.id _) [(1, "a"), (2, "b"), (3, "a")] = .ok ("a", 2) := by decide +kernel

end Verif.Props.Rounds
