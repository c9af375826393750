import Verif.Model.Session
import Verif.Lemmas.Session
import Verif.Props.C01
import Verif.Props.C38_C41
import Verif.Props.C42_C44
import Verif.Spec.DemoSession
import Verif.Model.Keygen

/-! # C92, C93: whom a node blames when key generation or signing times out -/
set_option linter.unusedSectionVars false
namespace Verif.Props.TimeoutVerdict
open Verif.Go Verif.Conversion Verif.Messages Verif.Blame Verif.TssCommon Verif.Session Verif.Spec Verif.Threshold
open Verif.Props.Timeouts Verif.Props.Shares

variable {K P : Type} [DecidableEq K] [DecidableEq P]

/-! ## Specification -/

/-- the peer of member `i` delivered a unicast message of this round -/
def Delivered (m : Manager K P) (round : String) (i : Nat) : Prop :=
  ∃ l p, Map.get m.lastUnicastPeer round = some l ∧ Map.get m.partyIDtoP2PID i = some p ∧ p ∈ l

/-- `ids` are the other members that delivered no unicast message of this round; nobody if the round has no deliveries at all -/
def SilentUnicast (m : Manager K P) (round : String) (ids : List Nat) : Prop :=
  ids.Nodup ∧
  ((∃ l, Map.get m.lastUnicastPeer round = some l) → ∀ i, i ∈ ids ↔ i ∈ Map.keys m.partyIDMap ∧ i ≠ m.localPartyID ∧ ¬ Delivered m round i) ∧
  (Map.get m.lastUnicastPeer round = none → ids = [])

/-- `ids` are the other members whose broadcast of this round was not stored; nobody if none was stored at all -/
def SilentBroadcast (m : Manager K P) (round : String) (ids : List Nat) : Prop :=
  ids.Nodup ∧
  ((∃ j, Heard m round j) → ∀ i, i ∈ ids ↔ i ∈ Map.keys m.partyIDMap ∧ i ≠ m.localPartyID ∧ ¬ Heard m round i) ∧
  ((¬ ∃ j, Heard m round j) → ids = [])

/-- the node with public key `k` is in the blame -/
def Blamed (m : Manager K P) (k : K) : Prop := ∃ n ∈ m.blame.nodes, n.pubkey = k

/-- a set of silent members is blamed only if it is so small that the others could have gone on without it: at most `t` members, where `t` is the
threshold of a committee of `n` -/
def small (n : Nat) (ids : List Nat) : List Nat := if (ids.length : ℤ) ≤ ⌈(2 * (n : ℚ)) / 3⌉ - 1 then ids else []

/-- the rounds of signing in their order, with the round that is asked for unicast messages -/
def askedAfter : List (String × Bool × String) :=
  [("SignRound1Message1", false, "SignRound1Message1"), ("SignRound1Message2", true, "SignRound1Message1"),
   ("SignRound2Message", false, "SignRound2Message"), ("SignRound3Message", true, "SignRound2Message"),
   ("SignRound4Message", true, "SignRound2Message"), ("SignRound5Message", true, "SignRound2Message"),
   ("SignRound6Message", true, "SignRound2Message"), ("SignRound7Message", true, "SignRound2Message")]

/-! ## the parts -/

theorem blameThreshold_eq (npeers : Nat) (h : npeers + 1 ≤ 2 ^ 50) : blameThreshold npeers = ⌈(2 * ((npeers + 1 : Nat) : ℚ)) / 3⌉ - 1 := by
  unfold blameThreshold
  have := Verif.Props.C01.threshold_exact (npeers + 1) (le_trans h (by norm_num))
  push_cast at this ⊢
  rw [this]

theorem unicast_nodes (c : Codec K P) (m : Manager K P) (hc : Committee c m) (round : String) (σ₀ : Shuffle P) (σ₁ σ₂ : Shuffle (Nat × P)) :
    ∃ ids, SilentUnicast m round ids ∧
      ((∃ ks, m.getUnicastBlame c σ₀ σ₁ σ₂ round = .ok (plainNodes ks) ∧ Names c m.partyIDMap ids ks) ∨
       (ids = [] ∧ (m.getUnicastBlame c σ₀ σ₁ σ₂ round = .ok [] ∨ ∃ e, m.getUnicastBlame c σ₀ σ₁ σ₂ round = .err e))) := by
  rcases hg : Map.get m.lastUnicastPeer round with _ | l
  · refine ⟨[], ⟨List.nodup_nil, ?_, fun _ => rfl⟩, Or.inr ⟨rfl, ?_⟩⟩
    · rintro ⟨l, hl⟩; rw [hg] at hl; cases hl
    · unfold Manager.getUnicastBlame
      split
      · exact Or.inl rfl
      · rw [hg]; exact Or.inr ⟨_, rfl⟩
  · have hlen : m.lastUnicastPeer.length ≠ 0 := by
      intro h0
      rw [List.length_eq_zero_iff.1 h0] at hg
      simp [Map.get] at hg
    obtain ⟨inIds, ks, h1, h2, h3, h4⟩ := inList_spec c m hc σ₁ (σ₀.f l.dedup) ((σ₀.perm _).nodup_iff.2 (List.nodup_dedup l))
    obtain ⟨ids, ks', g1, g2, g3, g4⟩ := notInList_spec c m hc σ₂ ((σ₀.f l.dedup).map some)
    refine ⟨ids, ⟨g2, ?_, ?_⟩, Or.inl ⟨ks', ?_, g3⟩⟩
    · rintro _ i
      rw [g4]
      have hmem : ∀ p, some p ∉ (σ₀.f l.dedup).map some ↔ p ∉ l := by
        intro p; rw [not_iff_not]; simp [σ₀.mem]
      constructor
      · rintro ⟨hne, p, hp, hnp⟩
        refine ⟨?_, hne, ?_⟩
        · rw [← hc.same, ← Map.get_isSome_iff, hp]; rfl
        · rintro ⟨l', p', hl', hp', hin⟩
          rw [hg] at hl'; cases hl'
          rw [hp] at hp'; cases hp'
          exact (hmem p).1 hnp hin
      · rintro ⟨hk, hne, hnd⟩
        have := (Map.get_isSome_iff m.partyIDtoP2PID i).2 ((hc.same i).2 hk)
        obtain ⟨p, hp⟩ := Option.isSome_iff_exists.1 this
        exact ⟨hne, p, hp, (hmem p).2 fun hin => hnd ⟨l, p, hg, hp, hin⟩⟩
    · intro h0; rw [hg] at h0; cases h0
    · unfold Manager.getUnicastBlame
      rw [if_neg hlen, hg]
      simp only [Manager.getBlamePubKeysLists, h1, g1, Res.bind]

theorem plain_blamed {c : Codec K P} {cm : Map Nat Party} {ids : List Nat} {ks : List K} (h : Names c cm ids ks) (k : K) :
    (∃ n ∈ plainNodes ks, n.pubkey = k) ↔ ∃ i ∈ ids, Named c cm i k := by
  simp only [plainNodes, List.mem_map, exists_exists_and_eq_and]
  constructor
  · rintro ⟨k', hk', rfl⟩
    exact (names_mem h).2 k' hk'
  · rintro ⟨i, hi, hn⟩
    obtain ⟨k', hk', hn'⟩ := (names_mem h).1 i hi
    refine ⟨k', hk', ?_⟩
    obtain ⟨p, hp, e⟩ := hn
    obtain ⟨p', hp', e'⟩ := hn'
    rw [hp] at hp'; cases hp'
    rw [e] at e'; cases e'; rfl

theorem names_length {c : Codec K P} {cm : Map Nat Party} {ids : List Nat} {ks : List K} (h : Names c cm ids ks) :
    (plainNodes ks).length = ids.length := by
  simp only [plainNodes, List.length_map]
  exact (List.Forall₂.length_eq h).symm

theorem addBlameNodes_blamed (b : Blame K) (ns : List (Node K)) (k : K) :
    (∃ n ∈ (b.addBlameNodes ns).nodes, n.pubkey = k) ↔ (∃ n ∈ b.nodes, n.pubkey = k) ∨ ∃ n ∈ ns, n.pubkey = k := by
  obtain ⟨⟨new, h1, h2⟩, h3, _⟩ := c43_add_blame_nodes b [ns]
  simp only [List.foldl_cons, List.foldl_nil] at h1 h2 h3
  constructor
  · rintro ⟨n, hn, rfl⟩
    rw [h1] at hn
    rcases List.mem_append.1 hn with hn | hn
    · exact Or.inl ⟨n, hn, rfl⟩
    · obtain ⟨call, hc, hnc⟩ := h2 n hn
      simp only [List.mem_singleton] at hc
      subst hc
      exact Or.inr ⟨n, hnc, rfl⟩
  · rintro (⟨n, hn, rfl⟩ | ⟨n, hn, rfl⟩)
    · exact ⟨n, by rw [h1]; exact List.mem_append_left _ hn, rfl⟩
    · obtain ⟨n', hn', e, _⟩ := h3 ns (by simp) n hn
      exact ⟨n', hn', e⟩

theorem addBlameNodes_fields (b : Blame K) (ns : List (Node K)) :
    (b.addBlameNodes ns).failReason = b.failReason ∧ (b.addBlameNodes ns).isUnicast = b.isUnicast := by
  obtain ⟨_, _, _, h4, h5⟩ := c43_add_blame_nodes b [ns]
  exact ⟨h4, h5⟩

theorem addBlameNodes_nil_iff (b : Blame K) (ns : List (Node K)) : (b.addBlameNodes ns).nodes = [] ↔ b.nodes = [] ∧ ns = [] := by
  obtain ⟨⟨new, h1, h2⟩, h3, _⟩ := c43_add_blame_nodes b [ns]
  simp only [List.foldl_cons, List.foldl_nil] at h1 h2 h3
  constructor
  · intro h
    rw [h] at h1 h3
    refine ⟨(List.append_eq_nil_iff.1 h1.symm).1, ?_⟩
    match ns, h3 with
    | [], _ => rfl
    | n :: ns, h3 =>
      obtain ⟨n', hn', _⟩ := h3 (n :: ns) (by simp) n (by simp)
      simp at hn'
  · rintro ⟨hb, rfl⟩
    simpa [Blame.addBlameNodes] using hb

theorem unicastPart_spec (c : Codec K P) (m : Manager K P) (hc : Committee c m) (sch : BlameSched P) (reason round : String) (npeers : Nat)
    (hn : npeers + 1 ≤ 2 ^ 50) :
    ∃ U m', SilentUnicast m round U ∧ unicastPart c sch reason round (blameThreshold npeers) m = .ok m' ∧
      m' = { m with blame := m'.blame } ∧
      (∀ k, Blamed m' k ↔ Blamed m k ∨ ∃ i ∈ small (npeers + 1) U, Named c m.partyIDMap i k) ∧
      (m'.blame.nodes = [] ↔ m.blame.nodes = [] ∧ small (npeers + 1) U = []) ∧
      m'.blame.failReason = (if small (npeers + 1) U = [] then m.blame.failReason else reason) ∧
      m'.blame.isUnicast = (if small (npeers + 1) U = [] then m.blame.isUnicast else true) := by
  obtain ⟨ids, hs, h⟩ := unicast_nodes c m hc round sch.u₀ sch.u₁ sch.u₂
  have hthr := blameThreshold_eq npeers hn
  rcases h with ⟨ks, he, hnm⟩ | ⟨rfl, he⟩
  · have hl := names_length hnm
    by_cases hle : (ids.length : ℤ) ≤ ⌈(2 * ((npeers + 1 : Nat) : ℚ)) / 3⌉ - 1
    · have hsm : small (npeers + 1) ids = ids := if_pos hle
      by_cases h0 : ids = []
      · subst h0
        refine ⟨[], m, hs, ?_, rfl, ?_, ?_, ?_, ?_⟩
        · unfold unicastPart; rw [he]
          simp only [hl, List.length_nil]
          rw [if_neg (by omega)]
        · simp [hsm]
        · simp [hsm]
        · simp [hsm]
        · simp [hsm]
      · refine ⟨ids, { m with blame := m.blame.setBlame reason (plainNodes ks) true }, hs, ?_, rfl, ?_, ?_, ?_, ?_⟩
        · unfold unicastPart; rw [he]
          simp only
          rw [if_pos]
          refine ⟨?_, ?_⟩
          · rw [hl]; exact List.length_pos_iff.2 h0
          · rw [hl, hthr]; exact hle
        · intro k
          simp only [Blamed, Blame.setBlame, List.mem_append, or_and_right, exists_or, plain_blamed hnm k, hsm]
        · simp only [Blame.setBlame, List.append_eq_nil_iff, hsm, h0, and_false, iff_false]
          rintro ⟨_, h⟩
          exact h0 (List.length_eq_zero_iff.1 (by rw [← hl, h]; rfl))
        · simp [Blame.setBlame, hsm, h0]
        · simp [Blame.setBlame, hsm, h0]
    · have hsm : small (npeers + 1) ids = [] := if_neg hle
      refine ⟨ids, m, hs, ?_, rfl, ?_, ?_, ?_, ?_⟩
      · unfold unicastPart; rw [he]
        simp only
        rw [if_neg]
        rw [hl, hthr]
        exact fun h => hle h.2
      · simp [hsm]
      · simp [hsm]
      · simp [hsm]
      · simp [hsm]
  · have hsm : small (npeers + 1) [] = [] := by unfold small; split <;> rfl
    refine ⟨[], m, hs, ?_, rfl, ?_, ?_, ?_, ?_⟩
    · unfold unicastPart
      rcases he with he | ⟨e, he⟩
      · rw [he]; simp
      · rw [he]
    · simp [hsm]
    · simp [hsm]
    · simp [hsm]
    · simp [hsm]

theorem broadcastPart_spec (c : Codec K P) (m : Manager K P) (hc : Committee c m) (sch : BlameSched P) (round : String)
    (hwf : Map.WF m.storedMsg) (hst : ∀ key w, Map.get m.storedMsg key = some w → w.sender ≠ none) :
    ∃ B m', SilentBroadcast m round B ∧ broadcastPart c sch round m = .ok m' ∧ m' = { m with blame := m'.blame } ∧
      (∀ k, Blamed m' k ↔ Blamed m k ∨ ∃ i ∈ B, Named c m.partyIDMap i k) ∧
      (m'.blame.nodes = [] ↔ m.blame.nodes = [] ∧ B = []) ∧
      m'.blame.failReason = m.blame.failReason ∧ m'.blame.isUnicast = m.blame.isUnicast := by
  obtain ⟨ids, ks, h1, h2, h3, h4, h5⟩ := c40_broadcast_blame c m hc sch.b₁ sch.b₂ round hwf hst
  refine ⟨ids, { m with blame := m.blame.addBlameNodes (plainNodes ks) }, ⟨h2, h4, h5⟩, ?_, rfl, ?_, ?_, ?_⟩
  · unfold broadcastPart; rw [h1]
  · intro k
    unfold Blamed
    rw [addBlameNodes_blamed, plain_blamed h3 k]
  · simp only
    rw [addBlameNodes_nil_iff]
    have : plainNodes ks = [] ↔ ids = [] := by
      rw [← List.length_eq_zero_iff, names_length h3, List.length_eq_zero_iff]
    rw [this]
  · exact addBlameNodes_fields _ _

theorem committee_blame {c : Codec K P} {m m' : Manager K P} (hc : Committee c m) (h : m' = { m with blame := m'.blame }) : Committee c m' := by
  rw [h]; exact ⟨hc.wf, hc.ids, hc.named, hc.wfp, hc.same, hc.inj, hc.loc⟩

theorem missing_blame (c : Codec K P) {m m' : Manager K P} (rounds : Nat) (σ₁ : Shuffle (RoundInfo × List Nat))
    (σ₂ : Shuffle (String × List (List Nat))) (σ : Nat → Shuffle (Nat × P)) (h : m' = { m with blame := m'.blame }) :
    m'.tssMissingShareBlame c rounds σ₁ σ₂ σ = m.tssMissingShareBlame c rounds σ₁ σ₂ σ := by
  have loop : ∀ (l : List (String × List (List Nat))) (k : Nat) (peers : List (Option P)) (nodes : List (Node K)) (fl : Bool),
      missingLoop c m' rounds σ k l peers nodes fl = missingLoop c m rounds σ k l peers nodes fl := by
    intro l
    induction l with
    | nil => intros; rfl
    | cons e l ih =>
      intro k peers nodes fl
      rw [h] at ih ⊢
      simp only [missingLoop]
      cases firstMissing m.partyIDtoP2PID.length 0 e.2 with
      | none => simp only [ih]
      | some x => simp only [ih]
  have hacc : m'.acceptedShares = m.acceptedShares := by rw [h]
  unfold Manager.tssMissingShareBlame
  rw [hacc]
  simp only [loop]

/-! ## C92: the verdict -/

/-- Specification: what a timeout of a committee of `n` makes of the members silent in the unicast round (`U`) and in the broadcast round (`B`):
they are added to those already blamed; only a blame of `U` is marked as unicast and gets a reason, the reason already given if there is one. -/
structure Verdict (c : Codec K P) (n : Nat) (U B : List Nat) (m m' : Manager K P) : Prop where
  blamed : ∀ k, Blamed m' k ↔ Blamed m k ∨ ∃ i, (i ∈ small n U ∨ i ∈ B) ∧ Named c m.partyIDMap i k
  reason : m'.blame.failReason = if small n U = [] ∨ m.blame.failReason ≠ "" then m.blame.failReason else "Tss timeout"
  unicast : m'.blame.isUnicast = if small n U = [] then m.blame.isUnicast else true
  rest : m' = { m with blame := m'.blame }

/-- Specification: there is somebody to blame before the shares are looked at -/
def Evidence (n : Nat) (U B : List Nat) (m : Manager K P) : Prop := m.blame.nodes ≠ [] ∨ small n U ≠ [] ∨ B ≠ []

theorem verdict (c : Codec K P) (m : Manager K P) (hc : Committee c m) (hwf : Map.WF m.storedMsg)
    (hst : ∀ key w, Map.get m.storedMsg key = some w → w.sender ≠ none) (sch : BlameSched P) (asked last : String) (rounds npeers : Nat)
    (hn : npeers + 1 ≤ 2 ^ 50) :
    ∃ U B, SilentUnicast m asked U ∧ SilentBroadcast m last B ∧
      (Evidence (npeers + 1) U B m → ∃ m', timeoutBlame c sch asked last rounds npeers m = .ok m' ∧ Verdict c (npeers + 1) U B m m') ∧
      (¬ Evidence (npeers + 1) U B m → ∃ m₂, m₂ = { m with blame := m₂.blame } ∧ Verdict c (npeers + 1) U B m m₂ ∧
        timeoutBlame c sch asked last rounds npeers m = missingPart c sch rounds (blameThreshold npeers) m₂) := by
  obtain ⟨U, m₁, u1, u2, u3, u4, u5, u6, u7⟩ := unicastPart_spec c m hc sch (timeoutReason m) asked npeers hn
  have hsame : m₁.partyIDMap = m.partyIDMap ∧ m₁.storedMsg = m.storedMsg ∧ m₁.localPartyID = m.localPartyID := by rw [u3]; exact ⟨rfl, rfl, rfl⟩
  obtain ⟨B, m₂, b1, b2, b3, b4, b5, b6, b7⟩ := broadcastPart_spec c m₁ (committee_blame hc u3) sch last (by rw [hsame.2.1]; exact hwf)
    (by rw [hsame.2.1]; exact hst)
  have hrest : m₂ = { m with blame := m₂.blame } := by rw [u3] at b3; exact b3
  have hv : Verdict c (npeers + 1) U B m m₂ := by
    refine ⟨?_, ?_, ?_, hrest⟩
    · intro k
      rw [b4, u4, hsame.1]
      simp only [or_and_right, exists_or, or_assoc]
    · rw [b6, u6]
      unfold timeoutReason TssTimeout
      by_cases h0 : small (npeers + 1) U = []
      · simp [h0]
      · by_cases h1 : m.blame.failReason = "" <;> simp [h0, h1]
    · rw [b7, u7]
  have hB : SilentBroadcast m last B := by
    unfold SilentBroadcast Heard at b1 ⊢
    rw [hsame.1, hsame.2.1, hsame.2.2] at b1
    exact b1
  have hev : m₂.blame.nodes = [] ↔ ¬ Evidence (npeers + 1) U B m := by
    rw [b5, u5]; unfold Evidence
    constructor
    · rintro ⟨⟨h1, h2⟩, h3⟩ (h | h | h) <;> contradiction
    · intro h
      simp only [not_or, not_not] at h
      exact ⟨⟨h.1, h.2.1⟩, h.2.2⟩
  have htb : timeoutBlame c sch asked last rounds npeers m = missingPart c sch rounds (blameThreshold npeers) m₂ := by
    unfold timeoutBlame
    rw [u2]
    simp only [Res.bind]
    rw [b2]
  refine ⟨U, B, u1, hB, ?_, ?_⟩
  · intro he
    refine ⟨m₂, ?_, hv⟩
    rw [htb]
    unfold missingPart
    rw [if_neg]
    intro h0
    exact hev.1 (List.length_eq_zero_iff.1 h0) he
  · intro he
    exact ⟨m₂, hrest, hv, htb⟩

/-- C92, key generation: with evidence of silence, a timeout blames exactly the members already blamed, those that delivered no unicast message of
the unicast round of key generation (if at most `t` members), and those whose broadcast of the last round was not confirmed. -/
theorem c92_keygen (c : Codec K P) (m : Manager K P) (hc : Committee c m) (hwf : Map.WF m.storedMsg)
    (hst : ∀ key w, Map.get m.storedMsg key = some w → w.sender ≠ none) (sch : BlameSched P) (last : String) (b : Bool)
    (hl : m.lastMsg = some (last, b)) (npeers : Nat) (hn : npeers + 1 ≤ 2 ^ 50) :
    ∃ U B, SilentUnicast m "KGRound2Message1" U ∧ SilentBroadcast m last B ∧
      (Evidence (npeers + 1) U B m → ∃ m', keygenTimeout c sch npeers m = .ok m' ∧ Verdict c (npeers + 1) U B m m') := by
  obtain ⟨U, B, h1, h2, h3, _⟩ := verdict c m hc hwf hst sch KEYGEN2aUnicast last TSSKEYGENROUNDS npeers hn
  refine ⟨U, B, h1, h2, fun he => ?_⟩
  unfold keygenTimeout
  rw [hl]
  exact h3 he

/-- C92, key generation: a timeout before any message was produced blames nobody. -/
theorem c92_keygen_nothing_sent (c : Codec K P) (m : Manager K P) (hl : m.lastMsg = none) (sch : BlameSched P) (npeers : Nat) :
    keygenTimeout c sch npeers m = .ok m := by
  unfold keygenTimeout; rw [hl]

/-- C92, signing: as for key generation; the unicast round asked for is the last unicast round that was reached. -/
theorem c92_keysign (c : Codec K P) (m : Manager K P) (hc : Committee c m) (hwf : Map.WF m.storedMsg)
    (hst : ∀ key w, Map.get m.storedMsg key = some w → w.sender ≠ none) (sch : BlameSched P) (last asked : String) (b : Bool)
    (hl : m.lastMsg = some (last, b)) (ha : (last, b, asked) ∈ askedAfter) (npeers : Nat) (hn : npeers + 1 ≤ 2 ^ 50) :
    ∃ U B, SilentUnicast m asked U ∧ SilentBroadcast m last B ∧
      (Evidence (npeers + 1) U B m → ∃ m', keysignTimeout c sch npeers m = .ok m' ∧ Verdict c (npeers + 1) U B m m') := by
  have has : (if b then GetPreviousKeySignUicast last else last) = asked := by
    simp only [askedAfter, List.mem_cons, Prod.mk.injEq, List.not_mem_nil, or_false] at ha
    rcases ha with ⟨rfl, rfl, rfl⟩ | ⟨rfl, rfl, rfl⟩ | ⟨rfl, rfl, rfl⟩ | ⟨rfl, rfl, rfl⟩ | ⟨rfl, rfl, rfl⟩ | ⟨rfl, rfl, rfl⟩ | ⟨rfl, rfl, rfl⟩ |
      ⟨rfl, rfl, rfl⟩ <;> decide +kernel
  obtain ⟨U, B, h1, h2, h3, _⟩ := verdict c m hc hwf hst sch asked last TSSKEYSIGNROUNDS npeers hn
  refine ⟨U, B, h1, h2, fun he => ?_⟩
  unfold keysignTimeout
  rw [hl]
  simp only [has]
  exact h3 he

/-- C92 without evidence of silence, for a session with a single message: exactly the members whose share is missing in the first incomplete round
are blamed, if they are at most `t`. (With several messages the search for missing shares misjudges, see C42.) -/
theorem c92_missing_partial (c : Codec K P) (m : Manager K P) (hc : Committee c m) (hwf : Map.WF m.storedMsg)
    (hst : ∀ key w, Map.get m.storedMsg key = some w → w.sender ≠ none) (sch : BlameSched P) (last asked : String) (b : Bool) (signing : Bool)
    (hl : m.lastMsg = some (last, b)) (ha : if signing then (last, b, asked) ∈ askedAfter else asked = "KGRound2Message1") (npeers : Nat)
    (hn : npeers + 1 ≤ 2 ^ 50) (hreg : Regular m.acceptedShares (if signing then 8 else 4)) (g : String) (hne : m.acceptedShares ≠ [])
    (hone : ∀ ri ∈ Map.keys m.acceptedShares, ri.msgIdentifier = g) (j : Nat)
    (hj : FirstIncomplete m.acceptedShares m.partyIDtoP2PID.length (if signing then 8 else 4) g j) :
    ∃ U B M, SilentUnicast m asked U ∧ SilentBroadcast m last B ∧ M.Nodup ∧
      (∀ i, i ∈ M ↔ i ∈ Map.keys m.partyIDMap ∧ i ≠ m.localPartyID ∧ i ∉ acceptedAt m.acceptedShares g j) ∧
      (¬ Evidence (npeers + 1) U B m → ∃ m', (if signing then keysignTimeout c sch npeers m else keygenTimeout c sch npeers m) = .ok m' ∧
        (∀ k, Blamed m' k ↔ ∃ i ∈ small (npeers + 1) M, Named c m.partyIDMap i k) ∧ m'.blame.failReason = m.blame.failReason ∧
        m'.blame.isUnicast = if small (npeers + 1) M = [] then m.blame.isUnicast else decide (if signing then j ≤ 4 else j = 1)) := by
  have htb : (if signing then keysignTimeout c sch npeers m else keygenTimeout c sch npeers m) =
      timeoutBlame c sch asked last (if signing then 8 else 4) npeers m := by
    cases signing with
    | true =>
      simp only [if_true] at ha ⊢
      have has : (if b then GetPreviousKeySignUicast last else last) = asked := by
        simp only [askedAfter, List.mem_cons, Prod.mk.injEq, List.not_mem_nil, or_false] at ha
        rcases ha with ⟨rfl, rfl, rfl⟩ | ⟨rfl, rfl, rfl⟩ | ⟨rfl, rfl, rfl⟩ | ⟨rfl, rfl, rfl⟩ | ⟨rfl, rfl, rfl⟩ | ⟨rfl, rfl, rfl⟩ | ⟨rfl, rfl, rfl⟩ |
          ⟨rfl, rfl, rfl⟩ <;> decide +kernel
      unfold keysignTimeout
      rw [hl]
      simp only [has]
      rfl
    | false =>
      simp only [Bool.false_eq_true, if_false] at ha ⊢
      subst ha
      unfold keygenTimeout
      rw [hl]
      rfl
  generalize hrd : (if signing then 8 else 4 : Nat) = rounds at htb hreg hj
  obtain ⟨U, B, h1, h2, _, h4⟩ := verdict c m hc hwf hst sch asked last rounds npeers hn
  obtain ⟨ids, ks, flag, c1, c2, c3, c4, c5⟩ := c42_single_message_partial c m hc rounds hreg g hne hone j hj sch.s₁ sch.s₂ sch.s
  refine ⟨U, B, ids, h1, h2, c2, c5, fun he => ?_⟩
  obtain ⟨m₂, e1, e2, e3⟩ := h4 he
  have he' := he
  unfold Evidence at he
  simp only [not_or, not_not] at he
  have hnob : ∀ k, ¬ Blamed m₂ k := by
    intro k hk
    rcases (e2.blamed k).1 hk with ⟨n, hn', _⟩ | ⟨i, hi | hi, _⟩
    · rw [he.1] at hn'; cases hn'
    · rw [he.2.1] at hi; cases hi
    · rw [he.2.2] at hi; cases hi
  have hnil : m₂.blame.nodes = [] := by
    match hx : m₂.blame.nodes with
    | [] => rfl
    | n :: _ => exact absurd ⟨n, by rw [hx]; simp, rfl⟩ (hnob n.pubkey)
  have hreason : m₂.blame.failReason = m.blame.failReason := by rw [e2.reason, if_pos (Or.inl he.2.1)]
  have huni : m₂.blame.isUnicast = m.blame.isUnicast := by rw [e2.unicast, if_pos he.2.1]
  have hflag : flag = decide (if signing then j ≤ 4 else j = 1) := by
    rw [Bool.eq_iff_iff, c4, decide_eq_true_iff]
    subst hrd
    cases signing <;> simp
  have hlen := names_length c3
  rw [htb, e3]
  unfold missingPart
  rw [if_pos (by rw [hnil]; rfl), missing_blame c rounds sch.s₁ sch.s₂ sch.s e1, c1]
  simp only
  by_cases hle : (ids.length : ℤ) ≤ ⌈(2 * ((npeers + 1 : Nat) : ℚ)) / 3⌉ - 1
  · have hsm : small (npeers + 1) ids = ids := if_pos hle
    by_cases h0 : ids = []
    · rw [if_neg (by rw [hlen, h0]; simp)]
      refine ⟨m₂, rfl, ?_, hreason, ?_⟩
      · intro k; rw [hsm, h0]; simp [hnob k]
      · rw [hsm, if_pos h0]; exact huni
    · rw [if_pos ⟨by rw [hlen]; exact List.length_pos_iff.2 h0, by rw [hlen, blameThreshold_eq npeers hn]; exact hle⟩]
      refine ⟨_, rfl, ?_, ?_, ?_⟩
      · intro k
        unfold Blamed
        simp only
        rw [addBlameNodes_blamed, plain_blamed c3, hsm]
        have : ¬ ∃ n ∈ m₂.blame.nodes, n.pubkey = k := hnob k
        simp only [this, false_or]
      · simp only
        rw [(addBlameNodes_fields _ _).1, hreason]
      · simp only
        rw [hsm, if_neg h0, hflag]
  · have hsm : small (npeers + 1) ids = [] := if_neg hle
    rw [if_neg (by rw [hlen, blameThreshold_eq npeers hn]; exact fun h => hle h.2)]
    refine ⟨m₂, rfl, ?_, hreason, ?_⟩
    · intro k; simp [hsm, hnob k]
    · rw [if_pos hsm]; exact huni

/-! ## the sessions of the two loops -/

/-- the state of a session inside a loop: inbound messages are processed one after the other; in between the loop records its last message and
what it blames -/
inductive LoopSes (env : TssCommon.Env K P) (m₀ : Manager K P) : List (TssCommon.Event P) → TssCommon.St K P → Prop
  | init : LoopSes env m₀ [] (newTssCommon m₀)
  | inbound {h s} (e : TssCommon.Event P) (hs : LoopSes env m₀ h s) : LoopSes env m₀ (h ++ [e]) (TssCommon.step env s e)
  | adjust {h s} (lm : Option (String × Bool)) (b : Blame K) (hs : LoopSes env m₀ h s) :
      LoopSes env m₀ h { s with mgr := { s.mgr with lastMsg := lm, blame := b } }

/-- member `i` sent us, directly, a unicast message of this round with a valid signature -/
def SentUnicast (env : TssCommon.Env K P) (m₀ : Manager K P) (h : List (TssCommon.Event P)) (round : String) (i : Nat) : Prop :=
  ∃ e ∈ h, ∃ t w, Delivers env e t w ∧ Signed env m₀.partyIDMap w ∧ w.sender = some i ∧ w.isBroadcast = false ∧ w.roundInfo = round

/-- a unicast message of member `i` of this round with a valid signature was received, from whomever -/
def GotUnicast (env : TssCommon.Env K P) (m₀ : Manager K P) (h : List (TssCommon.Event P)) (round : String) (i : Nat) : Prop :=
  ∃ e ∈ h, ∃ w, Carries env e w ∧ Signed env m₀.partyIDMap w ∧ w.sender = some i ∧ w.isBroadcast = false ∧ w.roundInfo = round

theorem sent_got {env : TssCommon.Env K P} {m₀ : Manager K P} {h : List (TssCommon.Event P)} {round : String} {i : Nat}
    (hs : SentUnicast env m₀ h round i) : GotUnicast env m₀ h round i := by
  obtain ⟨e, he, t, w, ⟨raw, peer, sch, pl, h1, h2, h3, h4⟩, hw⟩ := hs
  exact ⟨e, he, w, ⟨raw, peer, sch, t, pl, h1, h2, Or.inl ⟨h3, h4⟩⟩, hw⟩

/-- the invariant of such a session -/
structure Sound (env : TssCommon.Env K P) (m₀ : Manager K P) (h : List (TssCommon.Event P)) (s : TssCommon.St K P) : Prop where
  good : Good env m₀ h s
  loc : s.mgr.localPartyID = m₀.localPartyID
  wf : Map.WF s.mgr.storedMsg
  uni : ∀ r l p, Map.get s.mgr.lastUnicastPeer r = some l → p ∈ l → ∃ i, GotUnicast env m₀ h r i ∧ Map.get m₀.partyIDtoP2PID i = some p
  none_empty : ∀ r l, Map.get s.mgr.lastUnicastPeer r = some l → l ≠ []

theorem updateAcceptShare_unicast (m : Manager K P) (r : RoundInfo) (i : Nat) :
    (m.updateAcceptShare r i).lastUnicastPeer = m.lastUnicastPeer := by
  unfold Manager.updateAcceptShare; split <;> rfl

theorem stepJob_unicast (env : TssCommon.Env K P) (id : Nat) (s : TssCommon.St K P) :
    (stepJob env id s).mgr.lastUnicastPeer = s.mgr.lastUnicastPeer ∧ (stepJob env id s).mgr.localPartyID = s.mgr.localPartyID := by
  unfold stepJob
  split
  · exact ⟨rfl, rfl⟩
  · split
    · exact ⟨rfl, rfl⟩
    · exact ⟨updateAcceptShare_unicast _ _ _, (updateAcceptShare_maps _ _ _).2.2.2.2⟩
    · unfold processInvalidMsgBlame
      dsimp only
      split <;> exact ⟨rfl, rfl⟩

theorem setLastUnicastPeer_get (m : Manager K P) (p : P) (r r' : String) :
    Map.get (m.setLastUnicastPeer p r).lastUnicastPeer r' =
      if r = r' then some ((Map.get m.lastUnicastPeer r).getD [] ++ [p]) else Map.get m.lastUnicastPeer r' := by
  unfold Manager.setLastUnicastPeer
  rcases hg : Map.get m.lastUnicastPeer r with _ | l
  · dsimp only
    rw [Map.get_set]
    simp [eq_comm]
  · dsimp only
    rw [Map.get_set]
    simp [eq_comm]

theorem got_mono {env : TssCommon.Env K P} {m₀ : Manager K P} {h : List (TssCommon.Event P)} {r : String} {i : Nat} (e : TssCommon.Event P)
    (hg : GotUnicast env m₀ h r i) : GotUnicast env m₀ (h ++ [e]) r i := by
  obtain ⟨e', he, hw⟩ := hg
  exact ⟨e', by simp [he], hw⟩

theorem sound_micro {env : TssCommon.Env K P} {m₀ : Manager K P} {h : List (TssCommon.Event P)} {e : TssCommon.Event P} {s s' : TssCommon.St K P}
    (hs : Sound env m₀ (h ++ [e]) s) (hmic : Micro env e s s') : Sound env m₀ (h ++ [e]) s' := by
  have hg := good_micro hs.good hmic
  cases hmic with
  | work id =>
    have hf := stepJob_frame env id s
    obtain ⟨u1, u2⟩ := stepJob_unicast env id s
    exact ⟨hg, u2.trans hs.loc, by rw [hf.stored]; exact hs.wf, by rw [u1]; exact hs.uni, by rw [u1]; exact hs.none_empty⟩
  | store key item w hk hm hw => exact ⟨hg, hs.loc, Map.WF_set hs.wf _ _, hs.uni, hs.none_empty⟩
  | unicast w i peer hsrc hi hp hb =>
    obtain ⟨-, -, h3, -, -, h6⟩ := setLastUnicastPeer_maps s.mgr peer w.roundInfo
    refine ⟨hg, h6.trans hs.loc, by dsimp only; rw [h3]; exact hs.wf, ?_, ?_⟩
    · intro r l p hl hpl
      dsimp only at hl
      rw [setLastUnicastPeer_get] at hl
      split at hl
      · rename_i hr
        subst hr
        cases hl
        rcases List.mem_append.1 hpl with hpl | hpl
        · rcases ho : Map.get s.mgr.lastUnicastPeer w.roundInfo with _ | l'
          · rw [ho] at hpl; cases hpl
          · rw [ho] at hpl
            exact hs.uni _ l' p ho hpl
        · simp only [List.mem_singleton] at hpl
          subst hpl
          refine ⟨i, ?_, by rw [← hs.good.peers]; exact hp⟩
          rcases hsrc with ⟨c1, c2, c3⟩ | ⟨key, item, k1, k2, _⟩
          · exact ⟨e, by simp, w, c1, by rw [← hs.good.ids]; exact c2, hi, hb, rfl⟩
          · have := (hs.good.cache key item k1).msg w k2
            rw [this.2.2.1] at hb; cases hb
      · exact hs.uni r l p hl hpl
    · intro r l hl
      dsimp only at hl
      rw [setLastUnicastPeer_get] at hl
      split at hl
      · cases hl; simp
      · exact hs.none_empty r l hl
  | queue | arrive | vote | blameOwner | blameSplit | dropMsg | forget | ask | answer | sendConfirm | askSilent | sendAnswer | done | crash =>
    exact ⟨hg, hs.loc, hs.wf, hs.uni, hs.none_empty⟩

theorem sound_of_loop {env : TssCommon.Env K P} {m₀ : Manager K P} (h1 : m₀.storedMsg = []) (h2 : m₀.lastUnicastPeer = [])
    {h : List (TssCommon.Event P)} {s : TssCommon.St K P} (hl : LoopSes env m₀ h s) : Sound env m₀ h s := by
  induction hl with
  | init =>
    refine ⟨good_init env m₀, rfl, ?_, ?_, ?_⟩
    · simp [newTssCommon, h1]; exact List.nodup_nil
    · intro r l p hl; simp [newTssCommon, h2] at hl
    · intro r l hl; simp [newTssCommon, h2] at hl
  | @inbound h s e _ ih =>
    have hI : Sound env m₀ (h ++ [e]) s := ⟨good_mono e ih.good, ih.loc, ih.wf, fun r l p a b => by
      obtain ⟨i, g1, g2⟩ := ih.uni r l p a b
      exact ⟨i, got_mono e g1, g2⟩, ih.none_empty⟩
    have hm := step_micro env s e
    generalize TssCommon.step env s e = s' at hm
    induction hm with
    | refl => exact hI
    | tail _ hmic ih => exact sound_micro ih hmic
  | adjust lm b _ ih =>
    exact ⟨⟨ih.good.ids, ih.good.peers, ih.good.cache, ih.good.jobs, ih.good.log, ih.good.stored⟩, ih.loc, ih.wf, ih.uni, ih.none_empty⟩

theorem delivered_micro {env : TssCommon.Env K P} {e : TssCommon.Event P} {s s' : TssCommon.St K P} (hmic : Micro env e s s') {r : String} {i : Nat}
    (hd : Delivered s.mgr r i) : Delivered s'.mgr r i := by
  obtain ⟨l, p, d1, d2, d3⟩ := hd
  cases hmic with
  | work id =>
    have hf := stepJob_frame env id s
    exact ⟨l, p, by rw [(stepJob_unicast env id s).1]; exact d1, by rw [hf.peers]; exact d2, d3⟩
  | unicast w j peer hsrc hi hp hb =>
    obtain ⟨-, g2, -⟩ := setLastUnicastPeer_maps s.mgr peer w.roundInfo
    by_cases hr : w.roundInfo = r
    · subst hr
      refine ⟨l ++ [peer], p, ?_, by dsimp only; rw [g2]; exact d2, List.mem_append_left _ d3⟩
      dsimp only
      rw [setLastUnicastPeer_get, if_pos rfl, d1]
      rfl
    · refine ⟨l, p, ?_, by dsimp only; rw [g2]; exact d2, d3⟩
      dsimp only
      rw [setLastUnicastPeer_get, if_neg hr]
      exact d1
  | store | queue | arrive | vote | blameOwner | blameSplit | dropMsg | forget | ask | answer | sendConfirm | askSilent | sendAnswer | done | crash =>
    exact ⟨l, p, d1, d2, d3⟩

theorem delivered_micros {env : TssCommon.Env K P} {e : TssCommon.Event P} {s s' : TssCommon.St K P} (hm : Micros env e s s') {r : String} {i : Nat}
    (hd : Delivered s.mgr r i) : Delivered s'.mgr r i := by
  induction hm with
  | refl => exact hd
  | tail _ hmic ih => exact delivered_micro hmic ih

theorem updateLocal_delivers (env : TssCommon.Env K P) (e : TssCommon.Event P) (ticks : List (List Nat)) (w : WireMessage) (s : TssCommon.St K P)
    (hs : Source env e s w) (i : Nat) (hi : w.sender = some i) (hb : w.isBroadcast = false) (hn : w.noSender = false)
    (hip : ∃ p, Map.get s.mgr.partyIDMap i = some p) (hpe : ∃ p, Map.get s.mgr.partyIDtoP2PID i = some p) :
    Delivered (updateLocal env ticks w s).1.mgr w.roundInfo i := by
  obtain ⟨p, hip⟩ := hip
  obtain ⟨peer, hpe⟩ := hpe
  have hd : Delivered (s.mgr.setLastUnicastPeer peer w.roundInfo) w.roundInfo i := by
    refine ⟨(Map.get s.mgr.lastUnicastPeer w.roundInfo).getD [] ++ [peer], peer, ?_, ?_, ?_⟩
    · rw [setLastUnicastPeer_get, if_pos rfl]
    · rw [(setLastUnicastPeer_maps s.mgr peer w.roundInfo).2.1]; exact hpe
    · simp
  unfold updateLocal
  simp only [hn, hi, hip, hpe, hb, Bool.false_eq_true, if_false]
  rcases hdb : env.decBulk w.message with _ | bulk
  · exact hd
  · dsimp only
    have hf : SameFrame s { s with mgr := s.mgr.setLastUnicastPeer peer w.roundInfo } :=
      ⟨rfl, (setLastUnicastPeer_maps _ _ _).1, (setLastUnicastPeer_maps _ _ _).2.1, (setLastUnicastPeer_maps _ _ _).2.2.1⟩
    exact delivered_micros (feed_micro env e w bulk hdb _ bulk ticks _ (fun m hm => hm) (hs.frame hf)).1 hd

theorem sender_known {w : WireMessage} {i : Nat} (h : w.sender = some i) : w.noSender = false := by
  unfold WireMessage.sender at h
  unfold WireMessage.noSender
  rcases hr : w.routing with _ | r
  · rw [hr] at h; cases h
  · rw [hr] at h
    dsimp only [Option.bind] at h ⊢
    unfold Routing.sender at h
    rcases hf : r.from_ with _ | f
    · rw [hf] at h; cases h
    · rfl

theorem step_delivers (env : TssCommon.Env K P) (s : TssCommon.St K P) (e : TssCommon.Event P) (hcr : s.crashed = false) (t : MsgType) (w : WireMessage)
    (hd : Delivers env e t w) (hsg : Signed env s.mgr.partyIDMap w) (i : Nat) (hi : w.sender = some i) (hb : w.isBroadcast = false)
    (hpe : ∃ p, Map.get s.mgr.partyIDtoP2PID i = some p) : Delivered (TssCommon.step env s e).mgr w.roundInfo i := by
  obtain ⟨raw, peer, sch, pl, rfl, d1, d2, d3⟩ := hd
  have hsrc : Source env (TssCommon.Event.msg raw peer sch) s w :=
    Or.inl ⟨⟨raw, peer, sch, t, pl, rfl, d1, Or.inl ⟨d2, d3⟩⟩, hsg, hb⟩
  obtain ⟨i', p, s1, s2, s3⟩ := hsg
  rw [hi] at s1; cases s1
  have hu := updateLocal_delivers env _ sch.ticks w s hsrc i hi hb (sender_known hi) ⟨p, s2⟩ hpe
  have he : ProcessOneMessage env sch t pl peer s = updateLocal env sch.ticks w s := by
    unfold ProcessOneMessage
    rw [if_pos d2, d3]
    simp only [processTSSMsg, sender_known hi, hi, s2, s3, hb, Bool.not_true, Bool.false_eq_true, if_false, Bool.not_false, if_true]
  unfold TssCommon.step
  rw [hcr]
  simp only [Bool.false_eq_true, if_false, d1, he]
  generalize updateLocal env sch.ticks w s = x at hu
  obtain ⟨s', r⟩ := x
  cases r <;> exact hu

theorem step_crashed {env : TssCommon.Env K P} {s : TssCommon.St K P} {e : TssCommon.Event P} (h : (TssCommon.step env s e).crashed = false) :
    s.crashed = false := by
  cases hc : s.crashed with
  | false => rfl
  | true =>
    unfold TssCommon.step at h
    rw [hc] at h
    simp only [if_true] at h
    rw [hc] at h; cases h

theorem complete_of_loop {env : TssCommon.Env K P} {m₀ : Manager K P} (h1 : m₀.storedMsg = []) (h2 : m₀.lastUnicastPeer = [])
    (hsame : ∀ i, i ∈ Map.keys m₀.partyIDtoP2PID ↔ i ∈ Map.keys m₀.partyIDMap) {h : List (TssCommon.Event P)} {s : TssCommon.St K P}
    (hl : LoopSes env m₀ h s) (hcr : s.crashed = false) (r : String) (i : Nat) (hs : SentUnicast env m₀ h r i) : Delivered s.mgr r i := by
  induction hl with
  | init => obtain ⟨e, he, _⟩ := hs; cases he
  | @inbound h s e hl ih =>
    have hcr' := step_crashed hcr
    have hsd := sound_of_loop h1 h2 hl
    obtain ⟨e', he', t, w, d1, d2, d3, d4, rfl⟩ := hs
    rcases List.mem_append.1 he' with he' | he'
    · exact delivered_micros (step_micro env s e) (ih hcr' ⟨e', he', t, w, d1, d2, d3, d4, rfl⟩)
    · simp only [List.mem_singleton] at he'
      subst he'
      refine step_delivers env s e' hcr' t w d1 (by rw [hsd.good.ids]; exact d2) i d3 d4 ?_
      rw [hsd.good.peers]
      obtain ⟨i', p, s1, s2, _⟩ := d2
      rw [d3] at s1; cases s1
      exact Option.isSome_iff_exists.1 ((Map.get_isSome_iff _ _).2 ((hsame i).2 ((Map.get_isSome_iff _ _).1 (by rw [s2]; rfl))))
  | adjust lm b hl ih => exact ih hcr hs

/-! ## C92 and C93 for the loops -/

/-- the inbound messages of a loop history -/
def inbounds {R : Type} (h : List (LoopEvent P R)) : List (TssCommon.Event P) :=
  h.filterMap fun e => match e with
    | .inbound e => some e
    | _ => none

/-- type and broadcast flag of the last message the local party produced -/
def lastOut {R : Type} (env : LoopEnv K P) (h : List (LoopEvent P R)) : Option (String × Bool) :=
  (h.filterMap fun e => match e with
    | .out _ o => some (o.type, env.isBroadcast o)
    | _ => none).getLast?

/-- Specification: the members silent in the unicast round, in terms of what was received: whoever is listed sent us nothing; whoever of the
others is not listed did, or nobody sent anything. -/
structure SilentInHistory (env : TssCommon.Env K P) (m₀ : Manager K P) (h : List (TssCommon.Event P)) (round : String) (U : List Nat) : Prop where
  nodup : U.Nodup
  member : ∀ i ∈ U, i ∈ Map.keys m₀.partyIDMap ∧ i ≠ m₀.localPartyID
  silent : ∀ i ∈ U, ¬ SentUnicast env m₀ h round i
  all : ∀ j, SentUnicast env m₀ h round j → ∀ i ∈ Map.keys m₀.partyIDMap, i ≠ m₀.localPartyID → ¬ GotUnicast env m₀ h round i → i ∈ U
  noone : (∀ i, ¬ GotUnicast env m₀ h round i) → U = []

theorem silent_history {c : Codec K P} {env : TssCommon.Env K P} {m₀ : Manager K P} (hc : Committee c m₀) (h1 : m₀.storedMsg = [])
    (h2 : m₀.lastUnicastPeer = []) {h : List (TssCommon.Event P)} {s : TssCommon.St K P} (hl : LoopSes env m₀ h s) (hcr : s.crashed = false)
    {round : String} {U : List Nat} (hu : SilentUnicast s.mgr round U) : SilentInHistory env m₀ h round U := by
  have hsd := sound_of_loop h1 h2 hl
  obtain ⟨u1, u2, u3⟩ := hu
  rw [hsd.good.ids, hsd.loc] at u2
  have hrec : U ≠ [] → ∃ l, Map.get s.mgr.lastUnicastPeer round = some l := by
    intro hne
    rcases hg : Map.get s.mgr.lastUnicastPeer round with _ | l
    · exact absurd (u3 hg) hne
    · exact ⟨l, rfl⟩
  refine ⟨u1, ?_, ?_, ?_, ?_⟩
  · intro i hi
    have := (u2 (hrec (List.ne_nil_of_mem hi)) i).1 hi
    exact ⟨this.1, this.2.1⟩
  · intro i hi hs
    have := (u2 (hrec (List.ne_nil_of_mem hi)) i).1 hi
    exact this.2.2 (complete_of_loop h1 h2 hc.same hl hcr round i hs)
  · intro j hj i hi hne hng
    obtain ⟨l, p, d1, _, _⟩ := complete_of_loop h1 h2 hc.same hl hcr round j hj
    refine (u2 ⟨l, d1⟩ i).2 ⟨hi, hne, ?_⟩
    rintro ⟨l', p', e1, e2, e3⟩
    obtain ⟨i', g1, g2⟩ := hsd.uni round l' p' e1 e3
    rw [hsd.good.peers] at e2
    exact hng (hc.inj i i' p' e2 g2 ▸ g1)
  · intro hno
    apply u3
    rcases hg : Map.get s.mgr.lastUnicastPeer round with _ | l
    · rfl
    · obtain ⟨p, hp⟩ := List.exists_mem_of_ne_nil l (hsd.none_empty round l hg)
      obtain ⟨i, g1, _⟩ := hsd.uni round l p hg hp
      exact absurd g1 (hno i)

theorem loop_manager {c : Codec K P} {env : TssCommon.Env K P} {m₀ : Manager K P} (hc : Committee c m₀) (h1 : m₀.storedMsg = [])
    (h2 : m₀.lastUnicastPeer = []) {h : List (TssCommon.Event P)} {s : TssCommon.St K P} (hl : LoopSes env m₀ h s) :
    Committee c s.mgr ∧ Map.WF s.mgr.storedMsg ∧ ∀ key w, Map.get s.mgr.storedMsg key = some w → w.sender ≠ none := by
  have hsd := sound_of_loop h1 h2 hl
  refine ⟨⟨?_, ?_, ?_, ?_, ?_, ?_, ?_⟩, hsd.wf, ?_⟩
  · rw [hsd.good.ids]; exact hc.wf
  · rw [hsd.good.ids]; exact hc.ids
  · rw [hsd.good.ids]; exact hc.named
  · rw [hsd.good.peers]; exact hc.wfp
  · rw [hsd.good.ids, hsd.good.peers]; exact hc.same
  · rw [hsd.good.peers]; exact hc.inj
  · rw [hsd.good.ids, hsd.loc]; exact hc.loc
  · intro key w hw
    obtain ⟨_, _, i, hi, _⟩ := hsd.good.stored h1 key w hw
    rw [hi]; simp

theorem timeoutBlame_frame {c : Codec K P} {sch : BlameSched P} {a l : String} {rounds n : Nat} {m m' : Manager K P}
    (h : timeoutBlame c sch a l rounds n m = .ok m') : m' = { m with blame := m'.blame } := by
  unfold timeoutBlame at h
  obtain ⟨m₁, h1, h⟩ := Res.bind_eq_ok.1 h
  obtain ⟨m₂, h2, h3⟩ := Res.bind_eq_ok.1 h
  have e1 : m₁ = { m with blame := m₁.blame } := by
    unfold unicastPart at h1
    split at h1
    · split at h1 <;> cases h1 <;> rfl
    · cases h1; rfl
    · cases h1
  have e2 : m₂ = { m₁ with blame := m₂.blame } := by
    unfold broadcastPart at h2
    split at h2
    · cases h2; rfl
    · cases h2; rfl
    · cases h2
  have e3 : m' = { m₂ with blame := m'.blame } := by
    unfold missingPart at h3
    split at h3
    · split at h3
      · split at h3 <;> cases h3 <;> rfl
      · cases h3; rfl
      · cases h3
    · cases h3; rfl
  rw [e2, e1] at e3
  exact e3

theorem keysignTimeout_frame {c : Codec K P} {sch : BlameSched P} {n : Nat} {m m' : Manager K P}
    (h : keysignTimeout c sch n m = .ok m') : m' = { m with blame := m'.blame } := by
  unfold keysignTimeout at h
  split at h
  · cases h
  · exact timeoutBlame_frame h

theorem keygenTimeout_frame {c : Codec K P} {sch : BlameSched P} {n : Nat} {m m' : Manager K P}
    (h : keygenTimeout c sch n m = .ok m') : m' = { m with blame := m'.blame } := by
  unfold keygenTimeout at h
  split at h
  · cases h; rfl
  · exact timeoutBlame_frame h

theorem adjust_blame {env : TssCommon.Env K P} {m₀ : Manager K P} {h : List (TssCommon.Event P)} {s : TssCommon.St K P} (hl : LoopSes env m₀ h s)
    {m' : Manager K P} (he : m' = { s.mgr with blame := m'.blame }) : LoopSes env m₀ h { s with mgr := m' } := by
  rw [he]
  exact LoopSes.adjust s.mgr.lastMsg m'.blame hl

theorem stepJob_last (env : TssCommon.Env K P) (id : Nat) (s : TssCommon.St K P) : (stepJob env id s).mgr.lastMsg = s.mgr.lastMsg := by
  unfold stepJob
  split
  · rfl
  · split
    · rfl
    · dsimp only; unfold Manager.updateAcceptShare; split <;> rfl
    · unfold processInvalidMsgBlame
      dsimp only
      split <;> rfl

theorem step_last (env : TssCommon.Env K P) (s : TssCommon.St K P) (e : TssCommon.Event P) : (TssCommon.step env s e).mgr.lastMsg = s.mgr.lastMsg := by
  have hm := step_micro env s e
  generalize TssCommon.step env s e = s' at hm
  induction hm with
  | refl => rfl
  | tail _ hmic ih =>
    rw [← ih]
    cases hmic with
    | work id => exact stepJob_last env id _
    | unicast => dsimp only; unfold Manager.setLastUnicastPeer; split <;> rfl
    | queue | store | arrive | vote | blameOwner | blameSplit | dropMsg | forget | ask | answer | sendConfirm | askSilent | sendAnswer | done | crash => rfl

theorem inbounds_snoc {R : Type} (h : List (LoopEvent P R)) (e : LoopEvent P R) :
    inbounds (h ++ [e]) = inbounds h ++ (match e with | .inbound e => [e] | _ => []) := by
  unfold inbounds
  rw [List.filterMap_append]
  cases e <;> rfl

theorem lastOut_snoc {R : Type} (env : LoopEnv K P) (h : List (LoopEvent P R)) (e : LoopEvent P R) :
    lastOut env (h ++ [e]) = (match e with | .out _ o => some (o.type, env.isBroadcast o) | _ => lastOut env h) := by
  unfold lastOut
  rw [List.filterMap_append]
  cases e <;> simp

/-- the loop of signing -/
theorem sign_loop (env : LoopEnv K P) (n : Nat) (m₀ : Manager K P) (hm : m₀.lastMsg = none) (h : List (LoopEvent P Sig)) :
    (signRun env n (newTssCommon m₀) h).crashed = false →
      LoopSes env.ses m₀ (inbounds h) (signRun env n (newTssCommon m₀) h).ses ∧ (signRun env n (newTssCommon m₀) h).ses.crashed = false ∧
      ((signRun env n (newTssCommon m₀) h).result = none → (signRun env n (newTssCommon m₀) h).ses.mgr.lastMsg = lastOut env h) := by
  induction h using List.reverseRecOn with
  | nil => intro _; exact ⟨LoopSes.init, rfl, fun _ => hm⟩
  | append_singleton h e ih =>
    have hrun : signRun env n (newTssCommon m₀) (h ++ [e]) = signStep env n (signRun env n (newTssCommon m₀) h) e := by simp [signRun]
    rw [hrun, inbounds_snoc, lastOut_snoc]
    generalize signRun env n (newTssCommon m₀) h = s at ih
    unfold signStep
    by_cases hc : s.crashed = true
    · rw [if_pos hc]; intro h'; rw [hc] at h'; cases h'
    rw [if_neg hc]
    obtain ⟨i1, i2, i3⟩ := ih (by simpa using hc)
    cases e with
    | inbound e =>
      dsimp only
      intro hcr
      exact ⟨LoopSes.inbound e i1, hcr, fun hr => by rw [step_last]; exact i3 hr⟩
    | startFailed =>
      dsimp only
      split
      · intro _; exact ⟨by simpa using i1, i2, i3⟩
      · intro _; exact ⟨by simpa using i1, i2, fun h => by cases h⟩
    | stop =>
      dsimp only
      split
      · intro _; exact ⟨by simpa using i1, i2, i3⟩
      · intro _; exact ⟨by simpa using i1, i2, fun h => by cases h⟩
    | timeout sch =>
      dsimp only
      split
      · intro _; exact ⟨by simpa using i1, i2, i3⟩
      · split
        · rename_i m' hm'
          intro _
          exact ⟨by simpa using adjust_blame i1 (keysignTimeout_frame hm'), i2, fun h => by cases h⟩
        · intro h; cases h
    | out sch o =>
      dsimp only
      split
      · rename_i hr
        intro _
        refine ⟨by simpa using i1, i2, fun h => ?_⟩
        rw [h] at hr; cases hr
      · have hl : LoopSes env.ses m₀ (inbounds h) { s.ses with mgr := setLastMsg env o s.ses.mgr } :=
          LoopSes.adjust (some (o.type, env.isBroadcast o)) s.ses.mgr.blame i1
        split
        · intro _; exact ⟨by simpa using hl, i2, fun _ => rfl⟩
        · intro _; exact ⟨by simpa using hl, i2, fun _ => rfl⟩
        · intro h; cases h
    | done sig =>
      dsimp only
      split
      · intro _; exact ⟨by simpa using i1, i2, i3⟩
      · split
        · intro _; exact ⟨by simpa using i1, i2, i3 ∘ fun h => by cases h⟩
        · intro _; exact ⟨by simpa using i1, i2, i3⟩

/-- C92: the timeout of a signing run. Before it the run produced `last` and was neither ended nor crashed. -/
theorem c92_keysign_run (env : LoopEnv K P) (n : Nat) (m₀ : Manager K P) (hc : Committee env.ses.codec m₀) (h0 : m₀.storedMsg = [])
    (h1 : m₀.lastUnicastPeer = []) (h2 : m₀.lastMsg = none) (hp : env.out.p2pPeers.length + 1 ≤ 2 ^ 50) (h : List (LoopEvent P Sig))
    (last asked : String) (b : Bool) (hl : lastOut env h = some (last, b)) (ha : (last, b, asked) ∈ askedAfter) (sch : BlameSched P)
    (hr : (signRun env n (newTssCommon m₀) h).result = none) (hcr : (signRun env n (newTssCommon m₀) h).crashed = false) :
    let s := signRun env n (newTssCommon m₀) h
    let s' := signRun env n (newTssCommon m₀) (h ++ [.timeout sch])
    ∃ U B, SilentInHistory env.ses m₀ (inbounds h) asked U ∧ SilentBroadcast s.ses.mgr last B ∧
      (Evidence (env.out.p2pPeers.length + 1) U B s.ses.mgr → s'.result = some (.error .timeout) ∧ s'.crashed = false ∧
        Verdict env.ses.codec (env.out.p2pPeers.length + 1) U B s.ses.mgr s'.ses.mgr) := by
  intro s s'
  obtain ⟨l1, l2, l3⟩ := sign_loop env n m₀ h2 h hcr
  obtain ⟨g1, g2, g3⟩ := loop_manager hc h0 h1 l1
  obtain ⟨U, B, v1, v2, v3⟩ := c92_keysign env.ses.codec _ g1 g2 g3 sch last asked b ((l3 hr).trans hl) ha env.out.p2pPeers.length hp
  refine ⟨U, B, silent_history hc h0 h1 l1 l2 v1, v2, fun he => ?_⟩
  obtain ⟨m', hm', hv⟩ := v3 he
  have hs' : s' = signStep env n s (.timeout sch) := by simp [s', s, signRun]
  have : s' = { s with ses := { s.ses with mgr := m' }, result := some (.error .timeout) } := by
    rw [hs']
    unfold signStep
    rw [if_neg (by rw [hcr]; simp)]
    dsimp only
    rw [if_neg (by rw [hr]; simp), hm']
  rw [this]
  exact ⟨rfl, hcr, hv⟩

section keygen
open Verif.Keygen
variable {S H L Pt A Q : Type} [LinearOrder S] [LinearOrder H]

theorem genDone_ses (env : KEnv P S H L Pt A Q) (keys : List Server.Str) (e : End L A Q) (s : GenSt P Pt) :
    (genDone env keys e s).ses = s.ses ∧ (genDone env keys e s).notified = true ∧
      ((genDone env keys e s).result ≠ none ∨ (genDone env keys e s).crashed = true) := by
  unfold genDone
  split
  · dsimp only
    split
    · exact ⟨rfl, rfl, Or.inl (by simp)⟩
    · exact ⟨rfl, rfl, Or.inl (by simp)⟩
    · exact ⟨rfl, rfl, Or.inr rfl⟩
  · exact ⟨rfl, rfl, Or.inl (by simp)⟩

theorem genDone_crashed (env : KEnv P S H L Pt A Q) (keys : List Server.Str) (e : End L A Q) (s : GenSt P Pt)
    (h : (genDone env keys e s).crashed = false) : (genDone env keys e s).result ≠ none := by
  rcases (genDone_ses env keys e s).2.2 with h' | h'
  · exact h'
  · rw [h'] at h; cases h

/-- the loop of key generation -/
theorem gen_loop (kenv : KEnv P S H L Pt A Q) (env : LoopEnv Server.Str P) (keys : List Server.Str) (m₀ : Manager Server.Str P) (disk : Storage.Disk)
    (hm : m₀.lastMsg = none) (h : List (LoopEvent P (End L A Q))) :
    (genRun kenv env keys (newTssCommon m₀) disk h).crashed = false →
      LoopSes env.ses m₀ (inbounds h) (genRun kenv env keys (newTssCommon m₀) disk h).ses ∧
      (genRun kenv env keys (newTssCommon m₀) disk h).ses.crashed = false ∧
      ((genRun kenv env keys (newTssCommon m₀) disk h).result = none →
        (genRun kenv env keys (newTssCommon m₀) disk h).ses.mgr.lastMsg = lastOut env h) := by
  induction h using List.reverseRecOn with
  | nil => intro _; exact ⟨LoopSes.init, rfl, fun _ => hm⟩
  | append_singleton h e ih =>
    have hrun : genRun kenv env keys (newTssCommon m₀) disk (h ++ [e]) = genStep kenv env keys (genRun kenv env keys (newTssCommon m₀) disk h) e := by
      simp [genRun]
    rw [hrun, inbounds_snoc, lastOut_snoc]
    generalize genRun kenv env keys (newTssCommon m₀) disk h = s at ih
    unfold genStep
    by_cases hc : s.crashed = true
    · rw [if_pos hc]; intro h'; rw [hc] at h'; cases h'
    rw [if_neg hc]
    obtain ⟨i1, i2, i3⟩ := ih (by simpa using hc)
    cases e with
    | inbound e =>
      dsimp only
      intro hcr
      exact ⟨LoopSes.inbound e i1, hcr, fun hr => by rw [step_last]; exact i3 hr⟩
    | startFailed =>
      dsimp only
      split
      · intro _; exact ⟨by simpa using i1, i2, i3⟩
      · intro _; exact ⟨by simpa using i1, i2, fun h => by cases h⟩
    | stop =>
      dsimp only
      split
      · intro _; exact ⟨by simpa using i1, i2, i3⟩
      · intro _; exact ⟨by simpa using i1, i2, fun h => by cases h⟩
    | timeout sch =>
      dsimp only
      split
      · intro _; exact ⟨by simpa using i1, i2, i3⟩
      · split
        · intro _; exact ⟨by simpa using i1, i2, fun h => by cases h⟩
        · split
          · rename_i m' hm'
            intro _
            exact ⟨by simpa using adjust_blame i1 (keygenTimeout_frame hm'), i2, fun h => by cases h⟩
          · intro h; cases h
    | out sch o =>
      dsimp only
      split
      · rename_i hr
        intro _
        refine ⟨by simpa using i1, i2, fun h => ?_⟩
        rw [h] at hr; cases hr
      · have hl : LoopSes env.ses m₀ (inbounds h) { s.ses with mgr := setLastMsg env o s.ses.mgr } :=
          LoopSes.adjust (some (o.type, env.isBroadcast o)) s.ses.mgr.blame i1
        split
        · intro _; exact ⟨by simpa using hl, i2, fun _ => rfl⟩
        · intro _; exact ⟨by simpa using hl, i2, fun _ => rfl⟩
        · intro h; cases h
    | done r =>
      dsimp only
      split
      · intro _; exact ⟨by simpa using i1, i2, i3⟩
      · intro hcr
        rw [(genDone_ses kenv keys r s).1]
        exact ⟨by simpa using i1, i2, fun h => absurd h (genDone_crashed kenv keys r s hcr)⟩

/-- C92: the timeout of a key generation run. Before it the run produced `last` and was neither ended nor crashed. -/
theorem c92_keygen_run (kenv : KEnv P S H L Pt A Q) (env : LoopEnv Server.Str P) (keys : List Server.Str) (m₀ : Manager Server.Str P)
    (disk : Storage.Disk) (hc : Committee env.ses.codec m₀) (h0 : m₀.storedMsg = [])
    (h1 : m₀.lastUnicastPeer = []) (h2 : m₀.lastMsg = none) (hp : env.out.p2pPeers.length + 1 ≤ 2 ^ 50) (h : List (LoopEvent P (End L A Q)))
    (last : String) (b : Bool) (hl : lastOut env h = some (last, b)) (sch : BlameSched P)
    (hr : (genRun kenv env keys (newTssCommon m₀) disk h).result = none) (hcr : (genRun kenv env keys (newTssCommon m₀) disk h).crashed = false) :
    let s := genRun kenv env keys (newTssCommon m₀) disk h
    let s' := genRun kenv env keys (newTssCommon m₀) disk (h ++ [.timeout sch])
    ∃ U B, SilentInHistory env.ses m₀ (inbounds h) "KGRound2Message1" U ∧ SilentBroadcast s.ses.mgr last B ∧
      (Evidence (env.out.p2pPeers.length + 1) U B s.ses.mgr → s'.result = some (.error .timeout) ∧ s'.crashed = false ∧
        Verdict env.ses.codec (env.out.p2pPeers.length + 1) U B s.ses.mgr s'.ses.mgr) := by
  intro s s'
  obtain ⟨l1, l2, l3⟩ := gen_loop kenv env keys m₀ disk h2 h hcr
  obtain ⟨g1, g2, g3⟩ := loop_manager hc h0 h1 l1
  have hlm := (l3 hr).trans hl
  obtain ⟨U, B, v1, v2, v3⟩ := c92_keygen env.ses.codec _ g1 g2 g3 sch last b hlm env.out.p2pPeers.length hp
  refine ⟨U, B, silent_history hc h0 h1 l1 l2 v1, v2, fun he => ?_⟩
  obtain ⟨m', hm', hv⟩ := v3 he
  have hs' : s' = genStep kenv env keys s (.timeout sch) := by simp [s', s, genRun]
  have : s' = { s with ses := { s.ses with mgr := m' }, result := some (.error .timeout) } := by
    rw [hs']
    unfold genStep
    rw [if_neg (by rw [hcr]; simp)]
    dsimp only
    rw [if_neg (by rw [hr]; simp), hlm, hm']
  rw [this]
  exact ⟨rfl, hcr, hv⟩

/-- C93, key generation: the peers are told that the task is done exactly when the local party has delivered while the loop was running. -/
theorem c93_keygen_told (kenv : KEnv P S H L Pt A Q) (env : LoopEnv Server.Str P) (keys : List Server.Str) (ses : TssCommon.St Server.Str P)
    (disk : Storage.Disk) (h : List (LoopEvent P (End L A Q))) :
    (genRun kenv env keys ses disk h).notified = true ↔ ∃ pre e post, h = pre ++ .done e :: post ∧
      (genRun kenv env keys ses disk pre).result = none ∧ (genRun kenv env keys ses disk pre).crashed = false := by
  have hstep : ∀ (s : GenSt P Pt) e, (genStep kenv env keys s e).notified = true ↔
      s.notified = true ∨ ((∃ r, e = .done r) ∧ s.result = none ∧ s.crashed = false) := by
    intro s e
    unfold genStep
    by_cases hc : s.crashed = true
    · rw [if_pos hc, hc]; simp
    rw [if_neg hc]
    cases e with
    | done r =>
      dsimp only
      by_cases hr : s.result.isSome = true
      · rw [if_pos hr]
        have : s.result ≠ none := by rw [← Option.isSome_iff_ne_none]; exact hr
        simp [this]
      · rw [if_neg hr, (genDone_ses kenv keys r s).2.1]
        simp only [Option.not_isSome_iff_eq_none] at hr
        simp [hr, hc]
    | inbound e => simp
    | startFailed => dsimp only; split <;> simp
    | stop => dsimp only; split <;> simp
    | timeout sch =>
      dsimp only
      split
      · simp
      · split
        · simp
        · split <;> simp
    | out sch o =>
      dsimp only
      split
      · simp
      · split <;> simp
  induction h using List.reverseRecOn with
  | nil => simp [genRun, genInit]
  | append_singleton h e ih =>
    have hrun : genRun kenv env keys ses disk (h ++ [e]) = genStep kenv env keys (genRun kenv env keys ses disk h) e := by simp [genRun]
    rw [hrun]
    refine (hstep _ e).trans ((or_congr ih Iff.rfl).trans ?_)
    constructor
    · rintro (⟨pre, r, post, rfl, h1⟩ | ⟨⟨r, rfl⟩, h1⟩)
      · exact ⟨pre, r, post ++ [e], by simp, h1⟩
      · exact ⟨h, r, [], rfl, h1⟩
    · rintro ⟨pre, r, post, he, h1⟩
      rcases List.eq_nil_or_concat post with rfl | ⟨post', x, rfl⟩
      · obtain ⟨rfl, h2⟩ := List.append_inj' he rfl
        cases h2
        exact Or.inr ⟨⟨r, rfl⟩, h1⟩
      · left
        rw [List.concat_eq_append, ← List.cons_append, ← List.append_assoc] at he
        obtain ⟨rfl, h2⟩ := List.append_inj' he rfl
        exact ⟨pre, r, post', rfl, h1⟩

end keygen

/-- C93, signing: the peers are told that the task is done exactly when the loop has ended with the signatures. -/
theorem c93_keysign_told (env : LoopEnv K P) (n : Nat) (ses : TssCommon.St K P) (h : List (LoopEvent P Sig)) :
    (signRun env n ses h).notified = true ↔ ∃ sigs, (signRun env n ses h).result = some (.ok sigs) := by
  induction h using List.reverseRecOn with
  | nil => simp [signRun, signInit]
  | append_singleton h e ih =>
    have hrun : signRun env n ses (h ++ [e]) = signStep env n (signRun env n ses h) e := by simp [signRun]
    rw [hrun]
    generalize signRun env n ses h = s at ih
    unfold signStep
    by_cases hc : s.crashed = true
    · rw [if_pos hc]; exact ih
    rw [if_neg hc]
    have hno : ¬ s.result.isSome = true → s.notified = false := by
      intro hr
      cases hn : s.notified with
      | false => rfl
      | true =>
        obtain ⟨l, hl⟩ := ih.1 hn
        rw [hl] at hr; simp at hr
    cases e with
    | inbound e => exact ih
    | startFailed =>
      dsimp only
      split
      · exact ih
      · rename_i hr; simp [hno hr]
    | stop =>
      dsimp only
      split
      · exact ih
      · rename_i hr; simp [hno hr]
    | timeout sch =>
      dsimp only
      split
      · exact ih
      · rename_i hr
        split
        · simp [hno hr]
        · exact ih
    | out sch o =>
      dsimp only
      split
      · exact ih
      · rename_i hr
        split
        · exact ih
        · simp [hno hr]
        · exact ih
    | done sig =>
      dsimp only
      split
      · exact ih
      · rename_i hr
        split
        · simp
        · exact ih

/-! ## examples -/
namespace Demo
variable {R : Type}

/-- a unicast message of member `i` in this round -/
def ucast (i : Nat) (round : String) : WireMessage := ⟨some ⟨some (some i), [], false⟩, round, [9], [UInt8.ofNat (i + 1)]⟩

/-- member 0 of a committee of four, running a loop -/
def lenv (r : String) : LoopEnv Nat Nat where
  ses := demoEnv { wires := [ucast 1 r, ucast 2 r, ucast 3 r] } 10 [11, 12, 13]
  out := ⟨2, [11, 12, 13], demoPeers, fun i => toString i⟩
  isBroadcast o := decide (o.type ≠ "SignRound2Message" ∧ o.type ≠ "KGRound2Message1")

/-- the local party produces a message of this round -/
def out (r : String) : LoopEvent Nat R :=
  .out ⟨Shuffle.id _, Shuffle.id _, fun _ => true⟩ ⟨r, "m", some ([1], ⟨some (some 0), if r = "SignRound3Message" then [] else [1], r = "SignRound3Message"⟩)⟩

/-- visiting orders of the maps -/
def sch : BlameSched Nat := ⟨Shuffle.id _, Shuffle.id _, Shuffle.id _, Shuffle.id _, Shuffle.id _, Shuffle.id _, Shuffle.id _, fun _ => Shuffle.id _⟩

/-- members 1 and 2 delivered their unicast shares, member 3 did not -/
def hist (r last : String) : List (LoopEvent Nat R) :=
  [out r, .inbound (recv 1 0 11), .inbound (recv 1 1 12), out last]

def after (r last : String) : SignSt Nat Nat := signRun (lenv r) 2 (newTssCommon (demoManager 0)) (hist r last)

/-- The hypotheses of `c92_keysign_run` are met, and the timeout blames member 3 only, for its silence in the unicast round. -/
example : lastOut (lenv "SignRound2Message") (hist (R := Sig) "SignRound2Message" "SignRound3Message") = some ("SignRound3Message", true) ∧
    ("SignRound3Message", true, "SignRound2Message") ∈ askedAfter ∧
    (after "SignRound2Message" "SignRound3Message").result.isNone = true ∧ (after "SignRound2Message" "SignRound3Message").crashed = false ∧
    Committee (lenv "SignRound2Message").ses.codec (demoManager (K := Nat) 0) ∧
    (signStep (lenv "SignRound2Message") 2 (after "SignRound2Message" "SignRound3Message") (.timeout sch)).ses.mgr.blame =
      ⟨"Tss timeout", true, [⟨23, [], []⟩]⟩ := by
  refine ⟨by decide +kernel, by decide +kernel, by decide +kernel, by decide +kernel, demoCommittee 0 (by decide), by decide +kernel⟩

/-- Two silent members of four are at most the threshold 2; three are too many to be blamed. -/
example : small 4 [2, 3] = [2, 3] ∧ small 4 [1, 2, 3] = [] := by
  have h : ⌈(2 * ((4 : Nat) : ℚ)) / 3⌉ - 1 = 2 := by
    have : ⌈(2 * ((4 : Nat) : ℚ)) / 3⌉ = 3 := by rw [Int.ceil_eq_iff]; norm_num
    rw [this]; rfl
  unfold small
  rw [h]
  exact ⟨if_pos (by decide), if_neg (by decide)⟩

/-- what was received is what the specification speaks about -/
example : SentUnicast (lenv "SignRound2Message").ses (demoManager (K := Nat) 0) [recv 1 0 11] "SignRound2Message" 1 :=
  ⟨recv 1 0 11, by simp, 1, ucast 1 "SignRound2Message", ⟨[1, 0], 11, plain, [0], rfl, rfl, by decide, rfl⟩, ⟨1, ⟨1, [2], 1⟩, rfl, by decide +kernel, by decide +kernel⟩,
    rfl, rfl, rfl⟩

/-- C92 without silence, key generation: member 2's share of the second round is missing, and it is blamed. The hypotheses on the shares are those
of the example of C42. -/
example : let m : Manager Nat Nat := { withShares [(⟨0, "r", ""⟩, [1, 2, 3]), (⟨1, "s", ""⟩, [3, 1])] with lastMsg := some ("KGRound2Message2", true) }
    (match keygenTimeout demoCodec sch 3 m with | .ok m' => some m'.blame | _ => none) = some ⟨"", true, [⟨22, [], []⟩]⟩ := by decide +kernel

/-- the peers are told when all signatures are there, not earlier -/
example : (signRun (lenv "R") 2 (newTssCommon (demoManager 0)) [.done ⟨none, [], [], [], []⟩]).notified = false ∧
    (signRun (lenv "R") 2 (newTssCommon (demoManager 0)) [.done ⟨none, [], [], [], []⟩, .done ⟨none, [], [], [], []⟩]).notified = true := by
  decide +kernel

end Demo

end Verif.Props.TimeoutVerdict
