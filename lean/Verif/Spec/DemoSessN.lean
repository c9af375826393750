import Verif.Spec.DemoSessNet
import Verif.Spec.DemoSession

/-! A concrete session of `n` members for the examples: member `i` has key bytes `[i + 1]`, public key `20 + i` and peer id `10 + i`, a signature is
the key of the signer, the digest is injective, and the local parties of every member refuse what `upd` says. -/
set_option linter.unusedSectionVars false
namespace Verif.Spec
open Verif.Go Verif.Conversion Verif.Messages Verif.Blame Verif.TssCommon Verif.SessNet

/-- the party map of `n` members -/
def idsN (n : Nat) : Map Nat Party := (List.range n).map fun i => (i, ⟨i, [UInt8.ofNat (i + 1)], i⟩)

/-- the peers of `n` members -/
def peersN (n : Nat) : Map Nat Nat := (List.range n).map fun i => (i, i + 10)

/-- the blame manager of member `loc` at the start -/
def mgrN (n loc : Nat) : Manager Nat Nat := newManager (idsN n) (peersN n) loc

/-- what the members have in common -/
def baseN : TssCommon.Env Nat Nat :=
  { demoBase with
    parse := fun b => match b with
      | 0 :: _ => some .KGRound1Message
      | 1 :: _ => some .KGRound2Message1
      | 2 :: _ => some .KGRound2Message2
      | 3 :: _ => some .KGRound3Message
      | _ => none }

/-- the peers a member talks to -/
def othersN (n q : Nat) : List Nat := ((List.range n).map (· + 10)).filter (fun p => p ≠ q)

/-- the node with peer id `q` -/
def siteN (n : Nat) (upd : List Entry → Share → Option (List Culprit)) (q : Nat) : Site Nat Nat where
  env := { baseN with localPeer := q, p2pPeers := othersN n q, upd := upd }
  out := ⟨1, othersN n q, peersN n, fun d => String.ofList (List.replicate d 'x')⟩
  mgr := mgrN n (q - 10)
  type := TSSKeyGenMsg
  sign _ := [UInt8.ofNat (q - 9)]

theorem getN {α : Type} (f : Nat → α) (n i : Nat) : Map.get ((List.range n).map fun i => (i, f i)) i = if i < n then some (f i) else none := by
  have hwf : Map.WF ((List.range n).map fun i => (i, f i)) := by
    unfold Map.WF Map.keys
    rw [List.map_map]
    show ((List.range n).map fun i => i).Nodup
    rw [List.map_id']
    exact List.nodup_range
  split
  · rename_i h
    exact Map.get_of_mem hwf (List.mem_map.2 ⟨i, List.mem_range.2 h, rfl⟩)
  · rename_i h
    rcases hg : Map.get ((List.range n).map fun i => (i, f i)) i with _ | a
    · rfl
    · obtain ⟨j, hj, hje⟩ := List.mem_map.1 (Map.mem_of_get hg)
      cases hje
      exact absurd (List.mem_range.1 hj) h

theorem keysN {α : Type} (f : Nat → α) (n : Nat) : Map.keys ((List.range n).map fun i => (i, f i)) = List.range n := by
  unfold Map.keys
  rw [List.map_map]
  show ((List.range n).map fun i => i) = _
  exact List.map_id' _

theorem memberN (n q : Nat) : Member (peersN n) q ↔ 10 ≤ q ∧ q < n + 10 := by
  constructor
  · rintro ⟨i, hi⟩
    unfold peersN at hi
    rw [getN (fun i => i + 10)] at hi
    split at hi
    · cases hi; omega
    · cases hi
  · rintro ⟨h1, h2⟩
    refine ⟨q - 10, ?_⟩
    unfold peersN
    rw [getN (fun i => i + 10), if_pos (by omega)]
    congr 1; omega

theorem peersN_get {n i q : Nat} (h : Map.get (peersN n) i = some q) : q = i + 10 ∧ i < n := by
  unfold peersN at h
  rw [getN (fun i => i + 10)] at h
  split at h
  · cases h; exact ⟨rfl, by assumption⟩
  · cases h

theorem idsN_get {n i : Nat} {p : Party} (h : Map.get (idsN n) i = some p) : p = ⟨i, [UInt8.ofNat (i + 1)], i⟩ ∧ i < n := by
  unfold idsN at h
  rw [getN (fun i => (⟨i, [UInt8.ofNat (i + 1)], i⟩ : Party))] at h
  split at h
  · cases h; exact ⟨rfl, by assumption⟩
  · cases h

theorem committeeN {n loc : Nat} (hn : n ≤ 200) (hl : loc < n) : Committee baseN.codec (mgrN n loc) where
  wf := by
    show (Map.keys (idsN n)).Nodup
    unfold idsN
    rw [keysN (fun i => (⟨i, [UInt8.ofNat (i + 1)], i⟩ : Party))]
    exact List.nodup_range
  ids i p h := by rw [(idsN_get h).1]
  named i p h := by
    obtain ⟨rfl, hi⟩ := idsN_get h
    have : ∀ j < 200, PartyIDtoPubKey demoCodec ⟨j, [UInt8.ofNat (j + 1)], j⟩ = .ok (j + 20) := by decide +kernel
    exact ⟨i + 20, this i (by omega)⟩
  wfp := by
    show (Map.keys (peersN n)).Nodup
    unfold peersN
    rw [keysN (fun i => i + 10)]
    exact List.nodup_range
  same i := by
    show i ∈ Map.keys (peersN n) ↔ i ∈ Map.keys (idsN n)
    unfold peersN idsN
    rw [keysN (fun i => i + 10), keysN (fun i => (⟨i, [UInt8.ofNat (i + 1)], i⟩ : Party))]
  inj i j p hi hj := by
    have := (peersN_get hi).1
    have := (peersN_get hj).1
    omega
  loc := by
    show loc ∈ Map.keys (idsN n)
    unfold idsN
    rw [keysN (fun i => (⟨i, [UInt8.ofNat (i + 1)], i⟩ : Party))]
    exact List.mem_range.2 hl

theorem settingN {n : Nat} (hn : n ≤ 200) (upd : List Entry → Share → Option (List Culprit)) :
    Setting demoEnc baseN (idsN n) (peersN n) (siteN n upd) where
  env q _ := rfl
  others q _ p := by
    rw [memberN]
    simp only [siteN, othersN, List.mem_filter, List.mem_map, List.mem_range, decide_eq_true_eq]
    constructor
    · rintro ⟨⟨a, h1, rfl⟩, h2⟩; exact ⟨⟨by omega, by omega⟩, h2⟩
    · rintro ⟨⟨h1, h2⟩, h3⟩; exact ⟨⟨p - 10, by omega, by omega⟩, h3⟩
  distinct q _ := by
    show (othersN n q).Nodup
    refine List.Nodup.filter _ ?_
    refine (List.nodup_map_iff ?_).2 List.nodup_range
    intro a b h
    simpa using h
  idMap q _ := rfl
  peerMap q _ _ := rfl
  committee q hq := committeeN hn (by rw [memberN] at hq; omega)
  fresh q _ := ⟨rfl, rfl⟩
  outPeers q _ := ⟨rfl, fun _ => rfl⟩
  batches q _ := ⟨Nat.le_refl 1, by
    intro a b h
    have := congrArg String.length h
    simpa [siteN] using this⟩
  type q _ := Or.inl rfl
  sign i q p hi hp b := by
    obtain ⟨rfl, hi⟩ := peersN_get hi
    obtain ⟨rfl, -⟩ := idsN_get hp
    show decide _ = true
    refine decide_eq_true ?_
    show [UInt8.ofNat (i + 1)] = [UInt8.ofNat (i + 10 - 9)]
    congr 1
  lossless := ⟨fun t b => Code.byte.ok t b, fun w => Code.full _ w, fun w => Code.full _ w, fun w => Code.full _ w, fun w => Code.full _ w,
    fun w => Code.full _ w⟩
  size := by
    show (idsN n).length ≤ _
    unfold idsN
    rw [List.length_map, List.length_range]
    omega

/-- an output of member `i`: its type, the member it is for (none if it is a broadcast) and its bytes -/
def outN (i : Nat) (x : String × Option Nat × Bytes) : OutBatch.Output := ⟨x.1, "m", some (x.2.2, ⟨some (some i), x.2.1.toList, x.2.1.isNone⟩)⟩

theorem properN' (n i q : Nat) (upd : List Entry → Share → Option (List Culprit)) (l : List (String × Option Nat × Bytes))
    (h1 : ∀ x ∈ l, ':' ∉ x.1.toList ∧ (GetMsgRound baseN.parse x.2.2).isSome)
    (h2 : ∀ x ∈ l, ∀ y ∈ l, GetMsgRound baseN.parse x.2.2 = GetMsgRound baseN.parse y.2.2 →
      x = y ∨ ∃ a b, x.2.1 = some a ∧ y.2.1 = some b ∧ a ≠ b)
    (h3 : (l.map fun x => (x.1, x.2.1)).Nodup) : Proper baseN (siteN n upd q).out i (l.map fun x => (plainOut, outN i x)) := by
  refine ⟨?_, ?_, ?_, ?_⟩
  · intro e he
    obtain ⟨x, hx, rfl⟩ := List.mem_map.1 he
    refine ⟨⟨by simp [outN], (h1 x hx).1, ?_⟩, fun _ => rfl⟩
    intro b r hw
    simp only [outN, Option.some.injEq, Prod.mk.injEq] at hw
    obtain ⟨-, rfl⟩ := hw
    rcases x.2.1 with _ | d <;> simp
  · intro e he b r hw
    obtain ⟨x, hx, rfl⟩ := List.mem_map.1 he
    simp only [outN, Option.some.injEq, Prod.mk.injEq] at hw
    obtain ⟨rfl, rfl⟩ := hw
    exact ⟨rfl, by simp [outN, baseN, demoBase], Option.isSome_iff_exists.1 (h1 x hx).2⟩
  · intro k
    show _ ≤ 1
    have hq : ∀ x : String × Option Nat × Bytes, Verif.Props.Outgoing.queueOf x.1 ⟨some (some i), x.2.1.toList, x.2.1.isNone⟩ = (x.1, x.2.1) := by
      rintro ⟨t, d, b⟩
      unfold Verif.Props.Outgoing.queueOf
      cases d <;> rfl
    clear h1 h2
    induction l with
    | nil => simp
    | cons x l ih =>
      simp only [List.map_cons, List.nodup_cons] at h3
      simp only [List.map_cons, List.filterMap_cons, Verif.Props.Outgoing.shareIn, outN, hq]
      by_cases hk : (x.1, x.2.1) = k
      · rw [if_pos hk]
        dsimp only
        have : ((l.map fun x => (plainOut, outN i x)).map Prod.snd).filterMap (Verif.Props.Outgoing.shareIn k) = [] := by
          rw [List.filterMap_eq_nil_iff]
          intro o ho
          rw [List.map_map] at ho
          obtain ⟨y, hy, rfl⟩ := List.mem_map.1 ho
          simp only [Function.comp, Verif.Props.Outgoing.shareIn, outN, hq]
          rw [if_neg]
          intro hyk
          exact h3.1 (List.mem_map.2 ⟨y, hy, by rw [hyk, hk]⟩)
        unfold outN at this
        rw [List.length_cons, this]
        simp
      · rw [if_neg hk]
        exact ih h3.2
  · intro e he e' he' b r b' r' hw hw' _ hround hrec
    obtain ⟨x, hx, rfl⟩ := List.mem_map.1 he
    obtain ⟨y, hy, rfl⟩ := List.mem_map.1 he'
    simp only [outN, Option.some.injEq, Prod.mk.injEq] at hw hw'
    obtain ⟨rfl, rfl⟩ := hw
    obtain ⟨rfl, rfl⟩ := hw'
    rcases h2 x hx y hy hround with rfl | ⟨a, c, hxa, hyc, hne⟩
    · exact ⟨rfl, rfl⟩
    · exfalso
      obtain ⟨p, hp, hp'⟩ := hrec
      simp only [outN, hxa, hyc, Verif.Props.Outgoing.queueOf, Verif.Props.Outgoing.receivers, Option.toList_some, Option.isNone_some] at hp hp'
      have e1 : Map.get (peersN n) a = some p := by simpa [siteN] using hp
      have e2 : Map.get (peersN n) c = some p := by simpa [siteN] using hp'
      have := (peersN_get e1).1
      have := (peersN_get e2).1
      omega

theorem properN (n i q : Nat) (upd : List Entry → Share → Option (List Culprit)) (l : List (String × Option Nat × Bytes))
    (h1 : ∀ x ∈ l, ':' ∉ x.1.toList ∧ (GetMsgRound baseN.parse x.2.2).isSome) (h2 : (l.map fun x => GetMsgRound baseN.parse x.2.2).Nodup)
    (h3 : (l.map fun x => (x.1, x.2.1)).Nodup) : Proper baseN (siteN n upd q).out i (l.map fun x => (plainOut, outN i x)) :=
  properN' n i q upd l h1 (fun x hx y hy hr => Or.inl ((List.nodup_map_iff_inj_on (List.Nodup.of_map _ h2)).1 h2 x hx y hy hr)) h3

end Verif.Spec
