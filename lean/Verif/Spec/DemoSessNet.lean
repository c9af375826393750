import Verif.Spec.DemoCode
import Verif.Spec.DemoCommittee
import Verif.Spec.SessNet

/-! A concrete session of four members for the examples: member `i` has key bytes `[i + 1]` and peer id `10 + i`, a signature is the key of the signer,
the digest is injective. -/
namespace Verif.Spec
open Verif.Go Verif.Conversion Verif.Messages Verif.Blame Verif.TssCommon Verif.SessNet

/-- what the members have in common -/
def demoBase : TssCommon.Env Nat Nat where
  codec := demoCodec
  decWrapped := Code.byte.dec
  decWire b := (Code.wire.dec b).map Prod.fst
  decConfirm b := (Code.confirm.dec b).map Prod.fst
  decTask b := (Code.bool.dec b).map Prod.fst
  decControl b := (Code.control.dec b).map Prod.fst
  decBulk b := ((Code.list Code.share).dec b).map Prod.fst
  parse b := match b with
    | 0 :: _ => some .KGRound1Message
    | 1 :: _ => some .KGRound2Message1
    | _ => none
  hash b := String.ofList (b.map (fun x => Char.ofNat (97 + x.toNat)))
  verify pk _ sig := decide (pk = sig)
  msgID := [7]
  parties := ["m"]
  upd _ _ := none
  localPeer := 0
  p2pPeers := []

/-- the peers a member talks to -/
def demoOthers (q : Nat) : List Nat := [10, 11, 12, 13].filter (fun p => p ≠ q)

/-- the node with peer id `q` -/
def demoSite (q : Nat) : Site Nat Nat where
  env := { demoBase with localPeer := q, p2pPeers := demoOthers q }
  out := ⟨1, demoOthers q, demoPeers, fun d => String.ofList (List.replicate d 'x')⟩
  mgr := demoManager (q - 10)
  type := TSSKeyGenMsg
  sign _ := [UInt8.ofNat (q - 9)]

theorem demoMember (q : Nat) : Member demoPeers q ↔ q = 10 ∨ q = 11 ∨ q = 12 ∨ q = 13 := by
  constructor
  · rintro ⟨i, hi⟩
    have := Map.mem_of_get hi
    simp [demoPeers] at this
    omega
  · rintro (rfl | rfl | rfl | rfl)
    · exact ⟨0, rfl⟩
    · exact ⟨1, rfl⟩
    · exact ⟨2, rfl⟩
    · exact ⟨3, rfl⟩

theorem demoSetting : Setting demoEnc demoBase demoPartyMap demoPeers demoSite where
  env q _ := rfl
  others q _ p := by
    rw [demoMember]
    simp [demoSite, demoOthers]
  distinct q _ := by
    show (demoOthers q).Nodup
    exact List.Nodup.filter _ (by decide)
  idMap q _ := rfl
  peerMap q _ _ := rfl
  committee q hq := demoCommittee _ (by rw [demoMember] at hq; omega)
  fresh q _ := ⟨rfl, rfl⟩
  outPeers q _ := ⟨rfl, fun _ => rfl⟩
  batches q _ := ⟨Nat.le_refl 1, by
    intro a b h
    have := congrArg String.length h
    simpa [demoSite] using this⟩
  type q _ := Or.inl rfl
  sign i q p hi hp b := by
    have hq := demoPeers_get i q hi
    rcases demoPartyMap_get i p hp with ⟨rfl, rfl⟩ | ⟨rfl, rfl⟩ | ⟨rfl, rfl⟩ | ⟨rfl, rfl⟩ <;> subst hq <;> rfl
  lossless := ⟨fun t b => Code.byte.ok t b, fun w => Code.full _ w, fun w => Code.full _ w, fun w => Code.full _ w, fun w => Code.full _ w,
    fun w => Code.full _ w⟩
  size := by decide

/-- the members are honest -/
def demoHonest (p : Nat) : Bool := decide (p ∈ [10, 11, 12, 13])

theorem demoHonest_iff (p : Nat) : demoHonest p = true ↔ Member demoPeers p := by
  rw [demoMember]; simp [demoHonest]

/-- the schedule of the batching without surprises -/
def plainOut : OutBatch.Sched := ⟨Shuffle.id _, Shuffle.id _, fun _ => true⟩

/-- a broadcast share of member `i` -/
def demoBroadcast (i : Nat) (b : UInt8) : OutBatch.Output := ⟨"KGRound1Message", "m", some ([0, b], ⟨some (some i), [], true⟩)⟩

/-- a unicast share of member `i` for member `j` -/
def demoUnicast (i j : Nat) (b : UInt8) : OutBatch.Output := ⟨"KGRound2Message1", "m", some ([1, b], ⟨some (some i), [j], false⟩)⟩

/-- members 0 and 1 each broadcast a share, member 1 sends one to member 0, all report that they are done -/
def demoHistory : List (NetEvent Nat) :=
  [.at_ 10 (.output plainOut (demoBroadcast 0 50)), .at_ 11 (.output plainOut (demoBroadcast 1 51)),
    .at_ 11 (.output plainOut (demoUnicast 1 0 60)), .at_ 10 .notifyDone, .at_ 11 .notifyDone, .at_ 12 .notifyDone, .at_ 13 .notifyDone]

theorem demoClosed : Closed demoHistory := by
  intro e he p q raw sch h
  subst h
  simp [demoHistory] at he

theorem demoOutputs (q : Nat) : outputsAt q demoHistory =
    if q = 10 then [(plainOut, demoBroadcast 0 50)]
    else if q = 11 then [(plainOut, demoBroadcast 1 51), (plainOut, demoUnicast 1 0 60)] else [] := by
  by_cases h0 : q = 10
  · subst h0; rfl
  · by_cases h1 : q = 11
    · subst h1; rfl
    · have h0' : ¬ 10 = q := fun h => h0 h.symm
      have h1' : ¬ 11 = q := fun h => h1 h.symm
      simp [demoHistory, outputsAt, h0, h1, h0', h1']

theorem demoBroadcast_regular (i : Nat) (b : UInt8) : Verif.Props.Outgoing.Regular (demoBroadcast i b) := by
  refine ⟨by simp [demoBroadcast], by show ':' ∉ "KGRound1Message".toList; decide, ?_⟩
  intro d r h
  simp only [demoBroadcast, Option.some.injEq, Prod.mk.injEq] at h
  obtain ⟨-, rfl⟩ := h
  simp

theorem demoUnicast_regular (i j : Nat) (b : UInt8) : Verif.Props.Outgoing.Regular (demoUnicast i j b) := by
  refine ⟨by simp [demoUnicast], by show ':' ∉ "KGRound2Message1".toList; decide, ?_⟩
  intro d r h
  simp only [demoUnicast, Option.some.injEq, Prod.mk.injEq] at h
  obtain ⟨-, rfl⟩ := h
  simp

theorem demoProper (i q : Nat) (hi : Map.get demoPeers i = some q) : Proper demoBase (demoSite q).out i (outputsAt q demoHistory) := by
  have hq := demoPeers_get i q hi
  subst hq
  rw [demoOutputs]
  have none_ : Proper demoBase (demoSite (i + 10)).out i [] := ⟨by simp, by simp, by simp, by simp⟩
  split
  · have : i = 0 := by omega
    subst this
    refine ⟨?_, ?_, ?_, ?_⟩
    · intro e he; rw [List.mem_singleton.1 he]; exact ⟨demoBroadcast_regular _ _, fun _ => rfl⟩
    · intro e he b r hw
      rw [List.mem_singleton.1 he] at hw ⊢
      simp only [demoBroadcast, Option.some.injEq, Prod.mk.injEq] at hw
      obtain ⟨rfl, rfl⟩ := hw
      exact ⟨rfl, by simp [demoBroadcast, demoBase], _, rfl⟩
    · intro k
      exact le_trans (List.length_filterMap_le _ _) (Nat.le_refl 1)
    · intro e he e' he' b r b' r' hw hw'
      rw [List.mem_singleton.1 he] at hw
      rw [List.mem_singleton.1 he'] at hw'
      rw [hw] at hw'
      cases hw'
      intros; exact ⟨rfl, rfl⟩
  · split
    · have : i = 1 := by omega
      subst this
      refine ⟨?_, ?_, ?_, ?_⟩
      · intro e he
        rcases List.mem_cons.1 he with rfl | he
        · exact ⟨demoBroadcast_regular _ _, fun _ => rfl⟩
        · rw [List.mem_singleton.1 he]; exact ⟨demoUnicast_regular _ _ _, fun _ => rfl⟩
      · intro e he b r hw
        rcases List.mem_cons.1 he with rfl | he
        · simp only [demoBroadcast, Option.some.injEq, Prod.mk.injEq] at hw
          obtain ⟨rfl, rfl⟩ := hw
          exact ⟨rfl, by simp [demoBroadcast, demoBase], _, rfl⟩
        · rw [List.mem_singleton.1 he] at hw ⊢
          simp only [demoUnicast, Option.some.injEq, Prod.mk.injEq] at hw
          obtain ⟨rfl, rfl⟩ := hw
          exact ⟨rfl, by simp [demoUnicast, demoBase], _, rfl⟩
      · rintro ⟨t, d⟩
        show _ ≤ 1
        simp only [List.map_cons, List.map_nil, List.filterMap_cons, List.filterMap_nil, Verif.Props.Outgoing.shareIn, demoBroadcast, demoUnicast,
          Verif.Props.Outgoing.queueOf]
        by_cases h1 : ("KGRound1Message", (none : Option Nat)) = (t, d)
        · have h2 : ¬ ("KGRound2Message1", some 0) = (t, d) := by rw [← h1]; decide
          simp [h2]
          split <;> simp
        · simp [h1]
          split <;> simp
      · intro e he e' he' b r b' r' hw hw' _ hround
        rcases List.mem_cons.1 he with rfl | he <;> rcases List.mem_cons.1 he' with rfl | he'
        · rw [hw] at hw'; cases hw'; intros; exact ⟨rfl, rfl⟩
        · rw [List.mem_singleton.1 he'] at hw'
          cases hw; cases hw'
          exact absurd hround (by decide)
        · rw [List.mem_singleton.1 he] at hw
          cases hw; cases hw'
          exact absurd hround (by decide)
        · rw [List.mem_singleton.1 he] at hw
          rw [List.mem_singleton.1 he'] at hw'
          rw [hw] at hw'; cases hw'; intros; exact ⟨rfl, rfl⟩
    · exact none_

theorem demoWelcome (h : List (NetEvent Nat)) : Welcome demoPeers demoSite h := by
  intro i p q _ _ _ e _ b r _ _ log
  rfl

end Verif.Spec
