import Verif.Spec.Ceremony

/-! Deciding for a concrete ceremony whether it is undisturbed and settled; used by the examples only. -/
set_option linter.unusedSectionVars false
namespace Verif.Ceremony
open Verif.Go Verif.Messages Verif.TssCommon Verif.SessNet Verif.SessionCall Verif.Session Verif.Spec
open Verif.Props.Outgoing (queueOf receivers shareIn)
open Verif.OutBatch (Output)

variable {K P R σ : Type} [DecidableEq K] [DecidableEq P]

/-- does a property hold of the share of an output? -/
def onWire (o : Output) (p : Bytes → Routing → Bool) : Bool := match o.wire with | none => false | some (b, r) => p b r

theorem onWire_iff {o : Output} {p : Bytes → Routing → Bool} : onWire o p = true ↔ ∃ b r, o.wire = some (b, r) ∧ p b r = true := by
  unfold onWire
  rcases o.wire with _ | ⟨b, r⟩
  · simp
  · simp

theorem onWire_some {o : Output} {p : Bytes → Routing → Bool} {b : Bytes} {r : Routing} (h : onWire o p = true) (ho : o.wire = some (b, r)) : p b r = true := by
  unfold onWire at h
  rw [ho] at h
  exact h

/-- `Proper` for concrete outputs -/
def properB (base : TssCommon.Env K P) (out : OutBatch.Env P) (i : Nat) (outs : List Output) : Bool :=
  outs.all (fun o => onWire o fun b r => decide (':' ∉ o.type.toList) && (if r.isBroadcast then decide (r.to_ = []) else decide (r.to_.length = 1)) &&
    decide (r.sender = some i) && decide (o.moniker ∈ base.parties) && (GetMsgRound base.parse b).isSome) &&
  outs.all (fun o => onWire o fun _ r => decide ((outs.filterMap (shareIn (queueOf o.type r))).length ≤ out.msgNum)) &&
  outs.all (fun o => outs.all fun o' => onWire o fun b r => onWire o' fun b' r' =>
    decide (b = b' ∧ r = r') || !(decide (o.moniker = o'.moniker) && decide (GetMsgRound base.parse b = GetMsgRound base.parse b') &&
      (receivers out (queueOf o.type r)).any fun p => decide (p ∈ receivers out (queueOf o'.type r'))))

theorem proper_of_check {base : TssCommon.Env K P} {out : OutBatch.Env P} {i : Nat} {outs : List Output} (h : properB base out i outs = true) :
    Proper base out i (outs.map fun o => (plain, o)) := by
  simp only [properB, Bool.and_eq_true] at h
  obtain ⟨⟨h1, h2⟩, h3⟩ := h
  rw [List.all_eq_true] at h1 h2 h3
  have hmap : (outs.map fun o => (plain, o)).map Prod.snd = outs := by simp [Function.comp_def]
  refine ⟨?_, ?_, ?_, ?_⟩
  · intro e he
    obtain ⟨o, ho, rfl⟩ := List.mem_map.1 he
    obtain ⟨b, r, hw, hp⟩ := onWire_iff.1 (h1 o ho)
    simp only [Bool.and_eq_true, decide_eq_true_eq] at hp
    refine ⟨⟨by simp [hw], hp.1.1.1.1, ?_⟩, fun _ => rfl⟩
    intro b' r' hw'
    dsimp only at hw'
    rw [hw] at hw'
    cases hw'
    have := hp.1.1.1.2
    constructor
    · intro hb; rw [if_pos hb] at this; simpa using this
    · intro hb
      rw [if_neg (by simp [hb])] at this
      exact List.length_eq_one_iff.1 (by simpa using this)
  · intro e he b r hw
    obtain ⟨o, ho, rfl⟩ := List.mem_map.1 he
    have := onWire_some (h1 o ho) hw
    simp only [Bool.and_eq_true, decide_eq_true_eq] at this
    exact ⟨this.1.1.2, this.1.2, Option.isSome_iff_exists.1 this.2⟩
  · intro k
    rw [hmap]
    rcases hl : outs.filterMap (shareIn k) with _ | ⟨x, l⟩
    · simp
    · have hx : x ∈ outs.filterMap (shareIn k) := by rw [hl]; simp
      obtain ⟨o, ho, hs⟩ := List.mem_filterMap.1 hx
      obtain ⟨b, r, hw, hp⟩ := onWire_iff.1 (h2 o ho)
      have hk : queueOf o.type r = k := by
        unfold shareIn at hs
        rw [hw] at hs
        dsimp only at hs
        split at hs
        · assumption
        · cases hs
      rw [hk, hl] at hp
      simpa using hp
  · intro e he e' he' b r b' r' hw hw' hm hr hp
    obtain ⟨o, ho, rfl⟩ := List.mem_map.1 he
    obtain ⟨o', ho', rfl⟩ := List.mem_map.1 he'
    have := onWire_some (onWire_some (List.all_eq_true.1 (h3 o ho) o' ho') hw) hw'
    rw [Bool.or_eq_true] at this
    rcases this with h | h
    · simpa using h
    · exfalso
      obtain ⟨p, hp1, hp2⟩ := hp
      dsimp only at hm
      have hany : ((receivers out (queueOf o.type r)).any fun p => decide (p ∈ receivers out (queueOf o'.type r'))) = true :=
        List.any_eq_true.2 ⟨p, hp1, by simpa using hp2⟩
      rw [hany, decide_eq_true hm, decide_eq_true hr] at h
      simp at h

theorem welcome_of {peers : Map Nat P} {site : P → Site K P} {outs : P → List Output} (h : ∀ q, Member peers q → ∀ log s, (site q).env.upd log s = none) :
    WelcomeOuts peers site outs := fun _ _ q _ hq _ _ _ _ _ _ _ log => h q hq log _

/-- `CalmNet` for concrete events -/
def calmB (goodB : P → R → Bool) : NetEvent P R → Bool
  | .at_ q e => match e with
    | .started ok => ok
    | .takeStop => false
    | .timeout _ => false
    | .graceOver => false
    | .takeOut _ => false
    | .deliver r => goodB q r
    | _ => true
  | .deliver _ _ => true

section
variable (base : TssCommon.Env K P) (v : View K P σ) (seat : P → Seat K P R σ) (c : Net P R σ)

/-- `Produced` for a concrete ceremony -/
def producedB (ρ : Round) (j : String) (p q : P) : Bool :=
  (made seat c p).any fun o => onWire o fun _ r => decide (o.type = ρ.type) && decide (o.moniker = j) && (r.isBroadcast == ρ.broadcast) &&
    decide (q ∈ receivers (seat p).site.out (queueOf o.type r))

theorem produced_of {ρ : Round} {j : String} {p q : P} (h : producedB seat c ρ j p q = true) : ∃ b r, Produced seat c ρ j p q b r := by
  obtain ⟨o, ho, h⟩ := List.any_eq_true.1 h
  obtain ⟨b, r, hw, h⟩ := onWire_iff.1 h
  simp only [Bool.and_eq_true, decide_eq_true_eq, beq_iff_eq] at h
  exact ⟨b, r, o, ho, h.1.1.1, h.1.1.2, hw, h.1.2, h.2⟩

/-- `Settled` for a concrete ceremony in which all has been done -/
def settledB (ms : List P) (rounds : List Round) : Bool :=
  ms.all (fun q => decide ((Props.SessionCall.given (c.nodes q).hist).length = base.parties.length)) &&
  (ms.all fun p => ms.all fun q => decide (p = q) || rounds.all fun ρ => base.parties.all fun j => producedB seat c ρ j p q) &&
  c.pool.isEmpty && ms.all (fun q => (c.nodes q).call.outCh.isEmpty && (c.nodes q).call.endCh.isEmpty)

theorem settled_of {peers : Map Nat P} {ms : List P} {rounds : List Round} (hms : ∀ q, Member peers q ↔ q ∈ ms)
    (h : settledB base seat c ms rounds = true) : Settled base peers v seat c rounds := by
  simp only [settledB, Bool.and_eq_true, List.all_eq_true, decide_eq_true_eq, List.isEmpty_iff] at h
  obtain ⟨⟨⟨h1, h2⟩, h3⟩, h4⟩ := h
  refine ⟨fun q hq => le_of_eq (h1 q ((hms q).1 hq)), ⟨?_, fun q hq _ => le_of_eq (h1 q ((hms q).1 hq)).symm⟩, ⟨h3, fun q hq _ => h4 q ((hms q).1 hq)⟩,
    fun q hq _ => (h4 q ((hms q).1 hq)).1⟩
  intro q hq j hj k ρ hρ _ p hp hne
  have := h2 q ((hms q).1 hq) p ((hms p).1 hp)
  rw [Bool.or_eq_true, decide_eq_true_eq] at this
  rcases this with h | h
  · exact absurd h.symm hne
  · exact produced_of seat c (List.all_eq_true.1 (List.all_eq_true.1 h ρ (List.mem_of_getElem? hρ)) j hj)

end

/-- the loop takes what the local parties have delivered, without surprises -/
def take (q : P) (n : Nat) : List (NetEvent P R) := List.replicate n (.at_ q (.takeOut plain))

/-- a step is calm -/
def stepB (goodB : P → R → Bool) (es : List (NetEvent P R) ⊕ (P × Nat)) : Bool :=
  match es with
  | .inl l => l.all (calmB goodB)
  | .inr _ => true

/-- a history, given by parts -/
def parts (l : List (List (NetEvent P R) ⊕ (P × Nat))) : List (NetEvent P R) :=
  l.flatMap fun x => match x with | .inl l => l | .inr (q, n) => take q n

theorem calm_of {member : P → Bool} {good : P → R → Prop} {goodB : P → R → Bool} (hg : ∀ q r, goodB q r = true → good q r)
    {l : List (List (NetEvent P R) ⊕ (P × Nat))} (h : l.all (stepB goodB) = true) : ∀ E ∈ parts l, CalmNet member good E := by
  intro E hE
  unfold parts at hE
  rw [List.mem_flatMap] at hE
  obtain ⟨x, hx, hE⟩ := hE
  have hc := List.all_eq_true.1 h x hx
  rcases x with l' | ⟨q, n⟩
  · have hc := List.all_eq_true.1 hc E hE
    cases E with
    | deliver i sch => trivial
    | at_ q e =>
      intro _
      cases e <;> simp only [calmB, Bool.false_eq_true] at hc <;> simp only [Calm]
      · exact hg _ _ hc
      · exact hc
  · rw [List.eq_of_mem_replicate hE]
    exact fun _ _ => rfl

end Verif.Ceremony
