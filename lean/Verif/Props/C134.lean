import Verif.Spec.JsonRead
import Verif.Props.C133

set_option linter.unusedSectionVars false

/-!
# C134: what is read from the bytes of a message
-/
namespace Verif.Props.JsonReading
open Verif.MsgId (Str)
open Verif.Go Verif.Json Verif.JsonMsg Verif.Spec.Json Verif.Spec.JsonMsg Verif.Props.JsonTexts Verif.Props.JsonMessages Verif.Messages Verif.TssCommon

/-! ## names -/

theorem fold_plain (c : Char) : foldChar c = plain c := by
  unfold foldChar plain Char.toLower
  by_cases h1 : c = '\u212a'
  · rw [if_pos h1, if_pos h1]
  · by_cases h2 : c = '\u017f'
    · rw [if_neg h1, if_pos h2, if_neg h1, if_pos h2]
    · rw [if_neg h1, if_neg h2, if_neg h1, if_neg h2]
      have hA : ('A' ≤ c ∧ c ≤ 'Z') ↔ (c.val ≥ 'A'.val ∧ c.val ≤ 'Z'.val) := Iff.rfl
      split
      · rename_i h
        have h' := hA.1 h
        rw [dif_pos h']
        have h3 : c.toNat ≤ 90 := by have := UInt32.le_iff_toNat_le.1 h'.2; exact this
        apply Char.ext
        rw [Char.ofNat, dif_pos (Or.inl (by omega))]
        apply UInt32.toNat_inj.1
        show (c.toNat + 32) = (c.val + ('a'.val - 'A'.val)).toNat
        rw [UInt32.toNat_add]
        have : ('a'.val - 'A'.val).toNat = 32 := by decide
        rw [this]
        show c.toNat + 32 = (c.toNat + 32) % 2 ^ 32
        omega
      · rename_i h
        rw [dif_neg (fun h' => h (hA.2 h'))]

theorem sameName_iff (a b : Str) : a.map foldChar = b.map foldChar ↔ SameName a b := by
  unfold SameName
  rw [show foldChar = plain from funext fold_plain]

/-! ## fields -/

/-- a field of a struct `α`, with its own variable -/
structure Part (α : Type) where
  β : Type
  name : String
  get : α → β
  put : α → β → α
  dec : Dec β

def Part.slot {α : Type} (p : Part α) : Slot α := field p.name p.get p.put p.dec

/-- the fields of a struct are independent variables, with names that differ by more than case, and there is nothing else in the struct -/
structure Struct {α : Type} (ps : List (Part α)) : Prop where
  names : ps.Pairwise fun p q => ¬ SameName p.name.toList q.name.toList
  own : ∀ p ∈ ps, ∀ a x, p.get (p.put a x) = x
  other : ps.Pairwise fun p q => (∀ a x, p.get (q.put a x) = p.get a) ∧ ∀ a x, q.get (p.put a x) = q.get a
  all : ∀ a b, (∀ p ∈ ps, p.get a = p.get b) → a = b

theorem SameName.symm {a b : Str} (h : SameName a b) : SameName b a := Eq.symm h
theorem SameName.trans {a b c : Str} (h : SameName a b) (h' : SameName b c) : SameName a c := Eq.trans h h'

theorem find_fold {α : Type} {ps : List (Part α)} (hs : ps.Pairwise fun p q => ¬ SameName p.name.toList q.name.toList) {p : Part α} (hp : p ∈ ps)
    {n : Str} (h : SameName n p.name.toList) : ((ps.map Part.slot).find? fun f => f.name.map foldChar = n.map foldChar) = some p.slot := by
  induction ps with
  | nil => cases hp
  | cons q ps ih =>
    obtain ⟨h1, h2⟩ := List.pairwise_cons.1 hs
    rw [List.map_cons, List.find?_cons]
    rcases List.mem_cons.1 hp with rfl | hp
    · have : decide (p.slot.name.map foldChar = n.map foldChar) = true := decide_eq_true ((sameName_iff _ _).2 h.symm)
      rw [this]
    · have : decide (q.slot.name.map foldChar = n.map foldChar) = false :=
        decide_eq_false fun he => h1 p hp (((sameName_iff _ _).1 he).trans h)
      rw [this]
      exact ih h2 hp

theorem fieldOf_some {α : Type} {ps : List (Part α)} (hs : ps.Pairwise fun p q => ¬ SameName p.name.toList q.name.toList) {p : Part α} (hp : p ∈ ps)
    {n : Str} (h : SameName n p.name.toList) : fieldOf (ps.map Part.slot) n = some p.slot := by
  unfold fieldOf
  split
  · rename_i f hf
    obtain ⟨q, hq, rfl⟩ := List.mem_map.1 (List.mem_of_find?_eq_some hf)
    have hn : q.slot.name = n := by simpa using List.find?_some hf
    have hn : q.name.toList = n := hn
    have h1 := find_fold hs hq (n := n) (by rw [hn]; exact rfl)
    rw [find_fold hs hp h] at h1
    exact h1.symm
  · exact find_fold hs hp h

theorem fieldOf_none {α : Type} {ps : List (Part α)} {n : Str} (h : ∀ p ∈ ps, ¬ SameName n p.name.toList) : fieldOf (ps.map Part.slot) n = none := by
  unfold fieldOf
  have h1 : ((ps.map Part.slot).find? fun f => f.name = n) = none := by
    rw [List.find?_eq_none]
    intro f hf he
    obtain ⟨q, hq, rfl⟩ := List.mem_map.1 hf
    have hn : q.slot.name = n := by simpa using he
    have hn : q.name.toList = n := hn
    exact h q hq (by rw [hn]; exact rfl)
  rw [h1]
  rw [List.find?_eq_none]
  intro f hf he
  obtain ⟨q, hq, rfl⟩ := List.mem_map.1 hf
  have he : q.slot.name.map foldChar = n.map foldChar := by simpa using he
  exact h q hq ((sameName_iff _ _).1 he).symm

/-- Every field is read from its own members, in their order, and from nothing else: members with other names, and the order of members for different fields,
make no difference. -/
theorem members_iff {α : Type} {ps : List (Part α)} (hs : Struct ps) (l : List (Str × J)) (a b : α) :
    dMembers (ps.map Part.slot) l a = some b ↔ ∀ p ∈ ps, readAll p.dec (valuesFor p.name l) (p.get a) = some (p.get b) := by
  induction l generalizing a with
  | nil =>
    simp only [dMembers, valuesFor, List.filterMap_nil, readAll, Option.some.injEq]
    exact ⟨fun h p _ => h ▸ rfl, hs.all a b⟩
  | cons m l ih =>
    obtain ⟨n, j⟩ := m
    have hv : ∀ p : Part α, valuesFor p.name ((n, j) :: l) = if SameName n p.name.toList then j :: valuesFor p.name l else valuesFor p.name l := by
      intro p
      unfold valuesFor
      rw [List.filterMap_cons]
      dsimp only
      split <;> rename_i h
      · split at h
        · cases h
        · rename_i h'; rw [if_neg h']
      · split at h
        · rename_i h'; cases h; rw [if_pos h']
        · cases h
    rw [dMembers]
    by_cases hn : ∃ p ∈ ps, SameName n p.name.toList
    · obtain ⟨p, hp, h⟩ := hn
      rw [fieldOf_some hs.names hp h]
      dsimp only
      have hput : ∀ x, ∀ q ∈ ps, q ≠ p → q.get (p.put a x) = q.get a ∧ ¬ SameName n q.name.toList := by
        intro x q hq hne
        have key : ∀ ps : List (Part α), (ps.Pairwise fun p q => ¬ SameName p.name.toList q.name.toList) →
            (ps.Pairwise fun p q => (∀ a x, p.get (q.put a x) = p.get a) ∧ ∀ a x, q.get (p.put a x) = q.get a) → p ∈ ps → q ∈ ps →
            q.get (p.put a x) = q.get a ∧ ¬ SameName n q.name.toList := by
          intro ps
          induction ps with
          | nil => intro _ _ hp; cases hp
          | cons r ps ih =>
            intro h1 h2 hp hq
            obtain ⟨h3, h4⟩ := List.pairwise_cons.1 h1
            obtain ⟨h5, h6⟩ := List.pairwise_cons.1 h2
            rcases List.mem_cons.1 hp with e | hp' <;> rcases List.mem_cons.1 hq with e' | hq'
            · exact absurd (e'.trans e.symm) hne
            · subst e; exact ⟨(h5 q hq').2 a x, fun h' => h3 q hq' (h.symm.trans h')⟩
            · subst e'; exact ⟨(h5 p hp').1 a x, fun h' => h3 p hp' (h'.symm.trans h)⟩
            · exact ih h4 h6 hp' hq'
        exact key ps hs.names hs.other hp hq
      show (match (p.dec j (p.get a)).map (p.put a) with | none => none | some a' => dMembers (ps.map Part.slot) l a') = some b ↔ _
      cases hd : p.dec j (p.get a) with
      | none =>
        rw [Option.map_none]
        constructor
        · intro h'; cases h'
        · intro h'
          have := h' p hp
          rw [hv, if_pos h, readAll, hd] at this
          cases this
      | some x =>
        rw [Option.map_some]
        dsimp only
        rw [ih]
        refine forall₂_congr fun q hq => ?_
        rw [hv]
        by_cases hqp : q = p
        · subst hqp
          rw [if_pos h, readAll, hd, hs.own _ hp, Option.bind_some]
        · obtain ⟨h1, h2⟩ := hput x q hq hqp
          rw [if_neg h2, h1]
    · have hn' : ∀ p ∈ ps, ¬ SameName n p.name.toList := fun p hp h => hn ⟨p, hp, h⟩
      rw [fieldOf_none hn']
      dsimp only
      rw [ih]
      refine forall₂_congr fun q hq => ?_
      rw [hv, if_neg (hn' q hq)]

theorem struct_iff {α : Type} {ps : List (Part α)} (hs : Struct ps) (j : J) (z b : α) :
    dStruct (ps.map Part.slot) j z = some b ↔ (j = .null ∧ b = z) ∨ ∃ l, j = .obj l ∧ ∀ p ∈ ps, readAll p.dec (valuesFor p.name l) (p.get z) = some (p.get b) := by
  cases j with
  | null => simp [dStruct, eq_comm]
  | obj l =>
    rw [dStruct, members_iff hs]
    simp
  | _ => simp [dStruct]

theorem unmarshal_iff {α : Type} (z b : α) (d : Dec α) (raw : Bytes) : unmarshal z d raw = some b ↔ ∃ j, IsText j (runes raw) ∧ d j z = some b := by
  unfold unmarshal
  constructor
  · intro h
    cases hp : parse (runes raw) with
    | none => rw [hp] at h; cases h
    | some j => rw [hp] at h; exact ⟨j, (c132_text _ _).1 hp, h⟩
  · rintro ⟨j, h1, h2⟩
    rw [(c132_text _ _).2 h1]
    exact h2

/-! ## the messages -/

def wrappedParts : List (Part GoWrapped) :=
  [⟨Nat, "message_type", GoWrapped.type, fun w x => { w with type := x }, dU8⟩,
   ⟨String, "message_id", GoWrapped.msgID, fun w x => { w with msgID := x }, dString⟩,
   ⟨Bytes, "payload", GoWrapped.payload, fun w x => { w with payload := x }, dBytes⟩]

theorem wrappedStruct : Struct wrappedParts where
  names := List.pairwise_map.1 (by decide +kernel : (wrappedParts.map fun p => p.name.toList).Pairwise fun a b => ¬ SameName a b)
  own := by simp [wrappedParts]
  other := by simp [wrappedParts]
  all a b h := by
    cases a; cases b
    simp only [wrappedParts, List.forall_mem_cons] at h
    simp_all

def wireParts : List (Part GoWire) :=
  [⟨Option GoRouting, "routing", GoWire.routing, fun w x => { w with routing := x }, dPtr {} (dStruct routingFields)⟩,
   ⟨String, "round_info", GoWire.roundInfo, fun w x => { w with roundInfo := x }, dString⟩,
   ⟨Bytes, "message", GoWire.message, fun w x => { w with message := x }, dBytes⟩,
   ⟨Bytes, "signature", GoWire.sig, fun w x => { w with sig := x }, dBytes⟩]

theorem wireStruct : Struct wireParts where
  names := List.pairwise_map.1 (by decide +kernel : (wireParts.map fun p => p.name.toList).Pairwise fun a b => ¬ SameName a b)
  own := by simp [wireParts]
  other := by simp [wireParts]
  all a b h := by
    cases a; cases b
    simp only [wireParts, List.forall_mem_cons] at h
    simp_all

def confirmParts : List (Part GoConfirm) :=
  [⟨String, "P2PID", GoConfirm.p2pid, fun w x => { w with p2pid := x }, dString⟩,
   ⟨String, "key", GoConfirm.key, fun w x => { w with key := x }, dString⟩,
   ⟨String, "hash", GoConfirm.hash, fun w x => { w with hash := x }, dString⟩]

theorem confirmStruct : Struct confirmParts where
  names := List.pairwise_map.1 (by decide +kernel : (confirmParts.map fun p => p.name.toList).Pairwise fun a b => ¬ SameName a b)
  own := by simp [confirmParts]
  other := by simp [confirmParts]
  all a b h := by
    cases a; cases b
    simp only [confirmParts, List.forall_mem_cons] at h
    simp_all

def controlParts : List (Part GoControl) :=
  [⟨String, "reqest_hash", GoControl.reqHash, fun w x => { w with reqHash := x }, dString⟩,
   ⟨String, "request_key", GoControl.reqKey, fun w x => { w with reqKey := x }, dString⟩,
   ⟨Nat, "request_type", GoControl.requestType, fun w x => { w with requestType := x }, dU8⟩,
   ⟨Option GoWire, "message_body", GoControl.msg, fun w x => { w with msg := x }, dPtr {} (dStruct wireFields)⟩]

theorem controlStruct : Struct controlParts where
  names := List.pairwise_map.1 (by decide +kernel : (controlParts.map fun p => p.name.toList).Pairwise fun a b => ¬ SameName a b)
  own := by simp [controlParts]
  other := by simp [controlParts]
  all a b h := by
    cases a; cases b
    simp only [controlParts, List.forall_mem_cons] at h
    simp_all

def routingParts : List (Part GoRouting) :=
  [⟨Option PartyID, "From", GoRouting.from_, fun w x => { w with from_ := x }, dPtr {} (dStruct partyFields)⟩,
   ⟨List (Option PartyID), "To", GoRouting.to_, fun w x => { w with to_ := x }, dList none (dPtr {} (dStruct partyFields))⟩,
   ⟨Bool, "IsBroadcast", GoRouting.isBroadcast, fun w x => { w with isBroadcast := x }, dBool⟩,
   ⟨Bool, "IsToOldCommittee", GoRouting.isToOldCommittee, fun w x => { w with isToOldCommittee := x }, dBool⟩,
   ⟨Bool, "IsToOldAndNewCommittees", GoRouting.isToOldAndNewCommittees, fun w x => { w with isToOldAndNewCommittees := x }, dBool⟩]

theorem routingStruct : Struct routingParts where
  names := List.pairwise_map.1 (by decide +kernel : (routingParts.map fun p => p.name.toList).Pairwise fun a b => ¬ SameName a b)
  own := by simp [routingParts]
  other := by simp [routingParts]
  all a b h := by
    cases a; cases b
    simp only [routingParts, List.forall_mem_cons] at h
    simp_all

def bulkParts : List (Part GoBulk) :=
  [⟨Bytes, "WiredBulkMsgs", GoBulk.wired, fun w x => { w with wired := x }, dBytes⟩,
   ⟨String, "MsgIdentifier", GoBulk.ident, fun w x => { w with ident := x }, dString⟩,
   ⟨Option GoRouting, "Routing", GoBulk.routing, fun w x => { w with routing := x }, dPtr {} (dStruct routingFields)⟩]

theorem bulkStruct : Struct bulkParts where
  names := List.pairwise_map.1 (by decide +kernel : (bulkParts.map fun p => p.name.toList).Pairwise fun a b => ¬ SameName a b)
  own := by simp [bulkParts]
  other := by simp [bulkParts]
  all a b h := by
    cases a; cases b
    simp only [bulkParts, List.forall_mem_cons] at h
    simp_all

/-- **C134**: bytes are read as an envelope exactly if they are the text of an object whose members for the three fields can be read, and then the fields are
what these members say (`null` is the envelope without content). -/
theorem c134_wrapped (raw : Bytes) (w : GoWrapped) : readWrapped raw = some w ↔ ∃ j, IsText j (runes raw) ∧ ((j = .null ∧ w = {}) ∨ ∃ l, j = .obj l ∧
    readAll dU8 (valuesFor "message_type" l) 0 = some w.type ∧ readAll dString (valuesFor "message_id" l) "" = some w.msgID ∧
    readAll dBytes (valuesFor "payload" l) [] = some w.payload) := by
  rw [readWrapped, unmarshal_iff]
  refine exists_congr fun j => and_congr_right fun _ => ?_
  rw [show wrappedFields = wrappedParts.map Part.slot from rfl, struct_iff wrappedStruct]
  simp [wrappedParts]

/-- likewise for wire messages -/
theorem c134_wire (raw : Bytes) (w : GoWire) : readWire raw = some w ↔ ∃ j, IsText j (runes raw) ∧ ((j = .null ∧ w = {}) ∨ ∃ l, j = .obj l ∧
    readAll (dPtr {} (dStruct routingFields)) (valuesFor "routing" l) none = some w.routing ∧
    readAll dString (valuesFor "round_info" l) "" = some w.roundInfo ∧ readAll dBytes (valuesFor "message" l) [] = some w.message ∧
    readAll dBytes (valuesFor "signature" l) [] = some w.sig) := by
  rw [readWire, unmarshal_iff]
  refine exists_congr fun j => and_congr_right fun _ => ?_
  rw [show wireFields = wireParts.map Part.slot from rfl, struct_iff wireStruct]
  simp [wireParts]

/-- likewise for routings inside of messages -/
theorem c134_routing (j : J) (r : GoRouting) : dStruct routingFields j {} = some r ↔ (j = .null ∧ r = {}) ∨ ∃ l, j = .obj l ∧
    readAll (dPtr {} (dStruct partyFields)) (valuesFor "From" l) none = some r.from_ ∧
    readAll (dList none (dPtr {} (dStruct partyFields))) (valuesFor "To" l) [] = some r.to_ ∧
    readAll dBool (valuesFor "IsBroadcast" l) false = some r.isBroadcast ∧
    readAll dBool (valuesFor "IsToOldCommittee" l) false = some r.isToOldCommittee ∧
    readAll dBool (valuesFor "IsToOldAndNewCommittees" l) false = some r.isToOldAndNewCommittees := by
  rw [show routingFields = routingParts.map Part.slot from rfl, struct_iff routingStruct]
  simp [routingParts]

/-- likewise for confirmations -/
theorem c134_confirm (raw : Bytes) (c : GoConfirm) : readConfirm raw = some c ↔ ∃ j, IsText j (runes raw) ∧ ((j = .null ∧ c = {}) ∨ ∃ l, j = .obj l ∧
    readAll dString (valuesFor "P2PID" l) "" = some c.p2pid ∧ readAll dString (valuesFor "key" l) "" = some c.key ∧
    readAll dString (valuesFor "hash" l) "" = some c.hash) := by
  rw [readConfirm, unmarshal_iff]
  refine exists_congr fun j => and_congr_right fun _ => ?_
  rw [show confirmFields = confirmParts.map Part.slot from rfl, struct_iff confirmStruct]
  simp [confirmParts]

/-- likewise for control messages -/
theorem c134_control (raw : Bytes) (c : GoControl) : readControl raw = some c ↔ ∃ j, IsText j (runes raw) ∧ ((j = .null ∧ c = {}) ∨ ∃ l, j = .obj l ∧
    readAll dString (valuesFor "reqest_hash" l) "" = some c.reqHash ∧ readAll dString (valuesFor "request_key" l) "" = some c.reqKey ∧
    readAll dU8 (valuesFor "request_type" l) 0 = some c.requestType ∧
    readAll (dPtr {} (dStruct wireFields)) (valuesFor "message_body" l) none = some c.msg) := by
  rw [readControl, unmarshal_iff]
  refine exists_congr fun j => and_congr_right fun _ => ?_
  rw [show controlFields = controlParts.map Part.slot from rfl, struct_iff controlStruct]
  simp [controlParts]

/-- likewise for the elements of a bulk -/
theorem c134_bulk (j : J) (x : GoBulk) : dStruct bulkFields j {} = some x ↔ (j = .null ∧ x = {}) ∨ ∃ l, j = .obj l ∧
    readAll dBytes (valuesFor "WiredBulkMsgs" l) [] = some x.wired ∧ readAll dString (valuesFor "MsgIdentifier" l) "" = some x.ident ∧
    readAll (dPtr {} (dStruct routingFields)) (valuesFor "Routing" l) none = some x.routing := by
  rw [show bulkFields = bulkParts.map Part.slot from rfl, struct_iff bulkStruct]
  simp [bulkParts]

/-- A list is read exactly if it is `null`, for the empty list, or an array each element of which can be read, into the element that is there already at its place if the member
was given before. -/
theorem c134_list {α : Type} (zero : α) (d : Dec α) (j : J) (old r : List α) : dList zero d j old = some r ↔ (j = .null ∧ r = []) ∨
    ∃ l, j = .arr l ∧ r.length = l.length ∧ ∀ (i : Nat) (x : J) (y : α), l[i]? = some x → r[i]? = some y → d x (old[i]?.getD zero) = some y := by
  have he : ∀ (l : List J) (old r : List α), dElems zero d l old = some r ↔
      r.length = l.length ∧ ∀ (i : Nat) (x : J) (y : α), l[i]? = some x → r[i]? = some y → d x (old[i]?.getD zero) = some y := by
    intro l
    induction l with
    | nil =>
      intro old r
      rw [dElems]
      constructor
      · intro h
        cases h
        simp
      · intro h
        rw [List.length_eq_zero_iff.1 h.1]
    | cons a l ih =>
      intro old r
      have hh : ∀ i : Nat, old.tail[i]? = old[i + 1]? := fun i => by cases old <;> simp
      have h0 : old.headD zero = old[0]?.getD zero := by cases old <;> rfl
      rw [dElems]
      constructor
      · intro h
        split at h
        · rename_i x r' h1 h2
          cases h
          obtain ⟨h3, h4⟩ := (ih _ _).1 h2
          refine ⟨by simp [h3], fun i u v hu hv => ?_⟩
          cases i with
          | zero =>
            simp only [List.getElem?_cons_zero, Option.some.injEq] at hu hv
            subst hu hv
            rw [← h0]
            exact h1
          | succ i =>
            rw [List.getElem?_cons_succ] at hu hv
            rw [← hh]
            exact h4 i u v hu hv
        · cases h
      · rintro ⟨h1, h2⟩
        cases r with
        | nil => simp at h1
        | cons x r =>
          have h3 := h2 0 a x rfl rfl
          have h4 : dElems zero d l old.tail = some r := (ih _ _).2 ⟨by simpa using h1, fun i u v hu hv => by
            rw [hh]
            exact h2 (i + 1) u v hu hv⟩
          rw [h0, h3, h4]
  cases j with
  | null => simp [dList, eq_comm]
  | arr l => simp [dList, he]
  | _ => simp [dList]

/-- texts: the last one that is not `null` counts, and anything but a text or `null` is an error -/
theorem c134_text (l : List J) (s t : String) : readAll dString l s = some t ↔ TextOf l s.toList t.toList := by
  induction l generalizing s with
  | nil =>
    rw [readAll, Option.some.injEq, ← String.toList_inj]
    constructor
    · intro h; rw [h]; exact .nil _
    · intro h
      generalize s.toList = x at h ⊢
      generalize t.toList = y at h ⊢
      cases h
      rfl
  | cons j l ih =>
    cases j with
    | null =>
      show readAll dString l s = some t ↔ _
      rw [ih]
      exact ⟨.null, fun h => by cases h; assumption⟩
    | str u =>
      show readAll dString l (String.ofList u) = some t ↔ _
      rw [ih, String.toList_ofList]
      exact ⟨.str u, fun h => by cases h; assumption⟩
    | _ => exact ⟨(fun h => nomatch h), (fun h => nomatch h)⟩

/-- an envelope without members for a field has the zero value there; so every object without any of the names is read as every kind of message -/
theorem c134_stranger (raw : Bytes) (l : List (Str × J)) (h : IsText (.obj l) (runes raw))
    (hw : ∀ n ∈ ["routing", "round_info", "message", "signature"], valuesFor n l = []) : readWire raw = some {} := by
  rw [c134_wire]
  refine ⟨_, h, .inr ⟨l, rfl, ?_⟩⟩
  rw [hw _ (by simp), hw _ (by simp), hw _ (by simp), hw _ (by simp)]
  exact ⟨rfl, rfl, rfl, rfl⟩

/-- Messages are not told apart by their texts: every confirmation is also read as a wire message, as a control message and as a report, all without
content, and every wire message as a confirmation, a control message and a report. Which it is is said by the number in the envelope alone. -/
theorem c134_kinds (c : GoConfirm) (w : GoWire) (hw : ∀ r ∈ w.routing, FitsRouting r) :
    (readWire (utf8 (confirmText c)) = some {} ∧ readControl (utf8 (confirmText c)) = some {} ∧ readTask (utf8 (confirmText c)) = some false) ∧
    (readConfirm (utf8 (wireText w)) = some {} ∧ readControl (utf8 (wireText w)) = some {} ∧ readTask (utf8 (wireText w)) = some false) := by
  have skip : ∀ {α : Type} {fields : List (Slot α)} {l : List (String × Str)} {q : List (String × J × Str)} (z : α),
      q.map (fun p => (p.1, p.2.2)) = l → (∀ p ∈ q, IsValue p.2.1 p.2.2) → (∀ p ∈ q, fieldOf fields p.1.toList = none) →
      unmarshal z (dStruct fields) (utf8 (objText l)) = some z := by
    intro α fields l q z h1 h2 h3
    subst h1
    refine unmarshal_says ⟨_, obj_value h2, ?_⟩
    show dMembers fields _ z = some z
    clear h2
    induction q with
    | nil => rfl
    | cons p q ih =>
      rw [List.map_cons, dMembers, h3 p (by simp)]
      exact ih fun x hx => h3 x (by simp [hx])
  obtain ⟨j1, v1, -⟩ := says_string "" c.p2pid
  obtain ⟨j2, v2, -⟩ := says_string "" c.key
  obtain ⟨j3, v3, -⟩ := says_string "" c.hash
  obtain ⟨k1, u1, -⟩ := says_routing_ptr hw
  obtain ⟨k2, u2, -⟩ := says_string "" w.roundInfo
  obtain ⟨k3, u3, -⟩ := says_bytes [] w.message
  obtain ⟨k4, u4, -⟩ := says_bytes [] w.sig
  have hc : ∀ p ∈ [("P2PID", j1, quote c.p2pid.toList), ("key", j2, quote c.key.toList), ("hash", j3, quote c.hash.toList)], IsValue p.2.1 p.2.2 := by
    simp [v1, v2, v3]
  have hx : ∀ p ∈ [("routing", k1, ptrText routingText w.routing), ("round_info", k2, quote w.roundInfo.toList), ("message", k3, bytesText w.message),
      ("signature", k4, bytesText w.sig)], IsValue p.2.1 p.2.2 := by simp [u1, u2, u3, u4]
  refine ⟨⟨?_, ?_, ?_⟩, ?_, ?_, ?_⟩
  · refine skip _ rfl hc ?_; simp only [List.forall_mem_cons]; exact ⟨rfl, rfl, rfl, by simp⟩
  · refine skip _ rfl hc ?_; simp only [List.forall_mem_cons]; exact ⟨rfl, rfl, rfl, by simp⟩
  · refine skip _ rfl hc ?_; simp only [List.forall_mem_cons]; exact ⟨rfl, rfl, rfl, by simp⟩
  · refine skip _ rfl hx ?_; simp only [List.forall_mem_cons]; exact ⟨rfl, rfl, rfl, rfl, by simp⟩
  · refine skip _ rfl hx ?_; simp only [List.forall_mem_cons]; exact ⟨rfl, rfl, rfl, rfl, by simp⟩
  · refine skip _ rfl hx ?_; simp only [List.forall_mem_cons]; exact ⟨rfl, rfl, rfl, rfl, by simp⟩

/-- the bytes of a message are not determined by it -/
theorem c134_other_bytes (raw : Bytes) (w : GoWire) (h : readWire raw = some w) : ∃ raw', raw' ≠ raw ∧ readWire raw' = some w := by
  obtain ⟨j, hj, hw⟩ := (unmarshal_iff _ _ _ _).1 h
  refine ⟨32 :: raw, fun h => by simpa using congrArg List.length h, (unmarshal_iff _ _ _ _).2 ⟨j, ?_, hw⟩⟩
  have : runes (32 :: raw) = ' ' :: runes raw := (c132_characters _ _).2 (Runes.char ' ' ((c132_characters _ _).1 rfl))
  rw [this]
  obtain ⟨x, t, y, e, hx, ht, hy⟩ := hj
  exact ⟨' ' :: x, t, y, by rw [e]; rfl, by intro c hc; rcases List.mem_cons.1 hc with rfl | hc; exacts [by simp, hx c hc], ht, hy⟩

/-! ## bytes that end the program -/

/-- a message whose routing has a sender without names -/
def hollow : Bytes := utf8 "{\"routing\":{\"From\":{}}}".toList

theorem hollow_read : readWire hollow = some { routing := some { from_ := some {} } } := by decide +kernel

variable {K P : Type} [DecidableEq K] [DecidableEq P]

/-- C35 fails for these bytes, in every session of every node, whatever its state and whoever sends them: the program panics. -/
theorem c134_crash (N : Naming P) (env : TssCommon.Env K P) (id : String) (s : TssCommon.St K P) (hs : s.crashed = false) (p : P) (sch : TssCommon.Sched P) :
    (TssCommon.step (withJson N env) s (.msg (utf8 (wrappedText ⟨0, id, hollow⟩)) p sch)).crashed = true := by
  have h1 : (withJson N env).decWrapped (utf8 (wrappedText ⟨0, id, hollow⟩)) = some (TSSKeyGenMsg, hollow) := by
    have e : (withJson N env).decWrapped = fun b => (readWrapped b).map fun w => (UInt8.ofNat w.type, w.payload) := rfl
    rw [e]
    dsimp only
    rw [c133_wrapped _ (by decide : (0 : Nat) < 256)]
    rfl
  have h2 : (withJson N env).decWire hollow = some ⟨some ⟨some none, [], false⟩, "", [], []⟩ := by
    have e : (withJson N env).decWire = fun b => (readWire b).map (fromWire N) := rfl
    rw [e]
    dsimp only
    rw [hollow_read]
    rfl
  unfold TssCommon.step
  rw [if_neg (by rw [hs]; decide)]
  dsimp only
  rw [h1]
  dsimp only
  unfold TssCommon.ProcessOneMessage
  rw [if_pos (Or.inl rfl), h2]
  rfl

/-- a repeated member and names in another case: the last text counts -/
example : readConfirm (utf8 "{\"hash\":\"a\", \"x\":[{}], \"HASH\":\"b\", \"KEY\":null, \"\\u212aey\":\"c\"}".toList) = some ⟨"", "c", "b"⟩ := by decide +kernel

example : readWire (utf8 "{\"task_done\":true}".toList) = some {} := by decide +kernel

end Verif.Props.JsonReading
