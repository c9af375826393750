import Verif.Spec.JsonMsg
import Verif.Props.C132
import Verif.Props.C112
import Verif.Spec.DemoSessNet

set_option linter.unusedSectionVars false

/-!
# C133: messages of a session are read as they were written
-/
namespace Verif.Props.JsonMessages
open Verif.MsgId (Str)
open Verif.Go Verif.Json Verif.JsonMsg Verif.Spec.Json Verif.Spec.JsonMsg Verif.Props.JsonTexts Verif.Messages Verif.TssCommon

/-- `t` is a text which is read as `a` into a variable holding `z` -/
def Says {α : Type} (d : Dec α) (z a : α) (t : Str) : Prop := ∃ j, IsValue j t ∧ d j z = some a

theorem says_string (z s : String) : Says dString z s (quote s.toList) := ⟨.str s.toList, .str (c132_quote _), by simp [dString]⟩

theorem says_bytes (z b : Bytes) : Says dBytes z b (bytesText b) :=
  ⟨.str (Base64.encode b), .str (base64_string b), MessageTexts.c131_roundtrip b⟩

theorem says_bool (z b : Bool) : Says dBool z b (boolText b) := by
  cases b
  · exact ⟨.bool false, .false, rfl⟩
  · exact ⟨.bool true, .true, rfl⟩

theorem says_u8 (z : Nat) {n : Nat} (h : n < 256) : Says dU8 z n (natText n) := by
  refine ⟨.num (natText n), nat_value n, ?_⟩
  rw [dU8, if_pos (by rw [List.all_eq_true]; exact nat_digits n), decimal_nat, if_pos h]

theorem nat_minus (n : Nat) : ∃ c r, natText n = c :: r ∧ c ≠ '-' := by
  match h : natText n with
  | [] => exact absurd h Nat.toDigits_ne_nil
  | c :: r =>
    refine ⟨c, r, rfl, ?_⟩
    rintro rfl
    have := nat_digits n '-' (by rw [h]; simp)
    cases this

theorem says_int (z : Int) {n : Int} (h : -2 ^ 63 ≤ n ∧ n < 2 ^ 63) : Says dInt z n (intText n) := by
  refine ⟨.num (intText n), c132_number n, ?_⟩
  show parseInt (intText n) = some n
  cases n with
  | ofNat n =>
    obtain ⟨c, r, e, hc⟩ := nat_minus n
    have hd := decimal_nat n
    have ha : (natText n).all Char.isDigit = true := by rw [List.all_eq_true]; exact nat_digits n
    show parseInt (natText n) = _
    rw [e] at hd ha ⊢
    unfold parseInt
    dsimp only
    rw [if_neg hc, if_pos ha, hd, if_pos]
    · rfl
    · have : (n : Int) < 2 ^ 63 := h.2
      omega
  | negSucc n =>
    have hd := decimal_nat (n + 1)
    have ha : (natText (n + 1)).all Char.isDigit = true := by rw [List.all_eq_true]; exact nat_digits _
    show parseInt ('-' :: natText (n + 1)) = _
    unfold parseInt
    dsimp only
    rw [if_pos rfl, if_pos ha, hd, if_pos]
    · rfl
    · have := h.1
      omega

theorem says_ptr {α : Type} {d : Dec α} {zero : α} {text : α → Str} {o old : Option α} (hobj : ∀ a ∈ o, Says d (old.getD zero) a (text a))
    (hn : ∀ a j, o = some a → IsValue j (text a) → j ≠ .null) : Says (dPtr zero d) old o (ptrText text o) := by
  cases o with
  | none => exact ⟨.null, .null, rfl⟩
  | some a =>
    obtain ⟨j, h1, h2⟩ := hobj a rfl
    refine ⟨j, h1, ?_⟩
    have hj := hn a j rfl h1
    cases j with
    | null => exact absurd rfl hj
    | _ => simp [dPtr, h2]

theorem says_list {α : Type} {d : Dec α} {zero : α} {text : α → Str} {l : List α} (h : ∀ a ∈ l, Says d zero a (text a)) :
    Says (dList zero d) [] l (arrText (l.map text)) := by
  have key : ∃ q : List (J × Str), q.map Prod.snd = l.map text ∧ (∀ p ∈ q, IsValue p.1 p.2) ∧ dElems zero d (q.map Prod.fst) [] = some l := by
    induction l with
    | nil => exact ⟨[], rfl, (fun p hp => absurd hp List.not_mem_nil), rfl⟩
    | cons a l ih =>
      obtain ⟨q, h1, h2, h3⟩ := ih fun x hx => h x (by simp [hx])
      obtain ⟨j, h4, h5⟩ := h a (by simp)
      refine ⟨(j, text a) :: q, by simp [h1], ?_, ?_⟩
      · intro p hp
        rcases List.mem_cons.1 hp with rfl | hp
        · exact h4
        · exact h2 p hp
      · show dElems zero d (j :: q.map Prod.fst) [] = _
        rw [dElems]
        simp only [List.headD_nil, List.tail_nil, h5, h3]
  obtain ⟨q, h1, h2, h3⟩ := key
  exact ⟨.arr (q.map Prod.fst), h1 ▸ arr_value h2, h3⟩

/-- members that are read one after the other -/
inductive Reads {α : Type} (fields : List (Slot α)) : List (String × Str) → α → α → Prop
  | nil (a : α) : Reads fields [] a a
  | cons {n : String} {t : Str} {l : List (String × Str)} {a b c : α} (f : Slot α) (hf : fieldOf fields n.toList = some f) (h : Says f.set a b t)
      (r : Reads fields l b c) : Reads fields ((n, t) :: l) a c

theorem says_struct {α : Type} {fields : List (Slot α)} {l : List (String × Str)} {a b : α} (h : Reads fields l a b) :
    ∃ j, IsValue j (objText l) ∧ dStruct fields j a = some b ∧ ∃ m, j = .obj m := by
  have key : ∃ q : List (String × J × Str), q.map (fun p => (p.1, p.2.2)) = l ∧ (∀ p ∈ q, IsValue p.2.1 p.2.2) ∧
      dMembers fields (q.map fun p => (p.1.toList, p.2.1)) a = some b := by
    induction h with
    | nil a => exact ⟨[], rfl, (fun p hp => absurd hp List.not_mem_nil), rfl⟩
    | @cons n t l a b c f hf h _ ih =>
      obtain ⟨q, h1, h2, h3⟩ := ih
      obtain ⟨j, h4, h5⟩ := h
      refine ⟨(n, j, t) :: q, by simp [h1], ?_, ?_⟩
      · intro p hp
        rcases List.mem_cons.1 hp with rfl | hp
        · exact h4
        · exact h2 p hp
      · rw [List.map_cons, dMembers, hf]
        dsimp only
        rw [h5]
        exact h3
  obtain ⟨q, h1, h2, h3⟩ := key
  subst h1
  exact ⟨_, obj_value h2, h3, _, rfl⟩

theorem says_obj {α : Type} {fields : List (Slot α)} {l : List (String × Str)} {a b : α} (h : Reads fields l a b) :
    Says (dStruct fields) a b (objText l) := by
  obtain ⟨j, h1, h2, _⟩ := says_struct h
  exact ⟨j, h1, h2⟩

theorem obj_not_null {l : List (String × Str)} {j : J} (h : IsValue j (objText l)) : j ≠ .null := by
  rintro rfl
  have := value_head h
  generalize e : objText l = t at h
  cases h
  cases e

theorem says_field {α β : Type} {name : String} {get : α → β} {put : α → β → α} {d : Dec β} {a : α} {b : β} {t : Str} (h : Says d (get a) b t) :
    Says (field name get put d).set a (put a b) t := by
  obtain ⟨j, h1, h2⟩ := h
  exact ⟨j, h1, by simp [field, h2]⟩

theorem unmarshal_says {α : Type} {d : Dec α} {z a : α} {t : Str} (h : Says d z a t) : unmarshal z d (utf8 t) = some a := by
  obtain ⟨j, h1, h2⟩ := h
  unfold unmarshal
  rw [c132_written, parse_value h1]
  exact h2

/-! ## the messages -/

/-- a party as it is written: the index is an `int`, the id is not empty -/
def Fits (p : PartyID) : Prop := (-2 ^ 63 ≤ p.index ∧ p.index < 2 ^ 63) ∧ ∀ b, p.base = some b → b.id ≠ ""

theorem says_party {p : PartyID} (hp : Fits p) : Says (dStruct partyFields) {} p (partyText p) := by
  unfold partyText
  obtain ⟨base, index⟩ := p
  have hi : ∀ b, Reads partyFields [("index", intText index)] ⟨b, 0⟩ ⟨b, index⟩ := fun b => .cons _ rfl (says_field (says_int _ hp.1)) (.nil _)
  cases base with
  | none => exact says_obj (hi none)
  | some b =>
    obtain ⟨id, moniker, key⟩ := b
    have hid : id ≠ "" := hp.2 _ rfl
    have hk : ∀ m, Reads partyFields (ifNot (key = []) "key" (bytesText key) ++ [("index", intText index)]) ⟨some ⟨id, m, []⟩, 0⟩ ⟨some ⟨id, m, key⟩, index⟩ := by
      intro m
      unfold ifNot
      by_cases hk : key = []
      · subst hk; exact hi _
      · rw [if_neg (by simpa using hk)]
        exact .cons _ rfl (says_field (says_bytes _ _)) (hi _)
    have hm : Reads partyFields (ifNot (moniker = "") "moniker" (quote moniker.toList) ++ (ifNot (key = []) "key" (bytesText key) ++ [("index", intText index)]))
        ⟨some ⟨id, "", []⟩, 0⟩ ⟨some ⟨id, moniker, key⟩, index⟩ := by
      unfold ifNot
      by_cases hm : moniker = ""
      · subst hm; exact hk _
      · rw [if_neg (by simpa using hm)]
        exact .cons _ rfl (says_field (says_string _ _)) (hk _)
    refine says_obj ?_
    dsimp only
    rw [ifNot, if_neg (by simpa using hid), List.append_assoc, List.append_assoc]
    exact .cons _ rfl (says_field (says_string _ _)) hm

/-- a routing as it is written -/
def FitsRouting (r : GoRouting) : Prop := (∀ p ∈ r.from_, Fits p) ∧ ∀ o ∈ r.to_, ∀ p ∈ o, Fits p

theorem says_party_ptr {o : Option PartyID} (h : ∀ p ∈ o, Fits p) : Says (dPtr {} (dStruct partyFields)) none o (ptrText partyText o) :=
  says_ptr (fun p hp => says_party (h p hp)) fun _ _ _ hj => obj_not_null hj

theorem says_routing {r : GoRouting} (hr : FitsRouting r) : Says (dStruct routingFields) {} r (routingText r) := by
  obtain ⟨from_, to_, b1, b2, b3⟩ := r
  refine says_obj ?_
  refine .cons _ rfl (says_field (says_party_ptr hr.1)) ?_
  refine .cons (b := ⟨from_, to_, false, false, false⟩) _ rfl (says_field (d := dList none (dPtr {} (dStruct partyFields))) (b := to_) ?_) ?_
  · dsimp only
    split
    · rename_i h
      subst h
      exact ⟨.null, .null, rfl⟩
    · exact says_list fun o ho => says_party_ptr (hr.2 o ho)
  · exact .cons _ rfl (says_field (says_bool _ _)) (.cons _ rfl (says_field (says_bool _ _)) (.cons _ rfl (says_field (says_bool _ _)) (.nil _)))

theorem says_routing_ptr {o : Option GoRouting} (h : ∀ r ∈ o, FitsRouting r) : Says (dPtr {} (dStruct routingFields)) none o (ptrText routingText o) :=
  says_ptr (fun r hr => says_routing (h r hr)) fun _ _ _ hj => obj_not_null hj

theorem says_wire {w : GoWire} (hw : ∀ r ∈ w.routing, FitsRouting r) : Says (dStruct wireFields) {} w (wireText w) := by
  obtain ⟨r, i, m, g⟩ := w
  exact says_obj (.cons _ rfl (says_field (says_routing_ptr hw)) (.cons _ rfl (says_field (says_string _ _)) (.cons _ rfl (says_field (says_bytes _ _))
    (.cons _ rfl (says_field (says_bytes _ _)) (.nil _)))))

/-- **C133**: a wire message, with any routing, texts and bytes, is read as it was written -/
theorem c133_wire (w : GoWire) (hw : ∀ r ∈ w.routing, FitsRouting r) : readWire (utf8 (wireText w)) = some w := unmarshal_says (says_wire hw)

/-- an envelope, with any id and payload, is read as it was written -/
theorem c133_wrapped (w : GoWrapped) (ht : w.type < 256) : readWrapped (utf8 (wrappedText w)) = some w := by
  obtain ⟨t, i, p⟩ := w
  exact unmarshal_says (says_obj (.cons _ rfl (says_field (says_u8 _ ht)) (.cons _ rfl (says_field (says_string _ _)) (.cons _ rfl
    (says_field (says_bytes _ _)) (.nil _)))))

/-- a confirmation is read as it was written -/
theorem c133_confirm (c : GoConfirm) : readConfirm (utf8 (confirmText c)) = some c := by
  obtain ⟨p, k, h⟩ := c
  exact unmarshal_says (says_obj (.cons _ rfl (says_field (says_string _ _)) (.cons _ rfl (says_field (says_string _ _)) (.cons _ rfl
    (says_field (says_string _ _)) (.nil _)))))

/-- a control message is read as it was written -/
theorem c133_control (c : GoControl) (ht : c.requestType < 256) (hw : ∀ w ∈ c.msg, ∀ r ∈ w.routing, FitsRouting r) :
    readControl (utf8 (controlText c)) = some c := by
  obtain ⟨h, k, t, m⟩ := c
  exact unmarshal_says (says_obj (.cons _ rfl (says_field (says_string _ _)) (.cons _ rfl (says_field (says_string _ _)) (.cons _ rfl
    (says_field (says_u8 _ ht)) (.cons _ rfl (says_field (says_ptr (fun w hw' => says_wire (hw w hw')) fun _ _ _ hj => obj_not_null hj)) (.nil _))))))

/-- the report that a task is done is read as it was written -/
theorem c133_task (b : Bool) : readTask (utf8 (taskText b)) = some b :=
  unmarshal_says (says_obj (.cons _ rfl (says_field (says_bool _ _)) (.nil _)))

/-- a bulk of shares is read as it was written -/
theorem c133_bulk (l : List GoBulk) (hl : ∀ b ∈ l, ∀ r ∈ b.routing, FitsRouting r) : readBulk (utf8 (bulksText l)) = some l := by
  refine unmarshal_says (says_list fun b hb => ?_)
  have := hl b hb
  obtain ⟨w, i, r⟩ := b
  exact says_obj (.cons _ rfl (says_field (says_bytes _ _)) (.cons _ rfl (says_field (says_string _ _)) (.cons _ rfl
    (says_field (says_routing_ptr this)) (.nil _))))

/-! ## the decoders of a session -/

variable {K P : Type} [DecidableEq K] [DecidableEq P]

theorem party_fits {N : Naming P} (hN : Lawful N) (n : Nat) : Fits (party N n) := by
  refine ⟨hN.index n, fun b hb => ?_⟩
  cases hb
  intro h
  have := congrArg String.toList h
  rw [show (toString n).toList = Nat.toDigits 10 n from Nat.toList_repr] at this
  exact Nat.toDigits_ne_nil this

theorem routing_fits {N : Naming P} (hN : Lawful N) (r : Routing) : FitsRouting (toRouting N r) := by
  constructor
  · intro p hp
    obtain ⟨f, t, b⟩ := r
    cases f with
    | none => cases hp
    | some o =>
      cases o with
      | none => cases hp; exact ⟨⟨by show (-2 ^ 63 : Int) ≤ 0; decide, by show (0 : Int) < 2 ^ 63; decide⟩, (fun b hb => by cases hb)⟩
      | some n => cases hp; exact party_fits hN n
  · intro o ho p hp
    obtain ⟨n, _, rfl⟩ := List.mem_map.1 ho
    cases hp
    exact party_fits hN n

theorem partyNumber_party {N : Naming P} (hN : Lawful N) (n : Nat) : partyNumber N (party N n) = some n := by
  show some (N.number (toString n)) = some n
  rw [hN.number]

theorem from_to_routing {N : Naming P} (hN : Lawful N) (r : Routing) : fromRouting N (toRouting N r) = r := by
  obtain ⟨f, t, b⟩ := r
  unfold fromRouting toRouting
  congr 1
  · cases f with
    | none => rfl
    | some o =>
      cases o with
      | none => rfl
      | some n => simp [partyNumber_party hN]
  · rw [List.filterMap_map]
    have : ((fun p : Option PartyID => p.bind (partyNumber N)) ∘ fun n => some (party N n)) = some := by
      funext n
      simp [partyNumber_party hN]
    rw [this, List.filterMap_some]

theorem from_to_wire {N : Naming P} (hN : Lawful N) (w : WireMessage) : fromWire N (toWire N w) = w := by
  obtain ⟨r, i, m, g⟩ := w
  unfold fromWire toWire
  congr 1
  cases r with
  | none => rfl
  | some r => simp [from_to_routing hN]

theorem wire_fits {N : Naming P} (hN : Lawful N) (w : WireMessage) : ∀ r ∈ (toWire N w).routing, FitsRouting r := by
  intro r hr
  obtain ⟨x, _, rfl⟩ := Option.mem_map.1 hr
  exact routing_fits hN x

theorem read_wrap (t : MsgType) (id : String) (b : Bytes) :
    ((readWrapped (utf8 (wrappedText ⟨t.toNat, id, b⟩))).map fun w => (UInt8.ofNat w.type, w.payload)) = some (t, b) := by
  rw [c133_wrapped _ t.toNat_lt, Option.map_some]
  simp

theorem read_wire {N : Naming P} (hN : Lawful N) (w : WireMessage) : (readWire (utf8 (wireText (toWire N w)))).map (fromWire N) = some w := by
  rw [c133_wire _ (wire_fits hN w), Option.map_some, from_to_wire hN]

theorem read_confirm {N : Naming P} (hN : Lawful N) (c : ConfirmMsg P) :
    (readConfirm (utf8 (confirmText (toConfirm N c)))).map (fromConfirm N) = some c := by
  rw [c133_confirm, Option.map_some, fromConfirm, toConfirm]
  dsimp only
  rw [hN.peer]

theorem read_control {N : Naming P} (hN : Lawful N) (c : Control) :
    (readControl (utf8 (controlText (toControl N c)))).map (fromControl N) = some c := by
  rw [c133_control _ c.requestType.toNat_lt, Option.map_some]
  · obtain ⟨h, k, t, m⟩ := c
    unfold fromControl toControl
    dsimp only
    rw [UInt8.ofNat_toNat]
    cases m with
    | none => rfl
    | some w => rw [Option.map_some, Option.map_some, from_to_wire hN]
  · intro w hw
    obtain ⟨x, _, rfl⟩ := Option.mem_map.1 hw
    exact wire_fits hN x

theorem from_to_bulk {N : Naming P} (hN : Lawful N) (b : BulkWireMsg) : fromBulk N (toBulk N b) = b := by
  obtain ⟨w, i, r⟩ := b
  unfold fromBulk toBulk
  cases r with
  | none => rfl
  | some r =>
    dsimp only
    rw [Option.map_some, Option.map_some, from_to_routing hN]

theorem read_bulk {N : Naming P} (hN : Lawful N) (l : List BulkWireMsg) :
    (readBulk (utf8 (bulksText (l.map (toBulk N))))).map (fun x => x.map (fromBulk N)) = some l := by
  rw [c133_bulk, Option.map_some, List.map_map]
  · congr 1
    have : (fromBulk N ∘ toBulk N) = id := funext (from_to_bulk hN)
    rw [this, List.map_id]
  · intro b hb r hr
    obtain ⟨x, _, rfl⟩ := List.mem_map.1 hb
    obtain ⟨y, _, rfl⟩ := Option.mem_map.1 hr
    exact routing_fits hN y

theorem session_wrap (N : Naming P) (id : String) (env : TssCommon.Env K P) (t : MsgType) (b : Bytes) :
    (withJson N env).decWrapped ((encoders N id).wrap t b) = some (t, b) := by
  have e1 : (withJson N env).decWrapped = fun b => (readWrapped b).map fun w => (UInt8.ofNat w.type, w.payload) := rfl
  have e2 : (encoders N id).wrap t b = utf8 (wrappedText ⟨t.toNat, id, b⟩) := rfl
  rw [e1, e2]
  exact read_wrap t id b

theorem session_wire (N : Naming P) (hN : Lawful N) (id : String) (env : TssCommon.Env K P) (t : WireMessage) :
    (withJson N env).decWire ((encoders N id).wire t) = some t := by
  have e1 : (withJson N env).decWire = fun b => (readWire b).map (fromWire N) := rfl
  have e2 : (encoders N id).wire t = utf8 (wireText (toWire N t)) := rfl
  rw [e1, e2]
  exact read_wire hN t

theorem session_confirm (N : Naming P) (hN : Lawful N) (id : String) (env : TssCommon.Env K P) (t : ConfirmMsg P) :
    (withJson N env).decConfirm ((encoders N id).confirm t) = some t := by
  have e1 : (withJson N env).decConfirm = fun b => (readConfirm b).map (fromConfirm N) := rfl
  have e2 : (encoders N id).confirm t = utf8 (confirmText (toConfirm N t)) := rfl
  rw [e1, e2]
  exact read_confirm hN t

theorem session_control (N : Naming P) (hN : Lawful N) (id : String) (env : TssCommon.Env K P) (t : Control) :
    (withJson N env).decControl ((encoders N id).control t) = some t := by
  have e1 : (withJson N env).decControl = fun b => (readControl b).map (fromControl N) := rfl
  have e2 : (encoders N id).control t = utf8 (controlText (toControl N t)) := rfl
  rw [e1, e2]
  exact read_control hN t

theorem session_task (N : Naming P) (id : String) (env : TssCommon.Env K P) (t : Bool) :
    (withJson N env).decTask ((encoders N id).task t) = some t := by
  have e1 : (withJson N env).decTask = readTask := rfl
  have e2 : (encoders N id).task t = utf8 (taskText t) := rfl
  rw [e1, e2]
  exact c133_task t

theorem session_bulk (N : Naming P) (hN : Lawful N) (id : String) (env : TssCommon.Env K P) (t : List BulkWireMsg) :
    (withJson N env).decBulk ((encoders N id).bulk t) = some t := by
  have e1 : (withJson N env).decBulk = fun b => (readBulk b).map fun x => x.map (fromBulk N) := rfl
  have e2 : (encoders N id).bulk t = utf8 (bulksText (t.map (toBulk N))) := rfl
  rw [e1, e2]
  exact read_bulk hN t

/-- With the program's JSON the decoders of a session read what its encoders write: the assumption of the theorems on sessions of several nodes
(`Verif.Spec.Setting`) is met. -/
theorem c133_lossless (N : Naming P) (hN : Lawful N) (id : String) (env : TssCommon.Env K P) : Spec.Lossless (encoders N id) (withJson N env) where
  wrap := session_wrap N id env
  wire := session_wire N hN id env
  confirm := session_confirm N hN id env
  control := session_control N hN id env
  task := session_task N id env
  bulk := session_bulk N hN id env

theorem topic_number (t : Subscribers.Topic) : topicNumber t < 256 ∧ topicOf (topicNumber t) = t := by cases t <;> decide

/-- The communication layer finds in the bytes of a message the type and the id it was sent with, so it is delivered to the session it was sent for. -/
theorem c133_envelope (w : Comm.Wrapped) : ∃ b, commEnc w = some b ∧ commDec b = some (w.topic, w.msgID) := by
  refine ⟨_, rfl, ?_⟩
  unfold commDec
  rw [c133_wrapped _ (topic_number w.topic).1]
  simp [(topic_number w.topic).2]

/-- The kinds of messages a session writes, and the topics it subscribes to (tss/keygen.go:35-38, tss/keysign.go:209-212). -/
def kinds : List (MsgType × Subscribers.Topic) :=
  [(TSSKeyGenMsg, .keyGenMsg), (TSSKeySignMsg, .keySignMsg), (TSSKeyGenVerMsg, .keyGenVerMsg), (TSSKeySignVerMsg, .keySignVerMsg), (TSSControlMsg, .controlMsg),
    (TSSTaskDone, .taskDone)]

/-- What a session writes as a message of one kind is found by the communication layer of the receiver under the topic of this kind and the id of the session:
shares of key generations, shares of signings, confirmations of either, requests and reports are told apart. -/
theorem c133_delivered (N : Naming P) (id : String) (payload : Bytes) (t : MsgType) (topic : Subscribers.Topic) (h : (t, topic) ∈ kinds) :
    commDec ((encoders N id).wrap t payload) = some (topic, id) := by
  have e : (encoders N id).wrap t payload = utf8 (wrappedText ⟨t.toNat, id, payload⟩) := rfl
  rw [e]
  unfold commDec
  rw [c133_wrapped _ (by exact UInt8.toNat_lt t)]
  simp only [kinds, List.mem_cons, Prod.mk.injEq, List.not_mem_nil, or_false] at h
  rcases h with h | h | h | h | h | h <;> (obtain ⟨rfl, rfl⟩ := h; rfl)

/-- a node of a session, with the program's JSON -/
def jsonSite (N : Naming P) (s : SessNet.Site K P) : SessNet.Site K P := { s with env := withJson N s.env }

/-- Whatever is proved of sessions of one and the same party (C102-C106, C120-C122) holds with the messages written and read in JSON. -/
theorem c133_setting {enc : SessNet.Encoders P} {base : TssCommon.Env K P} {ids : Map Nat Conversion.Party} {peers : Map Nat P} {site : P → SessNet.Site K P}
    (N : Naming P) (hN : Lawful N) (id : String) (h : Spec.Setting enc base ids peers site) :
    Spec.Setting (encoders N id) (withJson N base) ids peers fun q => jsonSite N (site q) where
  env q hq := by
    have := h.env q hq
    show withJson N (site q).env = _
    generalize he : (site q).env = e at this ⊢
    rw [this]
    simp [withJson, jsonSite, he]
  others := h.others
  distinct := h.distinct
  idMap := h.idMap
  peerMap := h.peerMap
  committee := h.committee
  fresh := h.fresh
  outPeers := h.outPeers
  batches := h.batches
  type := h.type
  sign := h.sign
  lossless := c133_lossless N hN id base
  size := h.size

section
open Verif.Conversion Verif.Session Verif.SessNet Verif.Spec Verif.Props.SetUp Verif.Props.Agreed
variable {S H L Pt A Q : Type} [LinearOrder S] [LinearOrder H]

/-- C112 for key generation, with messages in JSON and no assumption on encodings: the owners of the keys run sessions of one and the same party. -/
theorem c133_keygen (N : Naming P) (hN : JsonMsg.Lawful N) (prog : TssCommon.Env Str P) (c : Codec Str P) (keys : List Str) (hk : SetUp.Proper c keys)
    (hall : ∀ k ∈ keys, ∃ p, GetPeerIDFromPubKey c k = .ok p) (hsize : keys.length ≤ 2 ^ 50) (id : String)
    (env : P → Keygen.KEnv P S H L Pt A Q) (lenv : P → LoopEnv Str P) (mgr : P → Blame.Manager Str P) (sign : P → Bytes → Bytes)
    (h : ∀ p k, Owns c keys p k → GenNode (withJson N prog) c keys id p k (env p) (lenv p) (mgr p) (sign p)) :
    ∃ ids peers, (∀ p, Member peers p ↔ ∃ k, Owns c keys p k) ∧
      Setting (encoders N id) (shared (withJson N prog) c id [""]) ids peers (siteOf TSSKeyGenMsg lenv mgr sign) :=
  c112_keygen (encoders N id) (withJson N prog) c keys hk hall (c133_lossless N hN id prog) hsize id env lenv mgr sign h

/-- C112 for signing, with messages in JSON -/
theorem c133_keysign (N : Naming P) (hN : JsonMsg.Lawful N) (prog : TssCommon.Env Str P) (c : Codec Str P) (signers : List Str)
    (hk : SetUp.Proper c signers) (hall : ∀ k ∈ signers, ∃ p, GetPeerIDFromPubKey c k = .ok p) (hsize : signers.length ≤ 2 ^ 50) (id : String)
    (msgs : List Bytes) (env : P → Server.Env P S H L) (task : P → KeySign.Job L) (lenv : P → LoopEnv Str P) (mgr : P → Blame.Manager Str P)
    (sign : P → Bytes → Bytes)
    (h : ∀ p k, Owns c signers p k → SignNode (withJson N prog) c signers id msgs p k (env p) (task p) (lenv p) (mgr p) (sign p)) :
    ∃ ids peers, (∀ p, Member peers p ↔ ∃ k, Owns c signers p k) ∧
      Setting (encoders N id) (shared (withJson N prog) c id (KeySign.monikers msgs)) ids peers (siteOf TSSKeySignMsg lenv mgr sign) :=
  c112_keysign (encoders N id) (withJson N prog) c signers hk hall (c133_lossless N hN id prog) hsize id msgs env task lenv mgr sign h

end

/-! ## Cases -/

/-- names of parties and peers that are numbers -/
def names : Naming Nat where
  number s := decimal s.toList
  moniker _ := "m"
  key n := [UInt8.ofNat n]
  index n := (n % 2 ^ 63 : Nat)
  peer s := if s = "" then none else some (decimal s.toList)
  peerText o := match o with
    | none => ""
    | some n => toString n

theorem names_lawful : Lawful names := by
  have ht : ∀ n : Nat, (toString n).toList = natText n := fun n => Nat.toList_repr
  have hd : ∀ n : Nat, decimal (toString n).toList = n := fun n => by rw [ht, decimal_nat]
  refine ⟨hd, ?_, ?_⟩
  · intro o
    cases o with
    | none => rfl
    | some n =>
      have h : toString n ≠ "" := by
        intro h
        have := congrArg String.toList h
        rw [ht] at this
        exact Nat.toDigits_ne_nil this
      show (if toString n = "" then none else some (decimal (toString n).toList)) = some n
      rw [if_neg h, hd]
  · intro n
    have : n % 2 ^ 63 < 2 ^ 63 := Nat.mod_lt _ (by decide)
    show (-2 ^ 63 : Int) ≤ ((n % 2 ^ 63 : Nat) : Int) ∧ ((n % 2 ^ 63 : Nat) : Int) < 2 ^ 63
    omega

/-- four members exchange their shares in JSON (`demoHistory`) -/
example (q : Nat) (hq : Spec.Member Spec.demoPeers q) :
    let n := SessNet.netRun (encoders names "id") (fun q => jsonSite names (Spec.demoSite q)) Spec.demoHonest Spec.demoHistory
    (n.nodes q).alive = true ∧ (n.pool = [] → Spec.Served Spec.demoPeers (fun q => jsonSite names (Spec.demoSite q)) Spec.demoHistory (n.nodes q).ses.log q) :=
  let h := SessionNet.c103_fault_free (c133_setting names names_lawful "id" Spec.demoSetting) Spec.demoHonest_iff Spec.demoHistory Spec.demoClosed
    (fun i q hi => let h := Spec.demoProper i q hi; ⟨h.regular, h.owner, h.batch, h.slots⟩) (fun _ _ _ _ _ _ _ _ _ _ _ _ _ => rfl) q hq
  ⟨h.1.1, h.2⟩

/-- a confirmation of a signing -/
example : commDec ((encoders names "id").wrap TSSKeySignVerMsg [1, 2, 3]) = some (.keySignVerMsg, "id") := c133_delivered names "id" _ _ _ (by simp [kinds])

/-- the text of a confirmation -/
example : String.ofList (confirmText ⟨"16Uiu2", "0-KGRound1Message-1:\"<", "ab"⟩) =
    "{\"P2PID\":\"16Uiu2\",\"key\":\"0-KGRound1Message-1:\\\"\\u003c\",\"hash\":\"ab\"}" := by decide +kernel

/-- the text of a broadcast -/
example : String.ofList (wireText (toWire names ⟨some ⟨some (some 1), [], true⟩, "KGRound1Message", [1, 2], [3]⟩)) =
    "{\"routing\":{\"From\":{\"id\":\"1\",\"moniker\":\"m\",\"key\":\"AQ==\",\"index\":1},\"To\":null,\"IsBroadcast\":true,\"IsToOldCommittee\":false,\"IsToOldAndNewCommittees\":false},\"round_info\":\"KGRound1Message\",\"message\":\"AQI=\",\"signature\":\"Aw==\"}" := by
  decide +kernel

/-- A party without any name is not read as it was written: the pointer to its names is nil afterwards. The parties of the program have the id of their
number. -/
example : (readWire (utf8 (wireText ⟨some ⟨some ⟨some ⟨"", "", []⟩, 3⟩, [], true, false, false⟩, "r", [1], [2]⟩))).map
    (fun w => w.routing.map fun r => r.from_.map fun p => p.base.isNone) = some (some (some true)) := by decide +kernel

end Verif.Props.JsonMessages
