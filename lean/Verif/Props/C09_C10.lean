import Verif.Model.MsgId
import Mathlib.Tactic.Linarith
import Mathlib.Tactic.Ring

/-! # C09, C10: message ids -/
namespace Verif.Props.MsgId
open Verif.Go Verif.MsgId

/-- two requests that differ only in the order of their lists -/
inductive SameUpToOrder : Request → Request → Prop
  | keygen {k k' : List Str} (b : Int) (v : Str) (h : k.Perm k') : SameUpToOrder (.keygen k b v) (.keygen k' b v)
  | keysign (p : Str) {m m' k k' : List Str} (b : Int) (v : Str) (h : m.Perm m') (h' : k.Perm k') :
      SameUpToOrder (.keysign p m k b v) (.keysign p m' k' b v)

theorem sortStrings_perm {l l' : List Str} (h : l.Perm l') : sortStrings l = sortStrings l' :=
  List.Perm.eq_of_pairwise (fun _ _ _ _ h1 h2 => le_antisymm h1 h2) (List.pairwise_insertionSort (· ≤ ·) l)
    (List.pairwise_insertionSort (· ≤ ·) l')
    (((List.perm_insertionSort _ _).trans h).trans (List.perm_insertionSort _ _).symm)

/-- C09: the message id does not depend on the order of the keys or messages. -/
theorem c09_msgid_order_independent {D : Type} (sha : Str → D) (r r' : Request) (h : SameUpToOrder r r') :
    requestToMsgId sha r = requestToMsgId sha r' := by
  cases h with
  | keygen b v h => unfold requestToMsgId MsgToHashString msgData; simp only [sortStrings_perm h]
  | keysign p b v h h' => unfold requestToMsgId MsgToHashString msgData; simp only [sortStrings_perm h, sortStrings_perm h']

example : SameUpToOrder (.keysign [] [['b'], ['a']] [['y'], ['x']] 1 []) (.keysign [] [['a'], ['b']] [['x'], ['y']] 1 []) :=
  .keysign _ _ _ (List.Perm.swap _ _ _) (List.Perm.swap _ _ _)

/-- Specification: nothing in the request can tell it from another one: no key text and no message text (one empty message counts as
none, two do not: they are joined by a comma) -/
def Blank : Request → Prop
  | .keygen keys _ _ => ∀ k ∈ keys, k = []
  | .keysign _ messages signers _ _ => (messages = [] ∨ messages = [[]]) ∧ ∀ k ∈ signers, k = []

theorem joinComma_eq_nil (l : List Str) : joinComma l = [] ↔ l = [] ∨ l = [[]] := by
  rcases l with _ | ⟨a, _ | ⟨b, l⟩⟩ <;> simp [joinComma]

theorem sortStrings_nil_iff (l : List Str) : sortStrings l = [] ↔ l = [] := by
  have hp : (sortStrings l).Perm l := List.perm_insertionSort (· ≤ ·) l
  rw [← List.length_eq_zero_iff, ← List.length_eq_zero_iff, hp.length_eq]

theorem sortStrings_single_iff (l : List Str) (x : Str) : sortStrings l = [x] ↔ l = [x] := by
  have hp : (sortStrings l).Perm l := List.perm_insertionSort (· ≤ ·) l
  constructor
  · intro h; rw [h] at hp; exact List.perm_singleton.1 hp.symm
  · intro h; subst h; rfl

theorem sortStrings_flatten_nil (l : List Str) : (sortStrings l).flatten = [] ↔ ∀ k ∈ l, k = [] := by
  have hp : (sortStrings l).Perm l := List.perm_insertionSort (· ≤ ·) l
  rw [List.flatten_eq_nil_iff]
  exact ⟨fun h k hk => h k (hp.mem_iff.2 hk), fun h k hk => h k (hp.mem_iff.1 hk)⟩

/-- C09: exactly the blank requests have no id. -/
theorem c09_no_id_iff_blank {D : Type} (sha : Str → D) (r : Request) :
    (∀ d, requestToMsgId sha r ≠ .ok d) ↔ Blank r := by
  have h0 : (∀ d, requestToMsgId sha r ≠ .ok d) ↔ msgData r = [] := by
    unfold requestToMsgId MsgToHashString
    split
    · rename_i h; simp [List.length_eq_zero_iff.1 h]
    · rename_i h
      constructor
      · intro hd; exact absurd rfl (hd _)
      · intro hd; rw [hd] at h; exact absurd rfl h
  rw [h0]
  cases r with
  | keygen keys b v => exact sortStrings_flatten_nil keys
  | keysign p ms ks b v =>
    simp only [msgData, Blank, List.append_eq_nil_iff, joinComma_eq_nil, sortStrings_nil_iff, sortStrings_single_iff,
      sortStrings_flatten_nil]

example : Blank (.keysign ['p'] [[]] [] 1 []) := ⟨Or.inr rfl, by simp⟩
example : ¬ Blank (.keygen [['k']] 1 []) := by simp [Blank]

theorem flatten_inj {L : Nat} (hL : 0 < L) : ∀ {a b : List Str}, (∀ x ∈ a, x.length = L) → (∀ x ∈ b, x.length = L) →
    a.flatten = b.flatten → a = b
  | [], [], _, _, _ => rfl
  | [], y :: ys, _, hb, h => by
    have := congrArg List.length h
    simp [hb y (by simp)] at this; omega
  | x :: xs, [], ha, _, h => by
    have := congrArg List.length h
    simp [ha x (by simp)] at this; omega
  | x :: xs, y :: ys, ha, hb, h => by
    simp only [List.flatten_cons] at h
    have hl : x.length = y.length := by rw [ha x (by simp), hb y (by simp)]
    have h1 := List.append_inj h hl
    rw [h1.1, flatten_inj hL (fun z hz => ha z (by simp [hz])) (fun z hz => hb z (by simp [hz])) h1.2]

theorem flatten_length {L : Nat} {a : List Str} (ha : ∀ x ∈ a, x.length = L) : a.flatten.length = a.length * L := by
  induction a with
  | nil => simp
  | cons x xs ih =>
    simp only [List.flatten_cons, List.length_append, List.length_cons]
    rw [ha x (by simp), ih (fun z hz => ha z (by simp [hz]))]; ring

theorem append_sep_inj {x y s t : Str} (hx : ',' ∉ x) (hy : ',' ∉ y) (h : x ++ (',' :: s) = y ++ (',' :: t)) :
    x = y ∧ s = t := by
  induction x generalizing y with
  | nil =>
    cases y with
    | nil => simpa using h
    | cons c y => simp at h; simp at hy; exact absurd h.1 hy.1
  | cons c x ih =>
    cases y with
    | nil => simp at h; simp at hx; exact absurd h.1.symm hx.1
    | cons d y =>
      simp at h hx hy
      have := ih hx.2 hy.2 h.2
      exact ⟨by rw [h.1, this.1], this.2⟩

theorem joinComma_inj : ∀ {a b : List Str}, a ≠ [] → b ≠ [] → (∀ x ∈ a, ',' ∉ x) → (∀ x ∈ b, ',' ∉ x) →
    joinComma a = joinComma b → a = b
  | [], _, h, _, _, _, _ => absurd rfl h
  | _, [], _, h, _, _, _ => absurd rfl h
  | [x], [y], _, _, _, _, h => by simpa [joinComma] using h
  | [x], y :: y' :: ys, _, _, ha, _, h => by
    simp only [joinComma] at h
    exfalso
    apply ha x (by simp)
    rw [h]; simp
  | x :: x' :: xs, [y], _, _, _, hb, h => by
    simp only [joinComma] at h
    exfalso
    apply hb y (by simp)
    rw [← h]; simp
  | x :: x' :: xs, y :: y' :: ys, _, _, ha, hb, h => by
    simp only [joinComma] at h
    have h1 := append_sep_inj (ha x (by simp)) (hb y (by simp)) h
    have h2 := joinComma_inj (a := x' :: xs) (b := y' :: ys) (by simp) (by simp)
      (fun z hz => ha z (by simp [hz])) (fun z hz => hb z (by simp [hz])) h1.2
    rw [h1.1, h2]

theorem mem_sortStrings {l : List Str} {x : Str} : x ∈ sortStrings l ↔ x ∈ l :=
  (List.perm_insertionSort (· ≤ ·) l).mem_iff

theorem perm_of_sortStrings_eq {l l' : List Str} (h : sortStrings l = sortStrings l') : l.Perm l' :=
  ((List.perm_insertionSort (· ≤ ·) l).symm.trans (List.Perm.of_eq h)).trans (List.perm_insertionSort (· ≤ ·) l')

/-- two texts are no collision of a digest -/
def NoCollision {X D : Type} (sha : X → D) (x y : X) : Prop := sha x = sha y → x = y

/-- C10 (partial, keygen requests): if all keys have one common length (as bech32 account keys do) and the two texts
that are hashed do not collide (no other texts matter), equal message ids mean equal key sets. Missing: requests of different kinds and keysign
requests with different numbers of keys, for which the claim is false (below). -/
theorem c10_keygen_ids_separate_partial {D : Type} (sha : Str → D) (L : Nat) (hL : 0 < L) (k k' : List Str) (b b' : Int)
    (v v' : Str) (hk : ∀ x ∈ k, x.length = L) (hk' : ∀ x ∈ k', x.length = L)
    (hsha : NoCollision sha (msgData (.keygen k b v)) (msgData (.keygen k' b' v'))) (d : D)
    (h : requestToMsgId sha (.keygen k b v) = .ok d) (h' : requestToMsgId sha (.keygen k' b' v') = .ok d) :
    k.Perm k' := by
  unfold requestToMsgId MsgToHashString at h h'
  split at h
  · cases h
  split at h'
  · cases h'
  injection h with h
  injection h' with h'
  have := hsha (h.trans h'.symm)
  simp only [msgData] at this
  exact perm_of_sortStrings_eq (flatten_inj hL (fun x hx => hk x (mem_sortStrings.1 hx))
    (fun x hx => hk' x (mem_sortStrings.1 hx)) this)

/-- C10 (partial, keysign requests): the same for two signing requests with the same number of signers, at least one
message each, and no comma in a message (base64 texts have none). -/
theorem c10_keysign_ids_separate_partial {D : Type} (sha : Str → D) (L : Nat) (hL : 0 < L) (p p' : Str)
    (m m' k k' : List Str) (b b' : Int) (v v' : Str)
    (hk : ∀ x ∈ k, x.length = L) (hk' : ∀ x ∈ k', x.length = L) (hlen : k.length = k'.length)
    (hm : m ≠ []) (hm' : m' ≠ []) (hc : ∀ x ∈ m, ',' ∉ x) (hc' : ∀ x ∈ m', ',' ∉ x)
    (hsha : NoCollision sha (msgData (.keysign p m k b v)) (msgData (.keysign p' m' k' b' v'))) (d : D)
    (h : requestToMsgId sha (.keysign p m k b v) = .ok d) (h' : requestToMsgId sha (.keysign p' m' k' b' v') = .ok d) :
    m.Perm m' ∧ k.Perm k' := by
  unfold requestToMsgId MsgToHashString at h h'
  split at h
  · cases h
  split at h'
  · cases h'
  injection h with h
  injection h' with h'
  have heq := hsha (h.trans h'.symm)
  simp only [msgData] at heq
  have hs : ∀ x ∈ sortStrings k, x.length = L := fun x hx => hk x (mem_sortStrings.1 hx)
  have hs' : ∀ x ∈ sortStrings k', x.length = L := fun x hx => hk' x (mem_sortStrings.1 hx)
  have hl : (sortStrings k).flatten.length = (sortStrings k').flatten.length := by
    rw [flatten_length hs, flatten_length hs']
    unfold sortStrings
    rw [List.length_insertionSort, List.length_insertionSort, hlen]
  have h2 := List.append_inj' heq hl
  have hne : ∀ {l : List Str}, l ≠ [] → sortStrings l ≠ [] := by
    intro l hl he
    apply hl
    have := List.length_insertionSort (· ≤ ·) l
    unfold sortStrings at he
    rw [he] at this
    exact List.length_eq_zero_iff.1 this.symm
  refine ⟨perm_of_sortStrings_eq (joinComma_inj (hne hm) (hne hm')
    (fun x hx => hc x (mem_sortStrings.1 hx)) (fun x hx => hc' x (mem_sortStrings.1 hx)) h2.1),
    perm_of_sortStrings_eq (flatten_inj hL hs hs' h2.2)⟩

/-- the hypotheses of the partial theorems can be met -/
example : requestToMsgId id (.keysign [] [['m']] [['k', '1'], ['k', '2']] 1 []) = .ok "mk1k2".toList := by decide

/-- C10 is false as stated: a message can absorb a signer key. -/
theorem c10_message_absorbs_key {D : Type} (sha : Str → D) (p : Str) (b : Int) (v : Str) :
    requestToMsgId sha (.keysign p [['m', 'k', '1']] [['k', '2']] b v) =
    requestToMsgId sha (.keysign p [['m']] [['k', '1'], ['k', '2']] b v) := by
  have : msgData (.keysign p [['m', 'k', '1']] [['k', '2']] b v) =
      msgData (.keysign p [['m']] [['k', '1'], ['k', '2']] b v) := by
    simp only [msgData]; decide
  simp only [requestToMsgId, MsgToHashString, this]

/-- C10: a keygen request and a signing request of one empty message by the same committee share their id. -/
theorem c10_keygen_keysign_collide {D : Type} (sha : Str → D) (k : List Str) (p : Str) (b b' : Int) (v v' : Str) :
    requestToMsgId sha (.keygen k b v) = requestToMsgId sha (.keysign p [[]] k b' v') := by
  have : msgData (.keygen k b v) = msgData (.keysign p [[]] k b' v') := by
    simp [msgData, sortStrings, joinComma]
  simp only [requestToMsgId, MsgToHashString, this]

/-- C10: the id ignores the pool key, block height and version, so that signing the same messages with two different
vault keys uses one id. -/
theorem c10_pool_key_ignored {D : Type} (sha : Str → D) (p p' : Str) (m k : List Str) (b b' : Int) (v v' : Str) :
    requestToMsgId sha (.keysign p m k b v) = requestToMsgId sha (.keysign p' m k b' v') := rfl

/-- An empty request is refused. -/
theorem c09_empty_refused {D : Type} (sha : Str → D) (b : Int) (v : Str) :
    requestToMsgId sha (.keygen [] b v) = .err "empty message" := rfl

end Verif.Props.MsgId
