import Verif.Model.Notifier

/-! A concrete lawful wire format for the examples: numbers in unary, lists with their length in front. -/
namespace Verif.Spec.DemoWire
open Verif.Go Verif.Session

/-- a self-delimiting code -/
structure Code (α : Type) where
  wr : α → Bytes
  rd : Bytes → Option (α × Bytes)
  ok : ∀ x r, rd (wr x ++ r) = some (x, r)

/-- reads a number in unary -/
def rdNat : Bytes → Option (Nat × Bytes)
  | [] => none
  | x :: r => if x = 0 then some (0, r) else (rdNat r).map fun p => (p.1 + 1, p.2)

/-- numbers in unary -/
def nat : Code Nat where
  wr n := List.replicate n 1 ++ [0]
  rd := rdNat
  ok n r := by
    induction n with
    | zero => rfl
    | succ n ih =>
      rw [List.replicate_succ, List.cons_append, List.cons_append, rdNat, if_neg (by decide), ih]
      rfl

/-- a code for the elements of a type which can be mapped to another with a code -/
def Code.via {α β : Type} (c : Code β) (f : α → β) (g : β → α) (h : ∀ x, g (f x) = x) : Code α where
  wr x := c.wr (f x)
  rd b := (c.rd b).map fun p => (g p.1, p.2)
  ok x r := by rw [c.ok]; simp [h]

/-- pairs -/
def Code.pair {α β : Type} (c : Code α) (d : Code β) : Code (α × β) where
  wr x := c.wr x.1 ++ d.wr x.2
  rd b := (c.rd b).bind fun p => (d.rd p.2).map fun q => ((p.1, q.1), q.2)
  ok x r := by rw [List.append_assoc, c.ok]; simp [d.ok]

/-- reads `n` elements -/
def rdN {α : Type} (c : Code α) : Nat → Bytes → Option (List α × Bytes)
  | 0, b => some ([], b)
  | n + 1, b => (c.rd b).bind fun p => (rdN c n p.2).map fun q => (p.1 :: q.1, q.2)

theorem rdN_ok {α : Type} (c : Code α) (l : List α) (r : Bytes) : rdN c l.length (l.flatMap c.wr ++ r) = some (l, r) := by
  induction l with
  | nil => rfl
  | cons x l ih =>
    rw [List.flatMap_cons, List.append_assoc, List.length_cons, rdN, c.ok]
    simp [ih]

/-- lists -/
def Code.list {α : Type} (c : Code α) : Code (List α) where
  wr l := nat.wr l.length ++ l.flatMap c.wr
  rd b := (nat.rd b).bind fun p => rdN c p.1 p.2
  ok l r := by rw [List.append_assoc, nat.ok]; exact rdN_ok c l r

/-- bytes -/
def byte : Code UInt8 := nat.via UInt8.toNat UInt8.ofNat (fun x => by simp)

def bytes : Code Bytes := byte.list

def string : Code String := (nat.via Char.toNat Char.ofNat (fun x => by simp)).list.via String.toList String.ofList (fun x => by simp)

def bool : Code Bool := nat.via (fun b => if b then 1 else 0) (fun n => n = 1) (fun x => by cases x <;> rfl)

/-- a signature, without signature part as the empty list -/
def sigCode : Code Sig :=
  (bytes.list.pair (bytes.pair (bytes.pair (bytes.pair bytes)))).via (fun s => (s.signature.toList, s.recovery, s.r, s.s, s.m))
    (fun p => ⟨p.1.head?, p.2.1, p.2.2.1, p.2.2.2.1, p.2.2.2.2⟩)
    (fun s => by rcases s with ⟨_ | x, a, b, c, d⟩ <;> rfl)

/-- a notice -/
def msgCode : Code SigNotifier.KeysignSignature :=
  (string.pair (bytes.list.pair bool)).via (fun m => (m.id, m.signatures, m.success)) (fun p => ⟨p.1, p.2.1, p.2.2⟩) (fun _ => rfl)

def enc : SigNotifier.Enc := ⟨fun m => some (msgCode.wr m), fun s => some (sigCode.wr s)⟩

/-- the receiver; a signature is good if r and s are the message -/
def notifier : SigNotifier.Env where
  verify _ m r s := some (decide (Bytes.toNat m = r ∧ r = s))
  decMsg b := (msgCode.rd b).map (·.1)
  decSig b := (sigCode.rd b).map (·.1)

theorem decMsg_enc (m : SigNotifier.KeysignSignature) : notifier.decMsg (msgCode.wr m) = some m := by
  have := msgCode.ok m []
  rw [List.append_nil] at this
  show (msgCode.rd _).map _ = _
  rw [this]
  rfl

theorem decSig_enc (s : Sig) : notifier.decSig (sigCode.wr s) = some s := by
  have := sigCode.ok s []
  rw [List.append_nil] at this
  show (sigCode.rd _).map _ = _
  rw [this]
  rfl

end Verif.Spec.DemoWire
