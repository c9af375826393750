import Verif.Model.SessNet

/-! Concrete encodings of the messages of a session for the examples: prefix codes, built up from parts. -/
namespace Verif.Spec
open Verif.Go Verif.Messages Verif.TssCommon Verif.SessNet

/-- a prefix code -/
structure Code (α : Type) where
  enc : α → Bytes
  dec : Bytes → Option (α × Bytes)
  ok : ∀ a rest, dec (enc a ++ rest) = some (a, rest)

namespace Code

/-- the code of a type given by another one -/
def iso {α β : Type} (c : Code α) (f : β → α) (g : α → β) (h : ∀ b, g (f b) = b) : Code β where
  enc b := c.enc (f b)
  dec r := (c.dec r).map (fun x => (g x.1, x.2))
  ok a rest := by simp [c.ok, h]

/-- one after the other -/
def prod {α β : Type} (c : Code α) (d : Code β) : Code (α × β) where
  enc x := c.enc x.1 ++ d.enc x.2
  dec r := (c.dec r).bind fun x => (d.dec x.2).map fun y => ((x.1, y.1), y.2)
  ok a rest := by simp [List.append_assoc, c.ok, d.ok]

/-- as many times 255 as fit, then the rest -/
def natEnc (n : Nat) : Bytes := List.replicate (n / 255) 255 ++ [UInt8.ofNat (n % 255)]

def natDec : Bytes → Option (Nat × Bytes)
  | [] => none
  | b :: rest => if b = 255 then (natDec rest).map (fun x => (x.1 + 255, x.2)) else some (b.toNat, rest)

theorem natDec_enc (k r : Nat) (hr : r < 255) (rest : Bytes) :
    natDec (List.replicate k 255 ++ (UInt8.ofNat r :: rest)) = some (255 * k + r, rest) := by
  induction k with
  | zero =>
    have h1 : (UInt8.ofNat r).toNat = r := by simp; omega
    have h2 : UInt8.ofNat r ≠ 255 := by
      intro h
      have := congrArg UInt8.toNat h
      rw [h1] at this
      simp at this
      omega
    simp [natDec, h2]
    omega
  | succ k ih =>
    rw [List.replicate_succ, List.cons_append]
    unfold natDec
    rw [if_pos rfl, ih]
    simp; omega

def nat : Code Nat where
  enc := natEnc
  dec := natDec
  ok n rest := by
    unfold natEnc
    rw [List.append_assoc, List.singleton_append, natDec_enc _ _ (Nat.mod_lt _ (by omega))]
    rw [Nat.div_add_mod]

/-- `n` times -/
def repDec {α : Type} (c : Code α) : Nat → Bytes → Option (List α × Bytes)
  | 0, r => some ([], r)
  | n + 1, r => (c.dec r).bind fun x => (repDec c n x.2).map fun y => (x.1 :: y.1, y.2)

theorem repDec_ok {α : Type} (c : Code α) (l : List α) (rest : Bytes) : repDec c l.length (l.flatMap c.enc ++ rest) = some (l, rest) := by
  induction l with
  | nil => rfl
  | cons a l ih => simp [repDec, List.append_assoc, c.ok, ih]

/-- the length and the items -/
def list {α : Type} (c : Code α) : Code (List α) where
  enc l := nat.enc l.length ++ l.flatMap c.enc
  dec r := (nat.dec r).bind fun x => repDec c x.1 x.2
  ok l rest := by
    rw [List.append_assoc, nat.ok]
    exact repDec_ok c l rest

def bool : Code Bool := nat.iso (fun b => if b then 1 else 0) (fun n => n == 1) (by decide)
def byte : Code UInt8 := nat.iso UInt8.toNat UInt8.ofNat (by simp)
def char : Code Char := nat.iso Char.toNat Char.ofNat (by simp)
def bytes : Code Bytes := list byte
def string : Code String := (list char).iso String.toList String.ofList (by simp)

def option {α : Type} (c : Code α) : Code (Option α) := (list c).iso Option.toList List.head? (by rintro (_ | _) <;> rfl)

def routing : Code Routing := (prod (option (option nat)) (prod (list nat) bool)).iso (fun r => (r.from_, r.to_, r.isBroadcast))
  (fun x => ⟨x.1, x.2.1, x.2.2⟩) (fun _ => rfl)

def wire : Code WireMessage := (prod (option routing) (prod string (prod bytes bytes))).iso (fun w => (w.routing, w.roundInfo, w.message, w.sig))
  (fun x => ⟨x.1, x.2.1, x.2.2.1, x.2.2.2⟩) (fun _ => rfl)

def confirm : Code (ConfirmMsg Nat) := (prod (option nat) (prod string string)).iso (fun c => (c.p2pid, c.key, c.hash))
  (fun x => ⟨x.1, x.2.1, x.2.2⟩) (fun _ => rfl)

def control : Code Control := (prod string (prod string (prod byte (option wire)))).iso (fun c => (c.reqHash, c.reqKey, c.requestType, c.msg))
  (fun x => ⟨x.1, x.2.1, x.2.2.1, x.2.2.2⟩) (fun _ => rfl)

def share : Code BulkWireMsg := (prod bytes (prod string (option routing))).iso (fun c => (c.wired, c.ident, c.routing))
  (fun x => ⟨x.1, x.2.1, x.2.2⟩) (fun _ => rfl)

theorem full {α : Type} (c : Code α) (a : α) : (c.dec (c.enc a)).map Prod.fst = some a := by
  have := c.ok a []
  rw [List.append_nil] at this
  rw [this]; rfl

end Code

/-- the encoders -/
def demoEnc : Encoders Nat where
  wrap t b := Code.byte.enc t ++ b
  wire := Code.wire.enc
  confirm := Code.confirm.enc
  control := Code.control.enc
  task := Code.bool.enc
  bulk := (Code.list Code.share).enc

end Verif.Spec
