import Verif.Model.Bytes
import Mathlib.Data.Nat.Prime.Basic

/-!
# RIPEMD-160

Written from H. Dobbertin, A. Bosselaers, B. Preneel, "RIPEMD-160: A Strengthened Version of RIPEMD" (appendix A), not from the model.
-/
namespace Verif.Spec.Ripemd160

/-- words -/
abbrev Word := BitVec 32

/-- the nonlinear functions -/
def f (j : Nat) (x y z : Word) : Word :=
  if j ≤ 15 then x ^^^ y ^^^ z
  else if j ≤ 31 then (x &&& y) ||| (~~~x &&& z)
  else if j ≤ 47 then (x ||| ~~~y) ^^^ z
  else if j ≤ 63 then (x &&& z) ||| (y &&& ~~~z)
  else x ^^^ (y ||| ~~~z)

/-- `c` is the integer part of 2^30 times the `r`-th root of `p` -/
def Root (r p : Nat) (c : Word) : Prop := c.toNat ^ r ≤ p * 2 ^ (30 * r) ∧ p * 2 ^ (30 * r) < (c.toNat + 1) ^ r

/-- the added constants of the rounds, of the left and of the right line -/
structure Constants (k k' : Nat → Word) : Prop where
  left1 : k 0 = 0
  left2 : Root 2 2 (k 1)
  left3 : Root 2 3 (k 2)
  left4 : Root 2 5 (k 3)
  left5 : Root 2 7 (k 4)
  right1 : Root 3 2 (k' 0)
  right2 : Root 3 3 (k' 1)
  right3 : Root 3 5 (k' 2)
  right4 : Root 3 7 (k' 3)
  right5 : k' 4 = 0

/-- the permutation ρ -/
def rho (i : Nat) : Nat := [7, 4, 13, 1, 10, 6, 15, 3, 12, 0, 9, 5, 2, 14, 11, 8].getD i 0

/-- the permutation π -/
def pi (i : Nat) : Nat := (9 * i + 5) % 16

/-- the selection of message words: id, ρ, ρ², ρ³, ρ⁴ in the rounds of the left line -/
def r (j : Nat) : Nat := rho^[j / 16] (j % 16)

/-- π, ρπ, ρ²π, ρ³π, ρ⁴π in the rounds of the right line -/
def r' (j : Nat) : Nat := rho^[j / 16] (pi (j % 16))

/-- the shifts for each round and message word -/
def shifts : List (List Nat) :=
  [[11, 14, 15, 12, 5, 8, 7, 9, 11, 13, 14, 15, 6, 7, 9, 8],
   [12, 13, 11, 15, 6, 9, 9, 7, 12, 15, 11, 13, 7, 8, 7, 7],
   [13, 15, 14, 11, 7, 7, 6, 8, 13, 14, 13, 12, 5, 5, 6, 9],
   [14, 11, 12, 14, 8, 6, 5, 5, 15, 12, 15, 14, 9, 9, 8, 6],
   [15, 12, 13, 13, 9, 5, 8, 6, 14, 11, 12, 11, 8, 6, 5, 5]]

/-- the amount by which the word `i` is rotated in the round of `j` -/
def shift (j i : Nat) : Nat := (shifts.getD (j / 16) []).getD i 0

/-- the variables of a line, and the five words of a hash value -/
structure Vars where
  a : Word
  b : Word
  c : Word
  d : Word
  e : Word
  deriving DecidableEq

/-- word `i` of bytes, the lowest byte first -/
def read (p : Bytes) (i : Nat) : Word := BitVec.ofNat 32 (Bytes.toNat ((p.drop (4 * i)).take 4).reverse)

/-- the initial value: the bytes 01 23 45 67 89 ab cd ef fe dc ba 98 76 54 32 10 f0 e1 d2 c3 -/
def iv : Vars :=
  let p : Bytes := [0x01, 0x23, 0x45, 0x67, 0x89, 0xab, 0xcd, 0xef, 0xfe, 0xdc, 0xba, 0x98, 0x76, 0x54, 0x32, 0x10, 0xf0, 0xe1, 0xd2, 0xc3]
  ⟨read p 0, read p 1, read p 2, read p 3, read p 4⟩

/-- a one bit, zero bits up to 8 bytes before the end of a block, and the number of bits in 8 bytes, the lowest first -/
def Padded (x p : Bytes) : Prop :=
  ∃ k len, k < 64 ∧ (x.length + 1 + k) % 64 = 56 ∧ p = x ++ [0x80] ++ List.replicate k 0 ++ len ∧ len.length = 8 ∧ Bytes.toNat len.reverse = 8 * x.length

/-- a step of a line: `T := rol_s(A + f(B, C, D) + X + K) + E; A := E; E := D; D := rol_10(C); C := B; B := T` -/
def turn (s : Nat) (w k fv : Word) (v : Vars) : Vars := ⟨v.e, (v.a + fv + w + k).rotateLeft s + v.e, v.b, v.c.rotateLeft 10, v.d⟩

/-- the left line, for all numbers below `j` -/
def left (k : Nat → Word) (X : Nat → Word) : Nat → Vars → Vars
  | 0, v => v
  | j + 1, v => turn (shift j (r j)) (X (r j)) (k (j / 16)) (f j (left k X j v).b (left k X j v).c (left k X j v).d) (left k X j v)

/-- the right line, for all numbers below `j`: the functions come in reverse order -/
def right (k' : Nat → Word) (X : Nat → Word) : Nat → Vars → Vars
  | 0, v => v
  | j + 1, v => turn (shift j (r' j)) (X (r' j)) (k' (j / 16)) (f (79 - j) (right k' X j v).b (right k' X j v).c (right k' X j v).d) (right k' X j v)

/-- the end of a block -/
def combine (h l l' : Vars) : Vars := ⟨h.b + l.c + l'.d, h.c + l.d + l'.e, h.d + l.e + l'.a, h.e + l.a + l'.b, h.a + l.b + l'.c⟩

/-- the hash value after the first `i` blocks of `p` -/
def hash (k k' : Nat → Word) (p : Bytes) : Nat → Vars
  | 0 => iv
  | i + 1 => combine (hash k k' p i) (left k (fun t => read p (16 * i + t)) 80 (hash k k' p i)) (right k' (fun t => read p (16 * i + t)) 80 (hash k k' p i))

/-- `d` is the RIPEMD-160 digest of `x` -/
def IsDigest (x d : Bytes) : Prop :=
  ∃ k k' p, Constants k k' ∧ Padded x p ∧ d.length = 20 ∧
    read d 0 = (hash k k' p (p.length / 64)).a ∧ read d 1 = (hash k k' p (p.length / 64)).b ∧ read d 2 = (hash k k' p (p.length / 64)).c ∧
    read d 3 = (hash k k' p (p.length / 64)).d ∧ read d 4 = (hash k k' p (p.length / 64)).e

end Verif.Spec.Ripemd160
