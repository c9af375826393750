import Verif.Model.Sha256
import Mathlib.Data.Nat.Prime.Basic

/-!
# SHA-256 as in FIPS 180-4

Written from the standard, with words of 32 bits, not from the model; only the last part, collisions, speaks about the blocks and states of the model.
-/
namespace Verif.Spec.Sha256

/-- words (2.1) -/
abbrev Word := BitVec 32

/-- 4.1.2 -/
def Ch (x y z : Word) : Word := (x &&& y) ^^^ (~~~x &&& z)
def Maj (x y z : Word) : Word := (x &&& y) ^^^ (x &&& z) ^^^ (y &&& z)
def bigSigma0 (x : Word) : Word := x.rotateRight 2 ^^^ x.rotateRight 13 ^^^ x.rotateRight 22
def bigSigma1 (x : Word) : Word := x.rotateRight 6 ^^^ x.rotateRight 11 ^^^ x.rotateRight 25
def sigma0 (x : Word) : Word := x.rotateRight 7 ^^^ x.rotateRight 18 ^^^ (x >>> 3)
def sigma1 (x : Word) : Word := x.rotateRight 17 ^^^ x.rotateRight 19 ^^^ (x >>> 10)

/-- the first 64 prime numbers -/
def primes : List Nat := (List.range 312).filter fun p => p.Prime

/-- `c` is the first 32 bits of the fractional part of the `r`-th root of `p` -/
def Root (r p : Nat) (c : Word) : Prop := ∃ n, n ^ r ≤ p * 2 ^ (32 * r) ∧ p * 2 ^ (32 * r) < (n + 1) ^ r ∧ c.toNat = n % 2 ^ 32

/-- the working variables, and the eight words of a hash value -/
structure Vars where
  a : Word
  b : Word
  c : Word
  d : Word
  e : Word
  f : Word
  g : Word
  h : Word

/-- 4.2.2 and 5.3.3: the constants `K` and the initial hash value -/
structure Constants (k : Nat → Word) (iv : Vars) : Prop where
  k : ∀ t < 64, Root 3 (primes.getD t 0) (k t)
  a : Root 2 2 iv.a
  b : Root 2 3 iv.b
  c : Root 2 5 iv.c
  d : Root 2 7 iv.d
  e : Root 2 11 iv.e
  f : Root 2 13 iv.f
  g : Root 2 17 iv.g
  h : Root 2 19 iv.h

/-- 5.1.1: a one bit, zero bits up to 8 bytes before the end of a block, and the number of bits in 8 bytes -/
def Padded (x p : Bytes) : Prop :=
  ∃ k len, k < 64 ∧ (x.length + 1 + k) % 64 = 56 ∧ p = x ++ [0x80] ++ List.replicate k 0 ++ len ∧ len.length = 8 ∧ Bytes.toNat len = 8 * x.length

/-- 5.2.1: the `i`-th word of bytes -/
def read (p : Bytes) (i : Nat) : Word := BitVec.ofNat 32 (Bytes.toNat ((p.drop (4 * i)).take 4))

/-- 6.2.2, step 1: the message schedule of the block with the words `M` -/
def W (M : Nat → Word) (t : Nat) : Word :=
  if _h : t < 16 then M t else sigma1 (W M (t - 2)) + W M (t - 7) + sigma0 (W M (t - 15)) + W M (t - 16)

/-- 6.2.2, step 3, for one `t` -/
def turn (k w : Word) (v : Vars) : Vars :=
  let t1 := v.h + bigSigma1 v.e + Ch v.e v.f v.g + k + w
  let t2 := bigSigma0 v.a + Maj v.a v.b v.c
  ⟨t1 + t2, v.a, v.b, v.c, v.d + t1, v.e, v.f, v.g⟩

/-- 6.2.2, step 3, for all numbers below `t` -/
def turns (k w : Nat → Word) : Nat → Vars → Vars
  | 0, v => v
  | t + 1, v => turn (k t) (w t) (turns k w t v)

/-- 6.2.2, step 4 -/
def add (v w : Vars) : Vars := ⟨w.a + v.a, w.b + v.b, w.c + v.c, w.d + v.d, w.e + v.e, w.f + v.f, w.g + v.g, w.h + v.h⟩

/-- 6.2.2: the hash value after the first `i` blocks of `p` -/
def hash (k : Nat → Word) (iv : Vars) (p : Bytes) : Nat → Vars
  | 0 => iv
  | i + 1 => add (hash k iv p i) (turns k (W fun t => read p (16 * i + t)) 64 (hash k iv p i))

/-- 6.2: `d` is the message digest of `x` -/
def IsDigest (x d : Bytes) : Prop :=
  ∃ k iv p, Constants k iv ∧ Padded x p ∧ d.length = 32 ∧
    read d 0 = (hash k iv p (p.length / 64)).a ∧ read d 1 = (hash k iv p (p.length / 64)).b ∧ read d 2 = (hash k iv p (p.length / 64)).c ∧
    read d 3 = (hash k iv p (p.length / 64)).d ∧ read d 4 = (hash k iv p (p.length / 64)).e ∧ read d 5 = (hash k iv p (p.length / 64)).f ∧
    read d 6 = (hash k iv p (p.length / 64)).g ∧ read d 7 = (hash k iv p (p.length / 64)).h

/-- `t` is the text of the digest of `x`: two small hexadecimal digits for each byte -/
def IsHex (b : Bytes) (t : List Char) : Prop :=
  t.length = 2 * b.length ∧ ∀ i < b.length, ∃ hi lo : Fin 16, (b.getD i 0).toNat = 16 * hi + lo ∧
    t.getD (2 * i) ' ' = "0123456789abcdef".toList.getD hi ' ' ∧ t.getD (2 * i + 1) ' ' = "0123456789abcdef".toList.getD lo ' '

open Verif.Sha256 (block blocks padding init) in
/-- block `i` of what is hashed for `x`, and the state before it -/
def At (x : Bytes) (i : Nat) (s : Verif.Sha256.State) (p : Bytes) : Prop :=
  ∃ before after, blocks ((x ++ padding x.length).length / 64) (x ++ padding x.length) = before ++ p :: after ∧ before.length = i ∧ s = before.foldl block init

/-- A collision of the compression function inside of two texts: a block of one and a block of the other, with the states before them, which are not the same, lead
to the same state. -/
def Collide (x y : Bytes) : Prop :=
  ∃ i j s s' p p', At x i s p ∧ At y j s' p' ∧ (s, p) ≠ (s', p') ∧ Verif.Sha256.block s p = Verif.Sha256.block s' p'

end Verif.Spec.Sha256
