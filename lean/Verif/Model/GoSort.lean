import Verif.Model.Go

/-!
# `sort.SliceStable` of Go's standard library

The two calls in /repo (keysign/tss_keysign.go:166-174 and tss/keysign.go:238-251) pass a comparison that is not strict, for which
the documentation of `SliceStable` promises nothing. So the algorithm itself is modelled: insertion sort of blocks of 20, then in-place
merges (`symMerge`) of neighbouring blocks. Slices are lists; a merge of two neighbouring sorted ranges is a function of the two ranges.
-/
namespace Verif.GoSort

variable {α : Type}

/-- One round of the outer loop of `insertionSort`: the new element moves left while it is less than its left neighbour. The sorted
part is given from right to left. -/
def sink (less : α → α → Bool) (x : α) : List α → List α
  | [] => [x]
  | y :: ys => if less x y then y :: sink less x ys else x :: y :: ys

/-- `insertionSort` of a range -/
def insertionSort (less : α → α → Bool) (l : List α) : List α := (l.foldl (fun acc x => sink less x acc) []).reverse

/-- The binary searches of `symMerge`: in `[lo, hi)`, go right of `h` when `right h`. (`fuel` bounds the number of rounds.) -/
def search (right : Nat → Bool) : Nat → Nat → Nat → Nat
  | 0, lo, _ => lo
  | fuel + 1, lo, hi =>
    if lo < hi then
      let h := (lo + hi) / 2
      if right h then search right fuel (h + 1) hi else search right fuel lo h
    else lo

/-- `symMerge` of the ranges `A` and `B`; positions are relative to the start of `A`. The rotation of `data[start:end]` around the
border of `A` and `B` exchanges the end of `A` with the beginning of `B`. (`fuel` bounds the depth of the recursion.) -/
def symMerge (less : α → α → Bool) : Nat → List α → List α → List α
  | 0, A, B => A ++ B
  | fuel + 1, A, B =>
    match A, B with
    | [], B => B
    | A, [] => A
    | [x], B =>
      let i := search (fun h => (B[h]?).any (fun y => less y x)) B.length 0 B.length
      B.take i ++ x :: B.drop i
    | A, [y] =>
      let i := search (fun h => (A[h]?).any (fun x => !less y x)) A.length 0 A.length
      A.take i ++ y :: A.drop i
    | A, B =>
      let m := A.length
      let b := A.length + B.length
      let mid := b / 2
      let right := fun c => (A[c]?).any (fun x => (B[mid - 1 - c]?).any (fun y => !less y x))
      let start := if m > mid then search right b (mid + m - b) mid else search right b 0 m
      symMerge less fuel (A.take start) (B.take (mid - start)) ++ symMerge less fuel (A.drop start) (B.drop (mid - start))

/-- the blocks of 20 elements -/
def blocks : Nat → List α → List (List α)
  | 0, _ => []
  | fuel + 1, l => if l.length = 0 then [] else l.take 20 :: blocks fuel (l.drop 20)

/-- one round of merges of neighbouring blocks -/
def mergePass (less : α → α → Bool) : List (List α) → List (List α)
  | A :: B :: rest => symMerge less (A.length + B.length) A B :: mergePass less rest
  | l => l

/-- all rounds -/
def mergeAll (less : α → α → Bool) : Nat → List (List α) → List (List α)
  | 0, l => l
  | fuel + 1, l => if l.length ≤ 1 then l else mergeAll less fuel (mergePass less l)

/-- `sort.SliceStable` -/
def sliceStable (less : α → α → Bool) (l : List α) : List α :=
  let bs := (blocks l.length l).map (insertionSort less)
  (mergeAll less bs.length bs).flatten

end Verif.GoSort
