import Verif.Model.Blame

/-!
# The record of accepted shares, as slices over shared arrays

blame/manager.go keeps, for every round, a Go slice of party ids. A slice is a window on an array, and `append` writes into the array when there is
room behind the window. blame/policy.go copies the slices (not the arrays) under the lock and appends to a copy after the lock is released, so it writes
into an array that the record still uses. `Verif.Blame` models the record by lists; here the arrays are modelled, and the three parts of
`TssMissingShareBlame` that touch them are steps of their own, between which shares may be accepted.

Simplifications: reading or writing one cell is one step; a cell that was never written is `none`.
-/
namespace Verif.AcceptSlices
open Verif.Go Verif.Blame

/-- A Go slice that starts at the first cell of array number `arr` (all slices of blame/manager.go:55-66 and blame/policy.go:178 do). -/
structure Slice where
  arr : Nat
  len : Nat
  deriving DecidableEq, Repr

/-- The arrays that were made so far; the length of an array is the capacity of the slices on it. -/
abbrev Heap := List (List (Option Nat))

/-- The cells of array `a`. -/
def arr (h : Heap) (a : Nat) : List (Option Nat) := h[a]?.getD []

/-- The elements of a slice. -/
def content (h : Heap) (s : Slice) : List (Option Nat) := (arr h s.arr).take s.len

/-- The rule of the Go runtime for the capacity of the array made by `append` when one of capacity `c` is full (one element is added). The runtime then
rounds the array up to a size class, which is left out here and changes nothing for the first four arrays (1, 2, 4 and 8 strings of 16 bytes). The theorems
for all histories hold for every rule that makes room; this one is used where room must be left over. -/
def goGrow (c : Nat) : Nat := if c < 1024 then max 1 (2 * c) else c + c / 4

/-- Go's `append(s, x)`; `none` is the nil slice (blame/manager.go:64, blame/policy.go:178). -/
def append (grow : Nat → Nat) (h : Heap) (s : Option Slice) (x : Nat) : Heap × Slice :=
  match s with
  | none => (h ++ [some x :: List.replicate (grow 0 - 1) none], ⟨h.length, 1⟩)
  | some s =>
    if s.len < (arr h s.arr).length then (h.set s.arr ((arr h s.arr).set s.len (some x)), ⟨s.arr, s.len + 1⟩)
    else (h ++ [content h s ++ some x :: List.replicate (grow (arr h s.arr).length - (s.len + 1)) none], ⟨h.length, s.len + 1⟩)

/-- What `TssMissingShareBlame` is reading: the slice `el` of a round, and what it has read of it (blame/policy.go:178-181). -/
structure Cur where
  round : RoundInfo
  el : Slice
  got : List (Option Nat)

/-- `shares` is `acceptedShares` (blame/manager.go:24); `snap` are the slices copied by the blame (blame/policy.go:136, `acceptedShareForMsg`, before
they are sorted by message); `cur` is the loop of blame/policy.go:178-181. -/
structure St where
  heap : Heap := []
  shares : Map RoundInfo Slice := []
  snap : Option (Map RoundInfo Slice) := none
  cur : Option Cur := none

/-- The steps of the two sides. -/
inductive Ev
  | accept (round : RoundInfo) (id : Nat)
  | look
  | add (round : RoundInfo)
  | read

/-- blame/manager.go:55-66 `UpdateAcceptShare`: under the lock. -/
def updateAcceptShare (grow : Nat → Nat) (st : St) (round : RoundInfo) (id : Nat) : St :=
  match Map.get st.shares round with
  | none => { st with heap := st.heap ++ [[some id]], shares := Map.set st.shares round ⟨st.heap.length, 1⟩ }
  | some partyList =>
    { st with heap := (append grow st.heap (some partyList) id).1, shares := Map.set st.shares round (append grow st.heap (some partyList) id).2 }

/-- blame/manager.go:68-80 `CheckMsgDuplication`: under the lock. -/
def checkMsgDuplication (st : St) (round : RoundInfo) (id : Nat) : Bool :=
  match Map.get st.shares round with
  | none => false
  | some partyList => (content st.heap partyList).any (fun el => el = some id)

/-- blame/policy.go:140-151: the slices are copied under the lock. -/
def look (st : St) : St := { st with snap := some st.shares, cur := none }

/-- blame/policy.go:178 `el = append(el, m.localPartyID)`: without the lock, on the copied slice of the round (nil if it had none). -/
def add (grow : Nat → Nat) (self : Nat) (st : St) (round : RoundInfo) : St :=
  match st.snap with
  | none => st
  | some snap =>
    { st with heap := (append grow st.heap (Map.get snap round) self).1, cur := some ⟨round, (append grow st.heap (Map.get snap round) self).2, []⟩ }

/-- blame/policy.go:179-181: one turn of the loop over `el`. -/
def read (st : St) : St :=
  match st.cur with
  | none => st
  | some c =>
    if c.got.length < c.el.len then { st with cur := some { c with got := c.got ++ [(arr st.heap c.el.arr)[c.got.length]?.getD none] } } else st

/-- One step; `self` is `localPartyID`. -/
def step (grow : Nat → Nat) (self : Nat) (st : St) : Ev → St
  | .accept round id => updateAcceptShare grow st round id
  | .look => look st
  | .add round => add grow self st round
  | .read => read st

/-- A history, from a new manager (blame/manager.go:27-41). -/
def run (grow : Nat → Nat) (self : Nat) (h : List Ev) : St := h.foldl (step grow self) {}

end Verif.AcceptSlices
