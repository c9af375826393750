import Verif.Model.AcceptSlices

/-!
# p2p/stream_helper.go: StreamMgr, with the arrays behind its slices

`Verif.StreamMgr` models the retained streams by lists. `ReleaseStream` appends the streams of unknown sessions to a slice that the record still uses, after the
lock is released (p2p/stream_helper.go:46), and so writes into an array shared with `AddStream` and with other releases. Here the arrays are modelled
(as in `Verif.AcceptSlices`), and any number of releases run at the same time, step by step. Streams are numbers.

Simplification: the copying of the unknown streams behind the first slice is one step.
-/
namespace Verif.StreamSlices
open Verif.Go
open Verif.AcceptSlices (Heap Slice arr content)

/-- The array `a` with `xs` written from cell `k` on. -/
def write (h : Heap) (a k : Nat) (xs : List (Option Nat)) : Heap := h.set a ((arr h a).take k ++ xs ++ (arr h a).drop (k + xs.length))

/-- Go's `append(s, xs...)`: in place if there is room, otherwise into a new array of at least the needed length. -/
def appendAll (grow : Nat → Nat) (h : Heap) (s : Option Slice) (xs : List (Option Nat)) : Heap × Option Slice :=
  if xs = [] then (h, s)
  else match s with
  | none => (h ++ [xs ++ List.replicate (grow 0 - xs.length) none], some ⟨h.length, xs.length⟩)
  | some s =>
    if s.len + xs.length ≤ (arr h s.arr).length then (write h s.arr s.len xs, some ⟨s.arr, s.len + xs.length⟩)
    else (h ++ [content h s ++ xs ++ List.replicate (grow (arr h s.arr).length - (s.len + xs.length)) none], some ⟨h.length, s.len + xs.length⟩)

/-- The local variables of a running `ReleaseStream` (p2p/stream_helper.go:41-58): the two slices it looked up, `streams`, and the position of its loop. -/
structure Rel where
  id : String
  used : Option Slice
  unknown : Option Slice
  streams : Option Slice := none
  pos : Nat := 0

/-- `unused` is `unusedStreams` (p2p/stream_helper.go:27-31); `rels` are the running releases; `resets` logs the streams that were reset, with the id of the
session being released. -/
structure St where
  heap : Heap := []
  unused : Map String Slice := []
  rels : Map Nat Rel := []
  resets : List (String × Option Nat) := []

/-- p2p/stream_helper.go:60-74 `AddStream` for a stream that is not nil: under the lock. -/
def addStream (grow : Nat → Nat) (st : St) (msgID : String) (stream : Nat) : St :=
  match Map.get st.unused msgID with
  | none => { st with heap := st.heap ++ [[some stream]], unused := Map.set st.unused msgID ⟨st.heap.length, 1⟩ }
  | some entries =>
    match appendAll grow st.heap (some entries) [some stream] with
    | (heap, some entries) => { st with heap, unused := Map.set st.unused msgID entries }
    | (heap, none) => { st with heap }

/-- p2p/stream_helper.go:42-45: a release by thread `t` looks up the two slices, under the read lock. -/
def look (st : St) (t : Nat) (msgID : String) : St :=
  { st with rels := Map.set st.rels t { id := msgID, used := Map.get st.unused msgID, unknown := Map.get st.unused "UNKNOWN" } }

/-- p2p/stream_helper.go:46 `streams := append(usedStreams, unknownStreams...)`, without the lock. -/
def join (grow : Nat → Nat) (st : St) (t : Nat) : St :=
  match Map.get st.rels t with
  | none => st
  | some r =>
    { st with
      heap := (appendAll grow st.heap r.used (r.unknown.elim [] (content st.heap))).1
      rels := Map.set st.rels t { r with streams := (appendAll grow st.heap r.used (r.unknown.elim [] (content st.heap))).2 } }

/-- p2p/stream_helper.go:48-53: one turn of the loop; without the lock. -/
def reset (st : St) (t : Nat) : St :=
  match Map.get st.rels t with
  | none => st
  | some r =>
    match r.streams with
    | none => st
    | some s =>
      if r.pos < s.len then
        { st with resets := st.resets ++ [(r.id, (arr st.heap s.arr)[r.pos]?.getD none)], rels := Map.set st.rels t { r with pos := r.pos + 1 } }
      else st

/-- p2p/stream_helper.go:47, 54-57: the end of a release: the entry is deleted under the lock, if one of the two was there. -/
def finish (st : St) (t : Nat) : St :=
  match Map.get st.rels t with
  | none => st
  | some r => { st with unused := if r.used.isSome || r.unknown.isSome then Map.del st.unused r.id else st.unused, rels := Map.del st.rels t }

/-- The steps. -/
inductive Ev
  | add (msgID : String) (stream : Nat)
  | look (t : Nat) (msgID : String)
  | join (t : Nat)
  | reset (t : Nat)
  | finish (t : Nat)

/-- One step. -/
def step (grow : Nat → Nat) (st : St) : Ev → St
  | .add msgID stream => addStream grow st msgID stream
  | .look t msgID => look st t msgID
  | .join t => join grow st t
  | .reset t => reset st t
  | .finish t => finish st t

/-- A history, from a new manager (p2p/stream_helper.go:33-39). -/
def run (grow : Nat → Nat) (h : List Ev) : St := h.foldl (step grow) {}

end Verif.StreamSlices
