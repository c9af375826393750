import Verif.Model.Go

/-! # p2p/stream_helper.go: StreamMgr -/
namespace Verif.StreamMgr
open Verif.Go

/-- State of a stream manager: `unusedStreams` (p2p/stream_helper.go:27-31); `resets` is the log of `Reset` calls made on
streams, the observable effect. Streams are named by an arbitrary type. -/
structure State (S : Type) where
  unused : Map String (List S)
  resets : List S

variable {S : Type}

/-- p2p/stream_helper.go:33-39 `NewStreamMgr`. -/
def init : State S := ⟨[], []⟩

/-- p2p/stream_helper.go:60-74 `AddStream`; `none` is a nil stream. -/
def addStream (st : State S) (msgID : String) (stream : Option S) : State S :=
  match stream with
  | none => st
  | some s =>
    match Map.get st.unused msgID with
    | none => { st with unused := Map.set st.unused msgID [s] }
    | some entries => { st with unused := Map.set st.unused msgID (entries ++ [s]) }

/-- p2p/stream_helper.go:42-46, the read part of `ReleaseStream`, under the read lock: the streams it will reset, or `none`
when neither entry exists. (The `append` may write into spare capacity of the first slice; that is modelled in `Verif.StreamSlices`.) -/
def snapshot (st : State S) (msgID : String) : Option (List S) :=
  let used := Map.get st.unused msgID
  let unknown := Map.get st.unused "UNKNOWN"
  if used.isSome || unknown.isSome then some (used.getD [] ++ unknown.getD []) else none

/-- p2p/stream_helper.go:48-57, the second part of `ReleaseStream`: reset the streams of the snapshot, then delete the
entry of `msgID` under the write lock. -/
def finish (st : State S) (msgID : String) (snap : Option (List S)) : State S :=
  match snap with
  | none => st
  | some streams => { unused := Map.del st.unused msgID, resets := st.resets ++ streams }

/-- p2p/stream_helper.go:41-58 `ReleaseStream`, when no other call runs in between. -/
def releaseStream (st : State S) (msgID : String) : State S := finish st msgID (snapshot st msgID)

/-- One call of the API. -/
inductive Op (S : Type) where
  | add (msgID : String) (s : S)
  | addNil (msgID : String)
  | release (msgID : String)

/-- effect of one (uninterrupted) call -/
def step (st : State S) : Op S → State S
  | .add id s => addStream st id (some s)
  | .addNil id => addStream st id none
  | .release id => releaseStream st id

/-- effect of a history of calls -/
def run (h : List (Op S)) : State S := h.foldl step init

end Verif.StreamMgr
