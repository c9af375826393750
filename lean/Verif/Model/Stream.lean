import Verif.Model.Bytes

/-!
# p2p/stream_helper.go: length-prefixed framing

A network stream, seen by its reader, is the list of chunks in which the transport delivers the bytes; after the last
chunk the stream ends with an error (EOF, reset or the read deadline: the reader treats them alike). `bufio.Reader` and
`io.ReadFull` are modelled because the code creates a fresh buffered reader for every call, and what it has read ahead is
lost with it. Read/write deadlines themselves are not modelled.
-/
namespace Verif.Stream
open Verif.Go

/-- p2p/stream_helper.go:17 -/
def LengthHeader : Nat := 4
/-- p2p/stream_helper.go:20 -/
def MaxPayload : Nat := 20000000
/-- default size of a `bufio.Reader` -/
def bufSize : Nat := 4096

/-- `binary.LittleEndian.PutUint32` of a number already reduced modulo 2^32. -/
def le32 (n : Nat) : Bytes :=
  [UInt8.ofNat (n % 256), UInt8.ofNat (n / 256 % 256), UInt8.ofNat (n / 65536 % 256), UInt8.ofNat (n / 16777216 % 256)]

/-- `binary.LittleEndian.Uint32` of four bytes. -/
def unle32 : Bytes → Nat
  | [a, b, c, d] => a.toNat + 256 * b.toNat + 65536 * c.toNat + 16777216 * d.toNat
  | _ => 0

/-- the bytes WriteStreamWithBuffer puts on the wire: p2p/stream_helper.go:106-108 and 117-122 -/
def frame (msg : Bytes) : Bytes := le32 (msg.length % 2 ^ 32) ++ msg

/-- p2p/stream_helper.go:105-134 `WriteStreamWithBuffer`: returns what reached the wire and the result. `fault = some k`
means that the transport fails after `k` bytes. -/
def WriteStreamWithBuffer (msg : Bytes) (fault : Option Nat) : Bytes × Res Unit :=
  match fault with
  | none => (frame msg, .ok ())
  | some k => if k < (frame msg).length then ((frame msg).take k, .err "write") else (frame msg, .ok ())

/-- The transport's `Read` with room for `c > 0` bytes: at most the rest of the next chunk; `none` is the end of stream. -/
def rdRead (c : Nat) : List Bytes → Option (Bytes × List Bytes)
  | [] => none
  | ch :: rest => if ch.length ≤ c then some (ch, rest) else some (ch.take c, ch.drop c :: rest)

/-- A `bufio.Reader`: read-ahead buffer and the underlying stream. -/
structure Reader where
  buf : Bytes
  chunks : List Bytes

/-- `bufio.Reader.Read` with room for `n > 0` bytes; `none` is an error without data. -/
def bufRead (n : Nat) (r : Reader) : Option (Bytes × Reader) :=
  match r.buf with
  | [] =>
    if n ≥ bufSize then
      match rdRead n r.chunks with
      | none => none
      | some (d, cs) => some (d, ⟨[], cs⟩)
    else
      match rdRead bufSize r.chunks with
      | none => none
      | some (d, cs) => some (d.take n, ⟨d.drop n, cs⟩)
  | _ :: _ => some (r.buf.take n, ⟨r.buf.drop n, r.chunks⟩)

/-- an upper bound of the number of further non-failing reads -/
def Reader.size (r : Reader) : Nat := r.buf.length + (r.chunks.map (fun c => c.length + 1)).sum

/-- the loop of `io.ReadFull` (`ReadAtLeast`): read until `n` bytes are there or an error occurs -/
def readFullAux : Nat → Nat → Reader → Option (Bytes × Reader)
  | _, 0, r => some ([], r)
  | 0, _ + 1, _ => none
  | fuel + 1, n + 1, r =>
    match bufRead (n + 1) r with
    | none => none
    | some (d, r') =>
      match readFullAux fuel (n + 1 - d.length) r' with
      | none => none
      | some (d', r'') => some (d ++ d', r'')

/-- `io.ReadFull` -/
def readFull (n : Nat) (r : Reader) : Option (Bytes × Reader) := readFullAux (r.size + 1) n r

/-- p2p/stream_helper.go:77-102 `ReadStreamWithBuffer`: the result, and the stream as the next reader will find it (bytes
already moved into this call's buffer are gone). -/
def ReadStreamWithBuffer (chunks : List Bytes) : Res Bytes × List Bytes :=
  match readFull LengthHeader ⟨[], chunks⟩ with
  | none => (.err "error in read the message head", [])
  | some (lengthBytes, r) =>
    let length := unle32 lengthBytes
    if length > MaxPayload then (.err "payload length exceed max payload length", r.chunks)
    else
      match readFull length r with
      | none => (.err "short read", [])
      | some (dataBuf, r') => (.ok dataBuf, r'.chunks)

end Verif.Stream
