import Verif.Model.Startup

/-!
# The running service: cmd/tss/main.go from line 74, cmd/tss/tss_http.go `Start`, `Stop`

The main goroutine, the goroutine of the HTTP server, and the connections of clients with the requests on them. Go's `net/http` is not part of the
repository; of it are written out: listening, the states of connections, `Shutdown` with its polls, and that a panic of a handler ends only its
connection. What a handler does is in `Verif.Http`; here only that it is running. Times are milliseconds.

Simplifications: one request at a time on a connection (HTTP/1.1 without pipelining); clients hang up only between requests; no TLS.
-/
namespace Verif.Service

/-- `http.ConnState` -/
inductive ConnState
  | new (since : Nat)
  | active
  | idle
  | closed
  deriving DecidableEq, Repr

/-- A connection. The numbers are ghosts: how many requests were read, answered, and how many handlers panicked. -/
structure Conn where
  state : ConnState
  read : Nat := 0
  answered : Nat := 0
  panicked : Nat := 0
  deriving DecidableEq, Repr

/-- the listener -/
inductive Listener
  | starting
  | listening
  | closed
  | failed
  deriving DecidableEq, Repr

/-- where the main goroutine is: waiting for a signal (line 83), a signal is in the channel, in `Shutdown` until the deadline, in `tssServer.Stop`, at
its end; with the result of `Shutdown` -/
inductive Phase
  | waiting
  | signalled
  | shutting (deadline : Nat)
  | stopping (ok : Bool)
  | ended (ok : Bool)
  deriving DecidableEq, Repr

/-- the process; `stops` counts the calls of `tssServer.Stop` -/
structure St where
  now : Nat := 0
  listener : Listener := .starting
  conns : List Conn := []
  phase : Phase := .waiting
  stops : Nat := 0
  deriving DecidableEq, Repr

/-- events: time passes; the address can be bound or not; a client connects, sends a request, hangs up; a handler writes its answer or panics; a signal
arrives; the main goroutine receives it; `Shutdown` looks at the connections; its context expires; `tssServer.Stop` returns -/
inductive Event
  | tick (ms : Nat)
  | listen (ok : Bool)
  | connect
  | request (c : Nat)
  | hangUp (c : Nat)
  | answer (c : Nat)
  | panics (c : Nat)
  | signal
  | receive
  | poll
  | expire
  | stopped
  deriving DecidableEq, Repr

/-- cmd/tss/tss_http.go:160: how long `Stop` waits for the requests that are being handled -/
def grace : Nat := 10000

/-- is `Shutdown` begun? -/
def Phase.down : Phase → Bool
  | .waiting | .signalled => false
  | _ => true

/-- has the process ended? -/
def Phase.isEnded : Phase → Bool
  | .ended _ => true
  | _ => false

/-- net/http `closeIdleConns`: idle connections are closed, and new ones without request for more than five seconds (in whole seconds) -/
def closeIdle (now : Nat) (c : Conn) : Conn :=
  match c.state with
  | .idle => { c with state := .closed }
  | .new t => if t / 1000 + 5 < now / 1000 then { c with state := .closed } else c
  | _ => c

/-- change of a connection -/
def update (s : St) (i : Nat) (f : Conn → Conn) : St :=
  match s.conns[i]? with
  | none => s
  | some c => { s with conns := s.conns.set i (f c) }

/-- a request is read -/
def Conn.request (c : Conn) : Conn :=
  match c.state with
  | .new _ | .idle => { c with state := .active, read := c.read + 1 }
  | _ => c

/-- the client closes the connection -/
def Conn.hangUp (c : Conn) : Conn :=
  match c.state with
  | .new _ | .idle => { c with state := .closed }
  | _ => c

/-- the handler has written its answer; the connection is kept unless the server is going down -/
def Conn.answer (down : Bool) (c : Conn) : Conn :=
  match c.state with
  | .active => { c with state := if down then .closed else .idle, answered := c.answered + 1 }
  | _ => c

/-- the handler panics: net/http closes the connection -/
def Conn.panics (c : Conn) : Conn :=
  match c.state with
  | .active => { c with state := .closed, panicked := c.panicked + 1 }
  | _ => c

/-- one event; an event that is not possible changes nothing -/
def step (s : St) (e : Event) : St :=
  if s.phase.isEnded then s else
  match e with
  | .tick d => { s with now := s.now + d }
  -- cmd/tss/tss_http.go:129-143 `Start`: an error is printed (cmd/tss/main.go:76-80), the process goes on; after `Shutdown` it returns at once
  | .listen ok =>
    if s.listener = .starting then
      if s.phase.down then { s with listener := .closed } else { s with listener := if ok then .listening else .failed }
    else s
  | .connect => if s.listener = .listening then { s with conns := s.conns ++ [⟨.new s.now, 0, 0, 0⟩] } else s
  | .request i => update s i Conn.request
  | .hangUp i => update s i Conn.hangUp
  | .answer i => update s i (Conn.answer s.phase.down)
  | .panics i => update s i Conn.panics
  -- cmd/tss/main.go:81-82: a channel with room for one signal; further ones have no effect
  | .signal => if s.phase = .waiting then { s with phase := .signalled } else s
  -- cmd/tss/main.go:83-85, cmd/tss/tss_http.go:160-162: `Shutdown` begins and closes the listener
  | .receive =>
    if s.phase = .signalled then
      { s with phase := .shutting (s.now + grace), listener := if s.listener = .listening then .closed else s.listener }
    else s
  -- net/http `Shutdown`: returns nil when no connection is left; then cmd/tss/tss_http.go:166
  | .poll =>
    match s.phase with
    | .shutting _ =>
      let cs := s.conns.map (closeIdle s.now)
      if cs.all (fun c => decide (c.state = .closed)) then { s with conns := cs, phase := .stopping true, stops := s.stops + 1 }
      else { s with conns := cs }
    | _ => s
  -- cmd/tss/tss_http.go:162-166
  | .expire =>
    match s.phase with
    | .shutting d => if d ≤ s.now then { s with phase := .stopping false, stops := s.stops + 1 } else s
    | _ => s
  -- cmd/tss/tss_http.go:167, cmd/tss/main.go:85: the process ends
  | .stopped =>
    match s.phase with
    | .stopping ok => { s with phase := .ended ok }
    | _ => s

/-- a history of the process -/
def run (h : List Event) : St := h.foldl step {}

end Verif.Service
