import Verif.Model.KeySign
import Verif.Model.Keygen

/-!
# The HTTP end points: cmd/tss/tss_http.go

The router is gorilla mux, the transport net/http.  Modelled: routing by path and method, the four handlers, what the client gets and which calls
of the tss server are made.  Not modelled: the `/metrics` handler of the prometheus library (it is an arbitrary function of the environment),
headers, redirects of unclean paths, the logging middleware (no effect), failures to write the reply.
-/
set_option linter.unusedSectionVars false
namespace Verif.Http
open Verif.Go

/-- an HTTP request: net/http `Request`, the parts that are used -/
structure Req where
  method : String
  path : String
  body : Bytes

/-- what the client gets -/
structure Reply where
  status : Nat
  body : Bytes
  deriving DecidableEq

/-- a call of the tss server (tss/tss.go:41-47, interface Server) -/
inductive Call (G S : Type)
  | keygen (r : G)
  | keysign (r : S)
  | localPeerID
  deriving DecidableEq

/-- The environment: encoding/json and the tss server.  `G`, `S` are the requests, `GR`, `SR` the responses.  A server call returns a response
and an error, or panics (net/http then closes the connection without a reply). -/
structure Env (G S GR SR E F : Type) where
  decodeG : Bytes → Option G
  decodeS : Bytes → Option S
  marshalG : GR → Option Bytes
  marshalS : SR → Option Bytes
  keygen : G → Option (GR × Option E)
  keysign : S → Option (SR × Option F)
  localPeerID : Bytes
  metrics : Req → Reply

variable {G S GR SR E F : Type}

/-- what a request leads to: the reply, if there is one, and the calls of the server in order -/
abbrev Outcome (G S : Type) := Option Reply × List (Call G S)

/-- http.StatusMethodNotAllowed, StatusBadRequest, StatusInternalServerError, StatusNotFound -/
def methodNotAllowed : Reply := ⟨405, []⟩
def badRequest : Reply := ⟨400, []⟩
def serverError : Reply := ⟨500, []⟩
def notFound : Reply := ⟨404, []⟩

/-- cmd/tss/tss_http.go:54-88 `keygenHandler`; a reply that is written without a status has the status 200 -/
def keygenHandler (env : Env G S GR SR E F) (r : Req) : Outcome G S :=
  if r.method ≠ "POST" then (some methodNotAllowed, [])
  else match env.decodeG r.body with
    | none => (some badRequest, [])
    | some q => match env.keygen q with
      | none => (none, [.keygen q])
      | some (resp, _err) => match env.marshalG resp with   -- 75-77: the error is only logged
        | none => (some serverError, [.keygen q])
        | some buf => (some ⟨200, buf⟩, [.keygen q])

/-- cmd/tss/tss_http.go:90-127 `keySignHandler` -/
def keySignHandler (env : Env G S GR SR E F) (r : Req) : Outcome G S :=
  if r.method ≠ "POST" then (some methodNotAllowed, [])
  else match env.decodeS r.body with
    | none => (some badRequest, [])
    | some q => match env.keysign q with
      | none => (none, [.keysign q])
      | some (_, some _) => (some serverError, [.keysign q])
      | some (resp, none) => match env.marshalS resp with
        | none => (some serverError, [.keysign q])
        | some buf => (some ⟨200, buf⟩, [.keysign q])

/-- cmd/tss/tss_http.go:171-173 `pingHandler` -/
def pingHandler : Outcome G S := (some ⟨200, []⟩, [])

/-- cmd/tss/tss_http.go:175-181 `getP2pIDHandler` -/
def getP2pIDHandler (env : Env G S GR SR E F) : Outcome G S := (some ⟨200, env.localPeerID⟩, [.localPeerID])

/-- a route of the router: path, method (`none`: all methods), handler -/
structure Route (env : Env G S GR SR E F) where
  path : String
  method : Option String
  handler : Req → Outcome G S

/-- cmd/tss/tss_http.go:43-52 `tssNewHandler`, in the order of registration -/
def routes (env : Env G S GR SR E F) : List (Route env) :=
  [⟨"/keygen", some "POST", keygenHandler env⟩, ⟨"/keysign", some "POST", keySignHandler env⟩,
   ⟨"/ping", some "GET", fun _ => pingHandler⟩, ⟨"/p2pid", some "GET", fun _ => getP2pIDHandler env⟩,
   ⟨"/metrics", none, fun r => (some (env.metrics r), [])⟩]

/-- gorilla mux `Router.Match`: the first route with this path and method; 405 if only the method does not fit, else 404 -/
def serve (env : Env G S GR SR E F) (r : Req) : Outcome G S :=
  match (routes env).find? (fun x => decide (x.path = r.path) && (x.method == none || x.method == some r.method)) with
  | some x => x.handler r
  | none => if (routes env).any (fun x => decide (x.path = r.path)) then (some methodNotAllowed, []) else (some notFound, [])

end Verif.Http
