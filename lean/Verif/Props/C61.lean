import Verif.Model.Http
import Verif.Props.C49_C51
import Verif.Props.C52_C53

/-!
# C61: HTTP status codes reflect the outcome
-/
set_option linter.unusedSectionVars false
namespace Verif.Props.Http
open Verif.Go Verif.Http

variable {G S GR SR E F : Type}

/-- the paths that are served, with the method they are served for (`/metrics` is served for every method) -/
def methodOf (path : String) : Option String :=
  if path = "/keygen" ∨ path = "/keysign" then some "POST" else if path = "/ping" ∨ path = "/p2pid" then some "GET" else none

theorem serve_keygen (env : Env G S GR SR E F) (r : Req) (hp : r.path = "/keygen") (hm : r.method = "POST") : serve env r = keygenHandler env r := by
  unfold serve routes; simp [hp, hm]

theorem serve_keysign (env : Env G S GR SR E F) (r : Req) (hp : r.path = "/keysign") (hm : r.method = "POST") : serve env r = keySignHandler env r := by
  unfold serve routes; simp [hp, hm]

theorem serve_ping (env : Env G S GR SR E F) (r : Req) (hp : r.path = "/ping") (hm : r.method = "GET") : serve env r = pingHandler := by
  unfold serve routes; simp [hp, hm]

theorem serve_p2pid (env : Env G S GR SR E F) (r : Req) (hp : r.path = "/p2pid") (hm : r.method = "GET") : serve env r = getP2pIDHandler env := by
  unfold serve routes; simp [hp, hm]

theorem serve_metrics (env : Env G S GR SR E F) (r : Req) (hp : r.path = "/metrics") : serve env r = (some (env.metrics r), []) := by
  unfold serve routes; simp [hp]

/-- C61: a ping is answered 200 with an empty body, without a call of the server. -/
theorem c61_ping (env : Env G S GR SR E F) (r : Req) (hp : r.path = "/ping") (hm : r.method = "GET") : serve env r = (some ⟨200, []⟩, []) :=
  serve_ping env r hp hm

/-- C61: the question for the peer id is answered 200 with the peer id of the node. -/
theorem c61_p2pid (env : Env G S GR SR E F) (r : Req) (hp : r.path = "/p2pid") (hm : r.method = "GET") :
    serve env r = (some ⟨200, env.localPeerID⟩, [.localPeerID]) := serve_p2pid env r hp hm

/-- C61: a known path with another method is answered 405, and the server is not called. -/
theorem c61_wrong_method (env : Env G S GR SR E F) (r : Req) (m : String) (hp : methodOf r.path = some m) (hm : r.method ≠ m) :
    serve env r = (some ⟨405, []⟩, []) := by
  unfold methodOf at hp
  unfold serve routes
  split at hp
  · rename_i h
    cases hp
    rcases h with h | h <;> simp [h, methodNotAllowed, Ne.symm hm]
  · split at hp
    · rename_i h
      cases hp
      rcases h with h | h <;> simp [h, methodNotAllowed, Ne.symm hm]
    · cases hp

/-- C61: an unknown path is answered 404, and the server is not called. -/
theorem c61_unknown_path (env : Env G S GR SR E F) (r : Req) (hp : methodOf r.path = none) (hm : r.path ≠ "/metrics") :
    serve env r = (some ⟨404, []⟩, []) := by
  unfold methodOf at hp
  split at hp
  · cases hp
  · rename_i h1
    split at hp
    · cases hp
    · rename_i h2
      rw [not_or] at h1 h2
      unfold serve routes
      simp [Ne.symm h1.1, Ne.symm h1.2, Ne.symm h2.1, Ne.symm h2.2, Ne.symm hm, notFound]

/-- C61: a body that cannot be decoded is answered 400, and the server is not called. -/
theorem c61_bad_body (env : Env G S GR SR E F) (r : Req) (hm : r.method = "POST")
    (hb : r.path = "/keygen" ∧ env.decodeG r.body = none ∨ r.path = "/keysign" ∧ env.decodeS r.body = none) :
    serve env r = (some ⟨400, []⟩, []) := by
  rcases hb with ⟨hp, hd⟩ | ⟨hp, hd⟩
  · rw [serve_keygen env r hp hm]; simp [keygenHandler, hm, hd, badRequest]
  · rw [serve_keysign env r hp hm]; simp [keySignHandler, hm, hd, badRequest]

/-- the calls a request leads to -/
theorem calls_cases (env : Env G S GR SR E F) (r : Req) :
    (∃ q, r.method = "POST" ∧ r.path = "/keygen" ∧ env.decodeG r.body = some q ∧ (serve env r).2 = [.keygen q]) ∨
    (∃ q, r.method = "POST" ∧ r.path = "/keysign" ∧ env.decodeS r.body = some q ∧ (serve env r).2 = [.keysign q]) ∨
    (r.method = "GET" ∧ r.path = "/p2pid" ∧ (serve env r).2 = [.localPeerID]) ∨
    ((serve env r).2 = [] ∧ ¬ (r.method = "POST" ∧ r.path = "/keygen" ∧ env.decodeG r.body ≠ none) ∧
      ¬ (r.method = "POST" ∧ r.path = "/keysign" ∧ env.decodeS r.body ≠ none)) := by
  cases hm : methodOf r.path with
  | none =>
    have h : (serve env r).2 = [] := by
      by_cases h : r.path = "/metrics"
      · rw [serve_metrics env r h]
      · rw [c61_unknown_path env r hm h]
    unfold methodOf at hm
    refine .inr (.inr (.inr ⟨h, ?_, ?_⟩)) <;> rintro ⟨-, h, -⟩ <;> simp [h] at hm
  | some m =>
    by_cases h : r.method = m
    · unfold methodOf at hm
      split at hm
      · rename_i hh
        cases hm
        rcases hh with hh | hh
        · cases hd : env.decodeG r.body with
          | none => refine .inr (.inr (.inr ⟨by rw [c61_bad_body env r h (.inl ⟨hh, hd⟩)], by simp, by simp [hh]⟩))
          | some q =>
            refine .inl ⟨q, h, hh, rfl, ?_⟩
            rw [serve_keygen env r hh h]
            unfold keygenHandler
            rw [if_neg (by simp [h]), hd]
            dsimp only
            split
            · rfl
            · split <;> rfl
        · cases hd : env.decodeS r.body with
          | none => refine .inr (.inr (.inr ⟨by rw [c61_bad_body env r h (.inr ⟨hh, hd⟩)], by simp [hh], by simp⟩))
          | some q =>
            refine .inr (.inl ⟨q, h, hh, rfl, ?_⟩)
            rw [serve_keysign env r hh h]
            unfold keySignHandler
            rw [if_neg (by simp [h]), hd]
            dsimp only
            split
            · rfl
            · rfl
            · split <;> rfl
      · split at hm
        · rename_i hh
          cases hm
          rcases hh with hh | hh
          · exact .inr (.inr (.inr ⟨by rw [serve_ping env r hh h]; rfl, by simp [hh], by simp [hh]⟩))
          · exact .inr (.inr (.inl ⟨h, hh, by rw [serve_p2pid env r hh h]; rfl⟩))
        · cases hm
    · refine .inr (.inr (.inr ⟨by rw [c61_wrong_method env r m hm h], ?_, ?_⟩)) <;> rintro ⟨h1, h2, -⟩ <;>
        simp [methodOf, h2] at hm <;> exact h (by rw [h1, hm])

/-- C61: key generation is started exactly by a POST of a body that can be decoded to /keygen, with the decoded request. -/
theorem c61_keygen_called (env : Env G S GR SR E F) (r : Req) (q : G) :
    Call.keygen q ∈ (serve env r).2 ↔ r.method = "POST" ∧ r.path = "/keygen" ∧ env.decodeG r.body = some q := by
  rcases calls_cases env r with ⟨q', h1, h2, h3, h⟩ | ⟨q', h1, h2, h3, h⟩ | ⟨h1, h2, h⟩ | ⟨h, h1, h2⟩
  · rw [h]; simp [h1, h2, h3, eq_comm]
  · rw [h]; simp [h2]
  · rw [h]; simp [h2]
  · rw [h]
    refine iff_of_false (by simp) (fun ⟨a, b, c⟩ => h1 ⟨a, b, by rw [c]; simp⟩)

/-- C61: signing is started exactly by a POST of a body that can be decoded to /keysign, with the decoded request. -/
theorem c61_keysign_called (env : Env G S GR SR E F) (r : Req) (q : S) :
    Call.keysign q ∈ (serve env r).2 ↔ r.method = "POST" ∧ r.path = "/keysign" ∧ env.decodeS r.body = some q := by
  rcases calls_cases env r with ⟨q', h1, h2, h3, h⟩ | ⟨q', h1, h2, h3, h⟩ | ⟨h1, h2, h⟩ | ⟨h, h1, h2⟩
  · rw [h]; simp [h2]
  · rw [h]; simp [h1, h2, h3, eq_comm]
  · rw [h]; simp [h2]
  · rw [h]
    refine iff_of_false (by simp) (fun ⟨a, b, c⟩ => h2 ⟨a, b, by rw [c]; simp⟩)

/-- C61: one request makes at most one call of the server. -/
theorem c61_one_call (env : Env G S GR SR E F) (r : Req) : (serve env r).2.length ≤ 1 := by
  rcases calls_cases env r with ⟨q', h1, h2, h3, h⟩ | ⟨q', h1, h2, h3, h⟩ | ⟨h1, h2, h⟩ | ⟨h, h1, h2⟩ <;> rw [h] <;> simp

/-- C61: a call of Keygen that returns is answered 200 with the JSON of its response, whatever its error; 500 only if there is no JSON.  When
the call panics there is no reply. -/
theorem c61_keygen_reply (env : Env G S GR SR E F) (r : Req) (q : G) (hc : Call.keygen q ∈ (serve env r).2) :
    (env.keygen q = none → (serve env r).1 = none) ∧
    ∀ resp err, env.keygen q = some (resp, err) →
      (∀ buf, env.marshalG resp = some buf → (serve env r).1 = some ⟨200, buf⟩) ∧ (env.marshalG resp = none → (serve env r).1 = some ⟨500, []⟩) := by
  obtain ⟨h1, h2, h3⟩ := (c61_keygen_called env r q).1 hc
  rw [serve_keygen env r h2 h1]
  unfold keygenHandler
  rw [if_neg (by simp [h1]), h3]
  dsimp only
  refine ⟨fun h => by rw [h], fun resp err h => ?_⟩
  rw [h]
  dsimp only
  exact ⟨fun buf hb => by rw [hb], fun hb => by rw [hb]; rfl⟩

/-- C61: a call of KeySign that returns is answered 200 with the JSON of its response exactly if it returns no error (and there is a JSON), else
500 without a body.  When the call panics there is no reply. -/
theorem c61_keysign_reply (env : Env G S GR SR E F) (r : Req) (q : S) (hc : Call.keysign q ∈ (serve env r).2) :
    (env.keysign q = none → (serve env r).1 = none) ∧
    ∀ resp err, env.keysign q = some (resp, err) →
      (∀ buf, (serve env r).1 = some ⟨200, buf⟩ ↔ err = none ∧ env.marshalS resp = some buf) ∧
      (err ≠ none ∨ env.marshalS resp = none → (serve env r).1 = some ⟨500, []⟩) := by
  obtain ⟨h1, h2, h3⟩ := (c61_keysign_called env r q).1 hc
  rw [serve_keysign env r h2 h1]
  unfold keySignHandler
  rw [if_neg (by simp [h1]), h3]
  dsimp only
  refine ⟨fun h => by rw [h], fun resp err h => ?_⟩
  rw [h]
  cases err with
  | some e => simp [serverError]
  | none => cases hb : env.marshalS resp <;> simp [hb, serverError]

/-- C61: the status of every reply: 405 for the wrong method, 404 for an unknown path, 400 for a bad body, 500 for a KeySign error (or a response
without JSON), else 200. -/
theorem c61_status (env : Env G S GR SR E F) (r : Req) (hm : r.path ≠ "/metrics") (reply : Reply) (hr : (serve env r).1 = some reply) :
    (reply.status = 405 ↔ ∃ m, methodOf r.path = some m ∧ r.method ≠ m) ∧
    (reply.status = 404 ↔ methodOf r.path = none) ∧
    (reply.status = 400 ↔ r.method = "POST" ∧ (r.path = "/keygen" ∧ env.decodeG r.body = none ∨ r.path = "/keysign" ∧ env.decodeS r.body = none)) ∧
    (reply.status = 500 ↔ r.method = "POST" ∧
      ((r.path = "/keygen" ∧ ∃ q resp err, env.decodeG r.body = some q ∧ env.keygen q = some (resp, err) ∧ env.marshalG resp = none) ∨
       (r.path = "/keysign" ∧ ∃ q resp err, env.decodeS r.body = some q ∧ env.keysign q = some (resp, err) ∧
         (err ≠ none ∨ env.marshalS resp = none)))) ∧
    (reply.status ∈ [405, 404, 400, 500] ∨ reply.status = 200) ∧
    (reply.status ≠ 200 → reply.body = []) := by
  cases hk : methodOf r.path with
  | none =>
    rw [c61_unknown_path env r hk hm] at hr
    cases hr
    unfold methodOf at hk
    refine ⟨by simp, by simp, iff_of_false (by simp) ?_, iff_of_false (by simp) ?_, by simp, by simp⟩
    · rintro ⟨-, ⟨h, -⟩ | ⟨h, -⟩⟩ <;> simp [h] at hk
    · rintro ⟨-, ⟨h, -⟩ | ⟨h, -⟩⟩ <;> simp [h] at hk
  | some m =>
    by_cases h : r.method = m
    · unfold methodOf at hk
      split at hk
      · rename_i hh
        cases hk
        rcases hh with hh | hh
        · rw [serve_keygen env r hh h] at hr
          unfold keygenHandler at hr
          rw [if_neg (by simp [h])] at hr
          cases hd : env.decodeG r.body with
          | none => rw [hd] at hr; cases hr; simp [hh, h, badRequest]
          | some q =>
            rw [hd] at hr
            cases hq : env.keygen q with
            | none => simp [hq] at hr
            | some p =>
              obtain ⟨resp, err⟩ := p
              cases hb : env.marshalG resp <;> simp [hq, hb, serverError] at hr <;> subst hr <;> simp [hh, h, hq, hb]
        · rw [serve_keysign env r hh h] at hr
          unfold keySignHandler at hr
          rw [if_neg (by simp [h])] at hr
          cases hd : env.decodeS r.body with
          | none => rw [hd] at hr; cases hr; simp [hh, h, badRequest]
          | some q =>
            rw [hd] at hr
            cases hq : env.keysign q with
            | none => simp [hq] at hr
            | some p =>
              obtain ⟨resp, err⟩ := p
              cases err with
              | some e => simp [hq, serverError] at hr; subst hr; simp [hh, h, hq]
              | none => cases hb : env.marshalS resp <;> simp [hq, hb, serverError] at hr <;> subst hr <;> simp [hh, h, hq, hb]
      · split at hk
        · rename_i hh
          cases hk
          rcases hh with hh | hh
          · rw [serve_ping env r hh h] at hr; cases hr; simp [hh, h]
          · rw [serve_p2pid env r hh h] at hr; cases hr; simp [hh, h]
        · cases hk
    · rw [c61_wrong_method env r m hk h] at hr
      cases hr
      refine ⟨by simpa using h, by simp, iff_of_false (by simp) ?_, iff_of_false (by simp) ?_, by simp, by simp⟩
      · rintro ⟨h1, ⟨h2, -⟩ | ⟨h2, -⟩⟩ <;> simp [methodOf, h2] at hk <;> exact h (by rw [h1, hk])
      · rintro ⟨h1, ⟨h2, -⟩ | ⟨h2, -⟩⟩ <;> simp [methodOf, h2] at hk <;> exact h (by rw [h1, hk])

/-! ## with the models of KeySign and Keygen as the server -/

section composed
variable {P St H L : Type} [DecidableEq P] [LinearOrder St] [LinearOrder H]
variable {kenv : Server.Env P St H L} {base64 : Server.Str → Option Bytes} {nenv : SigNotifier.Env} {disk : Storage.Disk} {req : KeySign.Request}
  {nh : List SigNotifier.Event}

/-- C61, what holds: a signing request that passes the checks is answered 200 with the JSON of its response, whatever happens. -/
theorem c61_accepted_partial {old : Bool} {task : KeySign.Job L} (env : Env G KeySign.Request GR KeySign.Response E KeySign.Err) (r : Req)
    (hc : (SigNotifier.run nenv nh).crashed = false) (hacc : Spec.KeySign.Accepted kenv base64 disk req old task) (h : List (KeySign.Event P))
    (a : KeySign.Answer) (hr : (KeySigning.call kenv base64 nenv disk req nh h).ret = some a) (he : env.keysign req = some a)
    (hp : r.method = "POST" ∧ r.path = "/keysign" ∧ env.decodeS r.body = some req) (buf : Bytes) (hb : env.marshalS a.1 = some buf) :
    (serve env r).1 = some ⟨200, buf⟩ := by
  have h1 := (c61_keysign_reply env r req ((c61_keysign_called env r req).2 hp)).2 a.1 a.2 he
  refine (h1.1 buf).2 ⟨?_, hb⟩
  exact (KeySigning.c49_decision hc hacc h a.1 a.2 hr).1

/-- C61, what holds: a signing request that does not pass the checks is answered 500 without a body. -/
theorem c61_refused_partial (env : Env G KeySign.Request GR KeySign.Response E KeySign.Err) (r : Req)
    (hn : ∀ old task, ¬ Spec.KeySign.Accepted kenv base64 disk req old task) (h : List (KeySign.Event P))
    (a : KeySign.Answer) (hr : (KeySigning.call kenv base64 nenv disk req nh h).ret = some a) (he : env.keysign req = some a)
    (hp : r.method = "POST" ∧ r.path = "/keysign" ∧ env.decodeS r.body = some req) :
    (serve env r).1 = some ⟨500, []⟩ := by
  have h1 := (c61_keysign_reply env r req ((c61_keysign_called env r req).2 hp)).2 a.1 a.2 he
  refine h1.2 (.inl ?_)
  unfold KeySigning.call KeySign.run at hr
  rcases hq : KeySign.prepare kenv base64 disk req with (b | task) | e | _ <;> rw [hq] at hr
  · obtain ⟨e, h | h⟩ := KeySigning.refused_cases kenv base64 disk req b hq <;> cases hr <;> rw [h] <;> simp
  · obtain ⟨old, h⟩ := (KeySign.prepare_ok kenv base64 disk req task).1 hq
    exact absurd h (hn old task)
  · cases hr
  · cases hr

/-- C61: a key generation request that returns is answered 200 with the JSON of its response, also when it fails. -/
theorem c61_keygen_partial {Pt A Q : Type} {genv : Keygen.KEnv P St H L Pt A Q} {greq : Keygen.Request}
    (env : Env Keygen.Request S Keygen.Response SR Keygen.Err F) (r : Req) (h : List (Keygen.Event P L A Q)) (a : Keygen.Answer)
    (_hr : (Keygen.run genv disk greq h).ret = some a) (he : env.keygen greq = some a)
    (hp : r.method = "POST" ∧ r.path = "/keygen" ∧ env.decodeG r.body = some greq) (buf : Bytes) (hb : env.marshalG a.1 = some buf) :
    (serve env r).1 = some ⟨200, buf⟩ :=
  ((c61_keygen_reply env r greq ((c61_keygen_called env r greq).2 hp)).2 a.1 a.2 he).1 buf hb

end composed

section demo

deriving instance DecidableEq for Keygen.Request, KeySign.Request

/-- one byte for the status of a response -/
def statusByte : Server.Status → Bytes
  | .na => [0]
  | .success => [1]
  | .fail => [2]

/-- node 1 of the examples behind its HTTP end points: key generation goes as in `g` and signing as in `k` -/
def demoEnv (g : List (Keygen.Event Nat Unit Unit Nat)) (k : List (KeySign.Event Nat)) :
    Env Keygen.Request KeySign.Request Keygen.Response KeySign.Response Keygen.Err KeySign.Err where
  decodeG b := if b = [1] then some (KeyGeneration.request ['n']) else none
  decodeS b := if b = [2] then some (Spec.DemoServer.request ['n'] []) else if b = [3] then some (Spec.DemoServer.request ['o'] [0, 1]) else none
  marshalG a := some (statusByte a.status)
  marshalS a := some (statusByte a.status)
  keygen q := (Keygen.run (KeyGeneration.env 1) [] q g).ret
  keysign q := (KeySigning.call (Spec.DemoServer.env 1) Spec.DemoServer.base64 Spec.DemoServer.notifier (Spec.DemoServer.disk 1) q [] k).ret
  localPeerID := [1]
  metrics _ := ⟨200, []⟩

/-- C61: a successful key generation and a successful signing; a wrong method, a wrong path and a wrong body; a request that is refused -/
example : serve (demoEnv (KeyGeneration.answer [10, 11, 12, 13] .success ++ [KeyGeneration.delivers none, .finish]) []) ⟨"POST", "/keygen", [1]⟩ =
      (some ⟨200, [1]⟩, [.keygen (KeyGeneration.request ['n'])]) ∧
    serve (demoEnv [] (KeySigning.answer [10, 11, 12] .success ++ KeySigning.signed ++ KeySigning.noWait ++ [.main])) ⟨"POST", "/keysign", [2]⟩ =
      (some ⟨200, [1]⟩, [.keysign (Spec.DemoServer.request ['n'] [])]) ∧
    serve (demoEnv [] []) ⟨"GET", "/keygen", [1]⟩ = (some ⟨405, []⟩, []) ∧ serve (demoEnv [] []) ⟨"POST", "/key", [1]⟩ = (some ⟨404, []⟩, []) ∧
    serve (demoEnv [] []) ⟨"POST", "/keysign", [1]⟩ = (some ⟨400, []⟩, []) ∧
    serve (demoEnv [] []) ⟨"POST", "/keysign", [3]⟩ = (some ⟨500, []⟩, [.keysign (Spec.DemoServer.request ['o'] [0, 1])]) := by decide +kernel

/-- C61 is false: a failed signing is answered 200. -/
theorem c61_failed_keysign : serve (demoEnv [] (KeySigning.answer [10, 11] .timeout ++ KeySigning.noWait ++ [.main])) ⟨"POST", "/keysign", [2]⟩ =
    (some ⟨200, statusByte .fail⟩, [.keysign (Spec.DemoServer.request ['n'] [])]) := by decide +kernel

/-- C61: a key generation that returns an error (the share could not be written) is answered 200. -/
theorem c61_failed_keygen : serve (demoEnv (KeyGeneration.answer [10, 11, 12, 13] .success ++ [KeyGeneration.delivers (some (.after 1)), .finish]) [])
    ⟨"POST", "/keygen", [1]⟩ = (some ⟨200, statusByte .fail⟩, [.keygen (KeyGeneration.request ['n'])]) := by decide +kernel

end demo

end Verif.Props.Http
