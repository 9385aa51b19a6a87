import Verif.Model.Http

/-!
# Default middleware (`http/reqwest_middleware_client.rs`)

A middleware gets a request and what comes after it, and answers; it may do anything else
on the way (`σ` is the state of the world, with the servers and whatever the middleware
keeps).  From `reqwest_middleware` (not in the sandbox, from its documentation): a client
hands a request to its first middleware, whose `next` is the second one, and so on; the last
`next` sends it.
-/

namespace SD

/-- Sending a request. -/
abbrev Send (σ : Type) := HttpReq → σ → Option HttpResp × σ

/-- `reqwest_middleware::Middleware::handle`. -/
abbrev Middleware (σ : Type) := Send σ → Send σ

/-- http/reqwest_middleware_client.rs 32-46 (`get`, `get_range`): a request of a client with
these middlewares, over a client (`reqwest::Client`) that sends like `base`. -/
def sendThrough {σ : Type} : List (Middleware σ) → Send σ → Send σ
  | [], base => base
  | m :: ms, base => m (sendThrough ms base)

/-- What a process does with middleware: `Settings::add_default_middleware`
(settings.rs 182-187), and making client `i`, with the default middleware
(`create`) or with given ones. -/
inductive MwAct (σ : Type) where
  | add (m : Middleware σ)
  | create (i : Nat)
  | build (i : Nat) (ms : List (Middleware σ))

/-- http/reqwest_middleware_client.rs 9-10: the global list, and the clients. -/
structure MwState (σ : Type) where
  defaults : List (Middleware σ)
  clients : Nat → Option (List (Middleware σ))

/-- At the start the list is empty. -/
def MwState.start (σ : Type) : MwState σ := { defaults := [], clients := fun _ => none }

/-- http/reqwest_middleware_client.rs 12-17 (`add_default_middleware`) and 25-30 (`create`: a
copy of the list).  The lock makes each of them one step. -/
def MwState.step {σ : Type} (s : MwState σ) : MwAct σ → MwState σ
  | .add m => { s with defaults := s.defaults ++ [m] }
  | .create i => { s with clients := fun j => if j = i then some s.defaults else s.clients j }
  | .build i ms => { s with clients := fun j => if j = i then some ms else s.clients j }

/-- A history. -/
def MwState.run {σ : Type} (s : MwState σ) (acts : List (MwAct σ)) : MwState σ :=
  acts.foldl MwState.step s

/-- What the task asks of the stream. -/
inductive HttpCall where
  | seek (start : Nat) (stop : Option Nat)
  | reconnect (pos : Nat)
  deriving DecidableEq, Repr

/-- One call, in a world: every request that it makes goes through `send`.  (Each call makes
at most one.) -/
def HttpCall.run {σ : Type} (send : Send σ) (h : HttpStream) (w : σ) (call : HttpCall) : HttpOut × σ :=
  let out := match call with
    | .seek start stop => h.seekRange (fun r => (send r w).1) start stop
    | .reconnect pos => h.reconnect (fun r => (send r w).1) pos
  (out, out.reqs.foldl (fun w r => (send r w).2) w)

/-- Calls one after the other: their results, the requests, and the world afterwards. -/
def httpCalls {σ : Type} (send : Send σ) : HttpStream → σ → List HttpCall →
    List (Res Unit) × List HttpReq × HttpStream × σ
  | h, w, [] => ([], [], h, w)
  | h, w, call :: calls =>
    let r := call.run send h w
    let rest := httpCalls send r.1.stream r.2 calls
    (r.1.res :: rest.1, r.1.reqs ++ rest.2.1, rest.2.2)

/-- http/mod.rs 290-293 and 193-253: making a stream asks for the resource, then the calls
follow. -/
def httpLife {σ : Type} (mime : Text → Option (Text × Text)) (send : Send σ) (w : σ)
    (calls : List HttpCall) : Except HttpErr (List (Res Unit) × HttpStream) × List HttpReq × σ :=
  match httpNew mime (fun r => (send r w).1) with
  | .error e => (.error e, [.get], (send .get w).2)
  | .ok h =>
    let r := httpCalls send h (send .get w).2 calls
    (.ok (r.1, r.2.2.1), .get :: r.2.1, r.2.2.2)

end SD
