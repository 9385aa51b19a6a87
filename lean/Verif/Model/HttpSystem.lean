import Verif.Model.Http
import Verif.Model.System

/-!
# The running system with an HTTP source

`Model/System.lean` leaves it to the environment what a chunk contains and whether
`seek_range` and `reconnect` succeed.  Here the source is the `HttpStream` of
`Model/Http.lean`: chunks are taken from its current body, and `seek_range` and `reconnect`
are its methods.  What remains for the environment is what the server answers.

The fields `remote`, `remoteLen`, `tpos` and `tlim` of the system are not used here, except
that `tpos` and `tlim` are kept up to date.  A body does not yield empty chunks (`hyper`
does not produce them).  A body that ends early is `eof` before all of it was taken.
-/

namespace SD

variable {S : Storage}

/-- The system and the stream that the download task owns (lib.rs 406-413: `stream` is moved
into the task). -/
structure HSys (S : Storage) where
  sys : Sys S
  http : HttpStream

/-- The actions: those of the system that do not concern the contents of the transport, a
chunk of `n` bytes of the current body, and the end of `seek_range` or `reconnect`, with the
server that answers the request. -/
inductive HAct where
  | sys (a : Act)
  | chunk (n : Nat)
  | seekRange (answer : Answer)
  | reconnect (answer : Answer)

/-- The actions of the system that are replaced here. -/
def Act.ofTransport : Act → Bool
  | .chunk _ | .seekOk _ | .seekFail _ | .reconnOk _ | .reconnFail => true
  | _ => false

/-- One step. -/
def hstep (c : Cfg) (w : HSys S) : HAct → Option (HSys S)
  | .sys a =>
    if a.ofTransport then none
    else
      match step c w.sys a with
      | some s => some { w with sys := s }
      | none => none
  | .chunk n =>
    -- source/mod.rs 203-225, 365-399 with http/mod.rs 282-284
    if w.sys.spc = .sel ∧ w.sys.tend = false ∧ 0 < n ∧ n ≤ w.http.stream.length then
      some {
        sys := handleChunk
          { w.sys with tpos := w.sys.tpos + n, log := .chunk (w.http.poll n).1 :: w.sys.log }
          (w.http.poll n).1
        http := (w.http.poll n).2 }
    else none
  | .seekRange answer =>
    -- source/mod.rs 467-471 with http/mod.rs 300-341
    match w.sys.spc with
    | .seeking start stop =>
      let out := w.http.seekRange answer start stop
      match out.res with
      | .ok _ =>
        match step c w.sys (.seekOk start) with
        | some s => some { sys := s, http := out.stream }
        | none => none
      | .err k =>
        match step c w.sys (.seekFail k) with
        | some s => some { sys := s, http := out.stream }
        | none => none
      | .panic => some { sys := { w.sys with spc := .panicked }, http := out.stream }
    | _ => none
  | .reconnect answer =>
    -- source/mod.rs 272-287 with http/mod.rs 343-356
    match w.sys.spc with
    | .reconn p =>
      let out := w.http.reconnect answer p
      match out.res with
      | .ok _ =>
        match step c w.sys (.reconnOk p) with
        | some s => some { sys := s, http := out.stream }
        | none => none
      | .err _ =>
        match step c w.sys .reconnFail with
        | some s => some { sys := s, http := out.stream }
        | none => none
      | .panic => some { sys := { w.sys with spc := .panicked }, http := out.stream }
    | _ => none

end SD
