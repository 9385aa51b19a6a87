import Verif.Model.Readers
import Verif.Model.System

/-!
# The running system with a source that is a program

`Model/System.lean` leaves it to the environment what a chunk contains and whether
`seek_range` and `reconnect` succeed.  Here the source is any implementation of the trait
`SourceStream`; the two on top of byte readers, `OpendalStream` and `AsyncReadStream`, are
instances.  `Model/HttpSystem.lean` does the same for HTTP.

The fields `remote` and `remoteLen` of the configuration are not used here; `tpos` and `tlim`
of the system are kept up to date and not looked at.
-/

namespace SD

variable {S : Storage}

/-- source/mod.rs 41-91, the trait `SourceStream`.  `PollEnv` and `SeekEnv` are what the
outside world contributes to one poll and to one call of `seek_range` or `reconnect`.
`content_length` is read once, when the stream starts (lib.rs 398); it, `supports_seek` (a
constant of every source) and `on_finish` are fields of the configuration. -/
structure Source where
  τ : Type
  PollEnv : Type
  SeekEnv : Type
  poll : τ → PollEnv → PollAns × τ
  seekRange : τ → SeekEnv → Nat → Option Nat → Res Unit × τ
  reconnect : τ → SeekEnv → Nat → Res Unit × τ

/-- The system and the stream that the download task owns (lib.rs 406-413: `stream` is moved
into the task). -/
structure XSys (R : Source) (S : Storage) where
  sys : Sys S
  src : R.τ

/-- The actions: those of the system that do not concern the transport, a poll of the
stream that is ready, and the end of `seek_range` or `reconnect`. -/
inductive XAct (R : Source) where
  | sys (a : Act)
  | poll (e : R.PollEnv)
  | seekRange (e : R.SeekEnv)
  | reconnect (e : R.SeekEnv)

/-- The actions of the system that are replaced here. -/
def Act.ofSource : Act → Bool
  | .chunk _ | .chunkErr | .eof | .seekOk _ | .seekFail _ | .reconnOk _ | .reconnFail => true
  | _ => false

/-- One step. -/
def xstep (R : Source) (c : Cfg) (w : XSys R S) : XAct R → Option (XSys R S)
  | .sys a =>
    if a.ofSource then none
    else
      match step c w.sys a with
      | some s => some { w with sys := s }
      | none => none
  | .poll e =>
    -- source/mod.rs 203-225, 365-399
    if w.sys.spc = .sel then
      match R.poll w.src e with
      | (.chunk bs, t) => some {
          sys := handleChunk { w.sys with tpos := w.sys.tpos + bs.length, log := .chunk bs :: w.sys.log } bs
          src := t }
      | (.err, t) => some { sys := { w.sys with log := .chunkErr :: w.sys.log }, src := t }
      | (.done, t) => some { sys := handleEof { w.sys with tend := true, log := .eof :: w.sys.log }, src := t }
    else none
  | .seekRange e =>
    -- source/mod.rs 467-471
    match w.sys.spc with
    | .seeking start stop =>
      match R.seekRange w.src e start stop with
      | (.ok _, t) =>
        match step c w.sys (.seekOk start) with
        | some s => some { sys := s, src := t }
        | none => none
      | (.err k, t) =>
        match step c w.sys (.seekFail k) with
        | some s => some { sys := s, src := t }
        | none => none
      | (.panic, t) => some { sys := { w.sys with spc := .panicked }, src := t }
    | _ => none
  | .reconnect e =>
    -- source/mod.rs 272-287
    match w.sys.spc with
    | .reconn p =>
      match R.reconnect w.src e p with
      | (.ok _, t) =>
        match step c w.sys (.reconnOk p) with
        | some s => some { sys := s, src := t }
        | none => none
      | (.err _, t) =>
        match step c w.sys .reconnFail with
        | some s => some { sys := s, src := t }
        | none => none
      | (.panic, t) => some { sys := { w.sys with spc := .panicked }, src := t }
    | _ => none

/-- What the object store answers to a request for a new reader: what the reader will
deliver, or an error. -/
abbrev NewReader := Res (List Byte)

/-- opendal lib.rs 176-240 as a source.  An allocator and the answer of the reader decide a
poll (`OpendalStream.pollNext`).  lib.rs 195-211: `reconnect` is `seek_range` without an end. -/
abbrev opendalSource : Source where
  τ := OpendalStream
  PollEnv := (Nat → Nat) × ReadAns
  SeekEnv := NewReader
  poll s e := s.pollNext e.1 e.2
  seekRange s e _ _ :=
    match e with
    | .ok rest => (.ok (), (s.seekRange true rest).2)
    | .err k => (.err k, (s.seekRange false []).2)
    | .panic => (.panic, s)
  reconnect s e _ :=
    match e with
    | .ok rest => (.ok (), (s.seekRange true rest).2)
    | .err k => (.err k, (s.seekRange false []).2)
    | .panic => (.panic, s)

/-- async_read.rs 67-115 as a source. -/
abbrev asyncReadSource : Source where
  τ := AsyncReadStream
  PollEnv := (Nat → Nat) × ReadAns
  SeekEnv := Unit
  poll s e := s.pollNext e.1 e.2
  seekRange s _ start stop := s.seekRange start stop
  reconnect s _ p := s.reconnect p

end SD
