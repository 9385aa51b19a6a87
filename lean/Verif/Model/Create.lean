import Verif.Model.HttpSystem
import Verif.Model.SourceSystem
import Verif.Model.Settings

/-!
# Creating a stream (`lib.rs`, and the `create` functions of the sources)
-/

namespace SD

/-- What is asked of a stream once it exists (source/mod.rs 42-92).  `supports_seek` and
`on_finish` are called by the task; no source of the crates changes its answer later. -/
structure StreamInfo where
  contentLength : Option Nat
  supportsSeek : Bool
  onFinish : Option Kind → Outcome → Option Kind

/-- lib.rs 519-529, `StreamInitializationError`. -/
inductive InitErr (E : Type) where
  | storage (k : Kind)
  | stream (e : E)
  deriving DecidableEq, Repr

/-- lib.rs 531-538, `decode_error`: the message of the storage's error with a prefix, or what
the source decodes from its own error. -/
def InitErr.decode {E : Type} (display : Kind → String) (decodeStream : E → String) : InitErr E → String
  | .storage k => "Storage creation failure: " ++ display k
  | .stream e => decodeStream e

/-- What the creation does, oldest first. -/
inductive InitEff where
  /-- the source was asked to create its stream -/
  | createStream
  /-- `into_reader_writer(content_length)` was called -/
  | createStorage (contentLength : Option Nat)
  /-- the download task was spawned -/
  | spawn
  deriving DecidableEq, Repr

/-- A stream that was created: what is fixed, the state of consumer and task, and the stream
that the task owns. -/
structure Made (P : Provider) (T : Type) where
  cfg : Cfg
  sys : Sys P.S
  stream : T

/-- How a creation ends: with a stream, an error, or a panic of the storage provider. -/
inductive Creation (P : Provider) (T E : Type) where
  | ok (m : Made P T)
  | err (e : InitErr E)
  | panic

/-- What is fixed for the stream: of the settings what source/mod.rs 141-171 (`Source::new`) and
lib.rs 404 keep, what the stream says about itself, the capacity, and of `base` the rest (the
resource and the build).  Callbacks and the time-out are not part of the configuration: the model
logs the calls of the callbacks whether they are set or not, and a stream can time out at any
moment. -/
def cfgOf {F G : Type} (base : Cfg) (settings : Settings F G) (info : StreamInfo)
    (capacity : Option Nat) : Cfg :=
  { base with
    contentLength := info.contentLength
    prefetchBytes := settings.prefetchBytes
    batchSize := settings.batchWriteSize
    capacity := capacity
    supportsSeek := info.supportsSeek
    cancelOnDrop := settings.cancelOnDrop
    onFinish := info.onFinish }

/-- lib.rs 385-425, `from_create_stream`, with source/mod.rs 141-171, `Source::new` (`init`).
`create` is what the source answers. -/
def fromCreateStream {F G T E : Type} (base : Cfg) (settings : Settings F G) (P : Provider)
    (create : Except E T) (info : T → StreamInfo) : Creation P T E × List InitEff :=
  match create with
  | .error e => (.err (.stream e), [.createStream])
  | .ok t =>
    let cl := (info t).contentLength
    let c := cfgOf base settings (info t) P.maxCapacity
    match P.create cl with
    | .err k => (.err (.storage k), [.createStream, .createStorage cl])
    | .panic => (.panic, [.createStream, .createStorage cl])
    | .ok st => (.ok { cfg := c, sys := init c st, stream := t }, [.createStream, .createStorage cl, .spawn])

/-- lib.rs 343-358, `from_stream`. -/
def fromStream {F G T E : Type} (base : Cfg) (settings : Settings F G) (P : Provider) (t : T)
    (info : T → StreamInfo) : Creation P T E × List InitEff :=
  fromCreateStream base settings P (.ok t) info

/-- lib.rs 381-383, `content_length`. -/
def Made.contentLength {P : Provider} {T : Type} (m : Made P T) : Option Nat := m.cfg.contentLength

/-- http/mod.rs 295-297, 358-360; `on_finish` is the default (source/mod.rs 85-91). -/
def httpInfo (h : HttpStream) : StreamInfo :=
  { contentLength := h.contentLength, supportsSeek := true, onFinish := fun r _ => r }

/-- lib.rs 110-116, `new_http`; http/mod.rs 291-293, `create`. -/
def newHttp {F G : Type} (base : Cfg) (settings : Settings F G) (P : Provider)
    (mime : Text → Option (Text × Text)) (answer : Answer) :
    Creation P HttpStream HttpErr × List InitEff :=
  fromCreateStream base settings P (httpNew mime answer) httpInfo

/-- async_read.rs 16-19, `AsyncReadStreamParams`; the reader is what it will deliver. -/
structure AsyncReadParams where
  stream : List Byte
  contentLength : Option Nat

/-- async_read.rs 23-28. -/
def AsyncReadParams.new (stream : List Byte) : AsyncReadParams :=
  { stream := stream, contentLength := none }

/-- async_read.rs 34-42. -/
def AsyncReadParams.setContentLength (p : AsyncReadParams) (n : Option Nat) : AsyncReadParams :=
  { p with contentLength := n }

/-- async_read.rs 80-86; `on_finish` is the default. -/
def asyncReadInfo (s : AsyncReadStream) : StreamInfo :=
  { contentLength := s.contentLength, supportsSeek := s.supportsSeek, onFinish := fun r _ => r }

/-- lib.rs 205-214, `new_async_read`; async_read.rs 76-78, `create`, which cannot fail. -/
def newAsyncRead {F G : Type} (base : Cfg) (settings : Settings F G) (P : Provider) (p : AsyncReadParams) :
    Creation P AsyncReadStream Empty × List InitEff :=
  fromCreateStream base settings P (.ok (asyncReadNew p.stream p.contentLength)) asyncReadInfo

/-- opendal lib.rs 87-91, `OpendalStreamParams`; the operator and the path are what they answer. -/
structure OpendalParams (E : Type) where
  /-- `stat`: the length of the object -/
  stat : Except E Nat
  /-- `reader` -/
  reader : Except E Unit
  /-- `into_futures_async_read(..)`: what the reader will deliver -/
  read : Except E (List Byte)
  chunkSize : Nat

/-- opendal lib.rs 95-104. -/
def OpendalParams.new {E : Type} (stat : Except E Nat) (reader : Except E Unit) (read : Except E (List Byte)) :
    OpendalParams E :=
  { stat := stat, reader := reader, read := read, chunkSize := 4096 }

/-- opendal lib.rs 109-112; the argument is a `NonZeroUsize`. -/
def OpendalParams.setChunkSize {E : Type} (p : OpendalParams E) (n : { n : Nat // n ≠ 0 }) : OpendalParams E :=
  { p with chunkSize := n.val }

/-- opendal lib.rs 152-174, `OpendalStream::new`. -/
def opendalCreate {E : Type} (alloc : Nat → Nat) (p : OpendalParams E) : Except E OpendalStream :=
  match p.stat with
  | .error e => .error e
  | .ok stat =>
    match p.reader with
    | .error e => .error e
    | .ok _ =>
      match p.read with
      | .error e => .error e
      | .ok object => .ok (opendalNew alloc p.chunkSize object stat)

/-- opendal lib.rs 191-193, 213-215; `on_finish` is the default. -/
def opendalInfo (s : OpendalStream) : StreamInfo :=
  { contentLength := s.contentLength, supportsSeek := true, onFinish := fun r _ => r }

/-- opendal lib.rs 76-82, `new_opendal`, and 187-189, `create`. -/
def newOpendal {F G E : Type} (base : Cfg) (settings : Settings F G) (P : Provider) (alloc : Nat → Nat)
    (p : OpendalParams E) : Creation P OpendalStream E × List InitEff :=
  fromCreateStream base settings P (opendalCreate alloc p) opendalInfo

end SD
