import Verif.Model.Create
import Verif.Model.ProcessSystem

/-!
# Creating a stream over a process (`lib.rs` 247-254, `process/mod.rs` 172-271)
-/

namespace SD

/-- process/mod.rs 175-179, `ProcessStreamParams`: the processes are running already.  Those of the
commands before the last are not held by anything in the code; of the last one's output the model
has what it will write. -/
structure ProcessParams where
  contentLength : Option Nat
  early : List PChild
  last : PChild
  output : List Byte

/-- process/mod.rs 183-191, `ProcessStreamParams::new`; command_builder.rs 37-69, `spawn`.  The list
is `[command]` for a single command.  `none` if a file or a process cannot be created; the result
holds the processes that run then. -/
def processParams (os : Proc.Os) (cmds : List Proc.Command) (output : List Byte) :
    Option ProcessParams × List PChild :=
  match Proc.spawnPipeline os cmds with
  | (some out, _) =>
    (some { contentLength := none, early := List.replicate out .started, last := .started, output := output }, [])
  | (none, st) => (none, List.replicate st.children.length .started)

/-- process/mod.rs 193-203, `content_length`. -/
def ProcessParams.setContentLength (p : ProcessParams) (n : Option Nat) : ProcessParams :=
  { p with contentLength := n }

/-- process/mod.rs 208-213, `ProcessStream`. -/
structure ProcessStream where
  stream : AsyncReadStream
  early : List PChild
  last : PChild

/-- process/mod.rs 249-263, `create`, which cannot fail. -/
def processCreate (p : ProcessParams) : ProcessStream :=
  { stream := asyncReadNew p.output p.contentLength, early := p.early, last := p.last }

/-- process/mod.rs 265-271.  `on_finish` is in `pstep`. -/
def processInfo (s : ProcessStream) : StreamInfo :=
  { contentLength := s.stream.contentLength, supportsSeek := s.stream.supportsSeek, onFinish := fun r _ => r }

/-- lib.rs 247-253, `new_process`, and the processes if it fails: lib.rs 399-401, the stream is dropped. -/
def newProcess {F G : Type} (base : Cfg) (settings : Settings F G) (P : Provider) (p : ProcessParams) :
    Creation P ProcessStream Empty × List PChild :=
  match (fromCreateStream (E := Empty) base settings P (.ok (processCreate p)) processInfo).1 with
  | .ok m => (.ok m, [])
  | .err e => (.err e, p.early ++ [p.last.drop])
  | .panic => (.panic, p.early ++ [p.last.drop])

/-- The running system of a stream that was created. -/
def Made.process {P : Provider} (m : Made P ProcessStream) : PSys P.S :=
  { x := { sys := m.sys, src := m.stream.stream }, early := m.stream.early, last := m.stream.last }

end SD
