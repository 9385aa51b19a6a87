import Verif.Model.Http

/-!
# Model of the process source (`process/`)

Processes are modelled by the calls that start, await and kill them.  Contents of the
error files, logging and the Windows flags are not modelled.
-/

namespace SD
namespace Proc

/-- process/mod.rs 49-53, `Command`; of `stderr_handle` only whether it is set. -/
structure Command where
  program : Text
  args : List Text
  ownStderr : Bool
  deriving DecidableEq, Repr

/-- process/mod.rs 57-66, `Command::new`. -/
def Command.new (program : Text) : Command := { program := program, args := [], ownStderr := false }

/-- process/mod.rs 83-89, `Command::arg`. -/
def Command.arg (c : Command) (a : Text) : Command := { c with args := c.args ++ [a] }

/-- process/mod.rs 70-79, `Command::args`. -/
def Command.addArgs (c : Command) (as : List Text) : Command := as.foldl Command.arg c

/-- process/mod.rs 92-98, `Command::insert_arg`; `Vec::insert` panics behind the end. -/
def Command.insertArg (c : Command) (i : Nat) (a : Text) : Res Command :=
  if i ≤ c.args.length then .ok { c with args := c.args.take i ++ a :: c.args.drop i } else .panic

/-- process/mod.rs 106-112, `Command::stderr_handle`. -/
def Command.stderrHandle (c : Command) : Command := { c with ownStderr := true }

/-! ### process/ffmpeg.rs -/

/-- process/ffmpeg.rs 19-38, `FfmpegConvertAudioCommand::new`. -/
def ffmpegNew (format : Text) : Command :=
  (Command.new "ffmpeg".toList).addArgs
    ["-i".toList, "pipe:".toList, "-map".toList, "a".toList, "-f".toList, format,
      "-loglevel".toList, "error".toList, "-".toList]

/-- process/ffmpeg.rs 42-48, `ffmpeg_path`. -/
def ffmpegPath (c : Command) (path : Text) : Command := { c with program := path }

/-- process/ffmpeg.rs 52-60, `arg`; `len() - 1` underflows for an empty list (a panic, or an
index behind the end and a panic). -/
def ffmpegArg (c : Command) (a : Text) : Res Command :=
  if c.args.length = 0 then .panic else c.insertArg (c.args.length - 1) a

/-- process/ffmpeg.rs 64-73, `args`. -/
def ffmpegArgs (c : Command) (as : List Text) : Res Command := as.foldlM ffmpegArg c

/-! ### process/yt_dlp.rs -/

/-- process/yt_dlp.rs 8-13, `YtDlpCommand`. -/
structure YtDlp where
  url : Text
  cmdName : Text
  extractAudio : Bool
  format : Option Text
  deriving DecidableEq, Repr

/-- process/yt_dlp.rs 29-39, `YtDlpCommand::new`. -/
def YtDlp.new (url : Text) : YtDlp :=
  { url := url, cmdName := "yt-dlp".toList, extractAudio := false, format := none }

/-- process/yt_dlp.rs 43-62, `into_command`. -/
def YtDlp.intoCommand (y : YtDlp) : Command :=
  let cmd := (Command.new y.cmdName).addArgs
    [y.url, "--quiet".toList, "--no-part".toList, "--no-continue".toList, "-o".toList, "-".toList]
  let cmd := if y.extractAudio then cmd.arg "-x".toList else cmd
  match y.format with
  | some f => cmd.addArgs ["-f".toList, f]
  | none => cmd

/-- process/yt_dlp.rs 66-69, `extract_audio`. -/
def YtDlp.setExtractAudio (y : YtDlp) (b : Bool) : YtDlp := { y with extractAudio := b }
/-- process/yt_dlp.rs 74-80, `format`. -/
def YtDlp.setFormat (y : YtDlp) (f : Text) : YtDlp := { y with format := some f }
/-- process/yt_dlp.rs 84-90, `yt_dlp_path`. -/
def YtDlp.setPath (y : YtDlp) (p : Text) : YtDlp := { y with cmdName := p }

/-! ### Spawning -/

/-- Where a child reads from: the parent's standard input, or the output of child `k`. -/
inductive Stdin where
  | inherit
  | pipe (k : Nat)
  deriving DecidableEq, Repr

/-- Where a child's errors go: the handle given by the user, or temporary file `k`. -/
inductive Stderr where
  | own
  | file (k : Nat)
  deriving DecidableEq, Repr

/-- A process that was started; its output is always a pipe. -/
structure Child where
  program : Text
  args : List Text
  stdin : Stdin
  stderr : Stderr
  deriving DecidableEq, Repr

/-- Which temporary files can be created and which children can be started, by number. -/
structure Os where
  tmpOk : Nat → Bool
  spawnOk : Nat → Bool

/-- What has happened: the children in the order of their start, the number of temporary
files, and the files that are kept. -/
structure Spawning where
  children : List Child
  files : List Nat
  deriving DecidableEq, Repr

/-- process/command_builder.rs 62-64 and process/mod.rs 145-147: the output of the previous
command becomes the input. -/
def stdinOf : Option Nat → Stdin
  | some k => .pipe k
  | none => .inherit

/-- process/command_builder.rs 43-66 (one round) and process/mod.rs 129-160: configure and
start one command.  On failure nothing is returned, but what was started stays started. -/
def startOne (os : Os) (st : Spawning) (cmd : Command) (prev : Option Nat) : Bool × Spawning :=
  if cmd.ownStderr then
    if os.spawnOk st.children.length then
      (true, { st with children := st.children ++ [⟨cmd.program, cmd.args, stdinOf prev, .own⟩] })
    else (false, st)
  else if os.tmpOk st.files.length then
    let st1 := { st with files := st.files ++ [st.files.length] }
    if os.spawnOk st1.children.length then
      (true, { st1 with children := st1.children ++ [⟨cmd.program, cmd.args, stdinOf prev, .file st.files.length⟩] })
    else (false, st1)
  else (false, st)

/-- process/command_builder.rs 42-67, the loop over all commands but the last, whose output
goes to the next one (`prev_stdout`). -/
def startAll (os : Os) : Spawning → Option Nat → List Command → Bool × Option Nat × Spawning
  | st, prev, [] => (true, prev, st)
  | st, prev, c :: cs =>
    match startOne os st c prev with
    | (true, st') => startAll os st' (some st.children.length) cs
    | (false, st') => (false, none, st')

/-- process/command_builder.rs 37-69, `spawn`; the commands are not empty (built by `new`
and `pipe`).  The result is the child whose output is exposed and that is awaited. -/
def spawnPipeline (os : Os) (cmds : List Command) : Option Nat × Spawning :=
  match cmds.getLast? with
  | none => (none, { children := [], files := [] })
  | some last =>
    match startAll os { children := [], files := [] } none cmds.dropLast with
    | (true, prev, st) =>
      match startOne os st last prev with
      | (true, st') => (some st.children.length, st')
      | (false, st') => (none, st')
    | (false, _, st) => (none, st)

/-! ### Finishing -/

/-- What `on_finish` does with the process. -/
inductive ProcAct where
  | wait
  | kill
  | logStderr
  | closeFiles
  deriving DecidableEq, Repr

/-- What the process answers: its exit status (whether it is a success), or an error of the
call. -/
structure ProcEnv where
  wait : Option Bool
  killOk : Bool

/-- process/mod.rs 281-307, `on_finish`.  `result` is `none` for `Ok(())`; `completed` is
whether the outcome is `StreamOutcome::Completed`. -/
def procOnFinish (env : ProcEnv) (result : Option Kind) (completed : Bool) : Option Kind × List ProcAct :=
  match result with
  | none =>
    match env.wait with
    | none => (some .other, [.wait])
    | some success =>
      (none, if success then [.wait, .closeFiles] else [.wait, .logStderr, .closeFiles])
  | some k =>
    if env.killOk then
      (some k, if completed then [.kill, .logStderr, .closeFiles] else [.kill, .closeFiles])
    else (some .other, [.kill])

end Proc
end SD
