import Verif.Model.Process

/-! # Calls of the builders, and what a pipeline is -/

namespace SD
namespace Proc

/-- A call on the ffmpeg command. -/
inductive FfCall where
  | path (p : Text)
  | arg (a : Text)
  | args (as : List Text)

/-- The calls, one after the other. -/
def ffmpegCalls (c : Command) : List FfCall → Res Command
  | [] => .ok c
  | .path p :: l => ffmpegCalls (ffmpegPath c p) l
  | .arg a :: l => (ffmpegArg c a).bind fun c => ffmpegCalls c l
  | .args as :: l => (ffmpegArgs c as).bind fun c => ffmpegCalls c l

/-- The arguments that the user gave, in order. -/
def userArgs : List FfCall → List Text
  | [] => []
  | .path _ :: l => userArgs l
  | .arg a :: l => a :: userArgs l
  | .args as :: l => as ++ userArgs l

/-- The path that was set last. -/
def lastPath : Text → List FfCall → Text
  | d, [] => d
  | _, .path p :: l => lastPath p l
  | d, _ :: l => lastPath d l

/-- A call on the yt-dlp command. -/
inductive YtCall where
  | extractAudio (b : Bool)
  | format (f : Text)
  | path (p : Text)

/-- One call. -/
def YtCall.apply (y : YtDlp) : YtCall → YtDlp
  | .extractAudio b => y.setExtractAudio b
  | .format f => y.setFormat f
  | .path p => y.setPath p

/-- What a setter was called with last, or a default. -/
def lastOr {α β : Type} (f : α → Option β) (d : β) (l : List α) : β := (l.reverse.findSome? f).getD d

/-- Child number `i` is started for command `c`: same program and arguments, fed by the
child before it, if there is one. -/
def Child.For (ch : Child) (c : Command) (i : Nat) : Prop :=
  ch.program = c.program ∧ ch.args = c.args ∧
  ch.stdin = (if i = 0 then .inherit else .pipe (i - 1)) ∧ (ch.stderr = .own ↔ c.ownStderr = true)

end Proc
end SD
