import Verif.Model.Process
import Verif.Model.SourceSystem

/-!
# The running system with a process as its source

The source is a `ProcessStream`: an `AsyncReadStream` over the output of the last command of a
pipeline (process/mod.rs 208-213, 245-319).  `on_finish` awaits or kills that process,
so the end of the download depends on the process.

A process is what its parent can see of it: whether it has ended, whether the parent killed it,
and whether its end was collected (`wait`).  A signal takes effect at once.  The contents
of the error files and logging are not modelled.
-/

namespace SD

variable {S : Storage}

/-- A process that was started. -/
structure PChild where
  /-- its exit status, if it has ended: whether it is a success -/
  exit : Option Bool
  /-- it was killed -/
  killed : Bool
  /-- its parent has collected the exit status -/
  reaped : Bool
  deriving DecidableEq, Repr

/-- A process after `spawn`. -/
def PChild.started : PChild := { exit := none, killed := false, reaped := false }

/-- `Child::wait` for a process that has ended. -/
def PChild.wait (p : PChild) : PChild := { p with reaped := true }

/-- `Child::kill` (of tokio): a process that still runs ends without success; then `wait`. -/
def PChild.kill (p : PChild) : PChild :=
  { exit := some (p.exit.getD false), killed := p.killed || p.exit.isNone, reaped := true }

/-- Dropping the handle; process/mod.rs 149, `kill_on_drop(true)`: a process that was not
collected is killed, and tokio collects it.  Simplification: that call does not fail (tokio
ignores its errors). -/
def PChild.drop (p : PChild) : PChild := if p.reaped then p else p.kill

/-- The system, the processes of all commands but the last, and that of the last command.
process/command_builder.rs 42-66: the handles of the former are dropped at once; they belong to
the standard library, where this does nothing to the process. -/
structure PSys (S : Storage) where
  x : XSys asyncReadSource S
  early : List PChild
  last : PChild

/-- The actions: those of the system, except `on_finish`; a process ends by itself; the end of
`on_finish`, where the calls to the operating system succeed or not. -/
inductive PAct where
  | x (a : XAct asyncReadSource)
  | exitEarly (k : Nat) (success : Bool)
  | exit (success : Bool)
  | finish (osOk : Bool)

/-- The task is in `on_finish`. -/
def SrcPc.finishing : SrcPc → Bool
  | .onFin _ _ => true
  | _ => false

/-- The step of the task. -/
def XAct.isSrc {R : Source} : XAct R → Bool
  | .sys .src => true
  | _ => false

/-- source/mod.rs 173-194: the stream belongs to `download` and is dropped when it returns, or
when it panics. -/
def PSys.release (w : PSys S) : PSys S :=
  match w.x.sys.spc with
  | .tokCancel | .panicked => { w with last := w.last.drop }
  | _ => w

/-- The exit of a process that still runs. -/
def PChild.leave (p : PChild) (success : Bool) : PChild :=
  if p.exit.isNone then { p with exit := some success } else p

/-- What the operating system answers in `on_finish`. -/
def PSys.env (w : PSys S) (osOk : Bool) : Proc.ProcEnv :=
  { wait := if osOk then w.last.exit else none, killOk := osOk }

/-- process/mod.rs 281-307: what `on_finish` does to the process. -/
def PChild.finish (p : PChild) (osOk : Bool) (r : Option Kind) : PChild :=
  if osOk then (if r.isNone then p.wait else p.kill) else p

/-- One step. -/
def pstep (c : Cfg) (w : PSys S) : PAct → Option (PSys S)
  | .x a =>
    if w.x.sys.spc.finishing && a.isSrc then none
    else
      match xstep asyncReadSource c w.x a with
      | some x => some { w with x := x }.release
      | none => none
  | .exitEarly k success =>
    some { w with early := w.early.modify k (PChild.leave · success) }
  | .exit success => some { w with last := w.last.leave success }
  | .finish osOk =>
    match w.x.sys.spc with
    | .onFin r o =>
      -- `wait` returns only when the process has ended
      if r.isNone && osOk && w.last.exit.isNone then none
      else
        let res := (Proc.procOnFinish (w.env osOk) r (decide (o = .completed))).1
        match step { c with onFinish := fun _ _ => res } w.x.sys .src with
        | some s => some { w with x := { w.x with sys := s }, last := w.last.finish osOk r }
        | none => none
    | _ => none

end SD
