import Verif.Model.System

/-!
# The running system with time

In `Model/System.lean` the time-out of the `select!` may fire at any moment.  Here there is
a clock, and the two time-outs of the download task, around `stream.next()` (source/mod.rs
203) and around `reconnect` (278), fire only when `retry_timeout` has passed since they were
created.  Time is a number of arbitrarily small units.

Simplification: the timer of the runtime has no granularity of its own (tokio rounds up to
milliseconds), and the steps of the task take as long as the history says.
-/

namespace SD

variable {S : Storage}

/-- Whether an action is one of the download task, or something it awaits that completes. -/
def Act.ofTask : Act → Bool
  | .rdr | .read _ | .seek _ | .cancel | .drop => false
  | _ => true

/-- The system and its clock. -/
structure TimedSys (S : Storage) where
  sys : Sys S
  /-- what the clock shows; the stream was created at 0 -/
  now : Nat
  /-- when the last step of the task was done.  If the task waits in the `select!` or for
  `reconnect`, this is when `timeout(..)` was called, source/mod.rs 203 and 278: it is called
  anew in each iteration of the loop. -/
  since : Nat
  /-- the events of the log, with the time of each -/
  times : List (Nat × Ev)

/-- The actions: those of the system, and the passing of time. -/
inductive TimedAct where
  | act (a : Act)
  | tick (d : Nat)
  deriving DecidableEq, Repr

/-- Whether the timer, if the action is that of a timer, has run down: `timeout` in
source/mod.rs 203 and 278 with `Settings::retry_timeout`. -/
def TimedSys.due (retry : Nat) (w : TimedSys S) : Act → Bool
  | .timeout | .reconnTimeout => decide (w.since + retry ≤ w.now)
  | _ => true

/-- One step. -/
def timedStep (c : Cfg) (retry : Nat) (w : TimedSys S) : TimedAct → Option (TimedSys S)
  | .tick d => some { w with now := w.now + d }
  | .act a =>
    if w.due retry a then
      match step c w.sys a with
      | some s' => some {
          sys := s'
          now := w.now
          since := if a.ofTask then w.now else w.since
          times := (s'.log.take (s'.log.length - w.sys.log.length)).map (w.now, ·) ++ w.times }
      | none => none
    else none

/-- The initial state. -/
def timedInit (c : Cfg) (st : S.σ) : TimedSys S where
  sys := init c st
  now := 0
  since := 0
  times := []

end SD
