import Verif.Model.System

/-!
# The running system when the runtime is shut down

`tokio::spawn` (lib.rs 404-411) hands the download to the runtime.  If the runtime
is shut down while the download is going on, it drops the task at the `await` at
which it is suspended: no code of the task runs any more, neither `on_finish` and
`signal_download_complete` (source/mod.rs 186-193) nor `cancel` (lib.rs 408).  The
consumer, in a thread of its own, may go on.  Nothing in the dropped values has
a `Drop` that tells the consumer.
-/

namespace SD

variable {S : Storage}

/-- The task is suspended at an `await`: the `select!` (source/mod.rs 205), `seek_range`
(467), `reconnect` (278), `wait_for_read` (441), `on_finish` (186), or `yield_now` after a
`write` of the storage that took something (361). -/
def SrcPc.suspended : SrcPc → Bool
  | .sel | .seeking _ _ | .reconn _ | .wWait _ _ _ | .onFin _ _ => true
  | .pfWrite len todo => decide (todo.length < len)
  | .wWrite _ _ _ bw => decide (0 < bw)
  | _ => false

/-- The actions: those of the system, and the end of the runtime. -/
inductive BAct where
  | act (a : Act)
  | shutdown
  deriving DecidableEq, Repr

/-- One step.  A task that was dropped is in the same state as one that has panicked: it does
nothing any more and has signalled nothing.  (The receiver of the seek channel is gone,
so `try_send` fails, source/handle.rs 66-75; the error is ignored, and the model keeps the
message where nobody looks at it.) -/
def bstep (c : Cfg) (s : Sys S) : BAct → Option (Sys S)
  | .act a => step c s a
  | .shutdown => if s.spc.suspended then some { s with spc := .panicked } else none

end SD
