import Verif.Spec.Requests
import Verif.Spec.SourceSystem

/-!
# Specification: what a history asks of a source that is a program
-/

namespace SD

variable {S : Storage} {R : Source}

/-- How many bytes the task has received, over all connections. -/
def bytesReceived (log : List Ev) : Nat := (log.map fun e => match e with | .chunk bs => bs.length | _ => 0).sum

/-- How often the consumer has called `seek`. -/
def xSeekCalls (h : List (XSys R S × XAct R)) : Nat :=
  h.countP fun x => match x.2 with | .sys a => a.isSeek | _ => false

/-- `ReconnectsToEnd` for a source that is a program. -/
def XReconnectsToEnd (c : Cfg) (w : XSys R S) (a : XAct R) : Prop :=
  ∀ e, a = .reconnect e → w.sys.tlim = none ∨ w.sys.tlim = c.contentLength

end SD
