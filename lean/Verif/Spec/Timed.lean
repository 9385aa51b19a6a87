import Verif.Model.Timed
import Verif.Spec.System

/-! # Vocabulary for histories with time -/

namespace SD

variable {S : Storage}

/-- `w` is reachable from `w0` by actions that satisfy `G`. -/
inductive TimedReach (c : Cfg) (retry : Nat) (G : TimedSys S → TimedAct → Prop) (w0 : TimedSys S) :
    TimedSys S → Prop
  | refl : TimedReach c retry G w0 w0
  | step {w w' : TimedSys S} {a : TimedAct} : TimedReach c retry G w0 w → G w a →
      timedStep c retry w a = some w' → TimedReach c retry G w0 w'

/-- The system with a clock as `StreamDownload::new` creates it with provider `P`. -/
def TimedStarts (P : Provider) (c : Cfg) (w0 : TimedSys P.S) : Prop :=
  c.capacity = P.maxCapacity ∧ ∃ st, P.create c.contentLength = .ok st ∧ w0 = timedInit c st

/-- An event in which the source or the download task takes part: something arrives from
the source, it is asked for something, bytes are written, a callback is called. -/
def Ev.ofTask : Ev → Bool
  | .chunk _ | .chunkErr | .eof | .reconnect _ | .onReconnect _ | .seekRange _ _ | .write _ _ _
  | .progress _ _ _ | .onFinish _ _ | .notified _ => true
  | _ => false

/-- Before each reconnect (newest event first), the source and the task were silent for
at least `retry`. -/
def QuietBefore (retry : Nat) : List (Nat × Ev) → Prop
  | [] => True
  | (t, e) :: l =>
    (e.isReconnect = true → retry ≤ t ∧ ∀ x ∈ l, x.2.ofTask = true → x.1 + retry ≤ t) ∧ QuietBefore retry l

/-- The task waits for nothing but the source, the consumer, or somebody who cancels: time
passes.  The program itself takes no time. -/
def Idles (c : Cfg) (s : Sys S) : Prop :=
  srcStep c s = none ∧ (s.spc = .sel → s.seekQ = none ∧ s.cancelled = false)

/-- The machine is fast and the timers are punctual: time passes only while the download task
has nothing to do, and not beyond the moment at which a timer of the task runs down. -/
def Punctual (c : Cfg) (retry : Nat) (w : TimedSys S) (a : TimedAct) : Prop :=
  ∀ d, a = .tick d → 0 < d → Idles c w.sys ∧
    (w.sys.spc = .sel ∨ (∃ p, w.sys.spc = .reconn p) → w.now + d ≤ w.since + retry)

/-- Nothing arrives from the source, and the task takes no request of the consumer for
another position. -/
def Silent (_ : TimedSys S) (a : TimedAct) : Prop :=
  (∀ n, a ≠ .act (.chunk n)) ∧ a ≠ .act .chunkErr ∧ a ≠ .act .eof ∧ a ≠ .act .recvSeek

/-- The download is over or is just being wound up. -/
def SrcPc.closing : SrcPc → Bool
  | .onFin _ _ | .setFail | .sigDone | .tokCancel | .ended => true
  | _ => false

/-- No data arrives from the source; it may yield errors and empty chunks. -/
def NoData (_ : TimedSys S) (a : TimedAct) : Prop := ∀ n, 0 < n → a ≠ .act (.chunk n)

/-- The documented meaning of `retry_timeout` (settings.rs 102-103): if no data arrives for longer
than that, a reconnect is attempted in the meantime, unless the download is over or waits
for the consumer to make room in the storage. -/
def RetriesSilence (c : Cfg) (retry : Nat) (w0 : TimedSys S) : Prop :=
  ∀ w w', TimedReach c retry (Punctual c retry) w0 w →
    TimedReach c retry (fun w a => Punctual c retry w a ∧ NoData w a) w w' → w.now + retry < w'.now →
    w'.sys.spc.closing = true ∨ (∃ pos0 len todo, w'.sys.spc = .wWait pos0 len todo) ∨
    ∃ l t p, w'.times = l ++ w.times ∧ (t, Ev.reconnect p) ∈ l

end SD
