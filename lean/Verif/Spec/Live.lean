import Verif.Spec.System
import Verif.Spec.Wait

/-!
# Specification: infinite histories

Vocabulary for "eventually": histories that go on for ever, and what is assumed of
the scheduler and of the transport.
-/

namespace SD

variable {S : Storage}

/-- An infinite history: `r i` is the state at time `i`, and `act i` what happens then;
`none` means that nothing happens. -/
structure Exec (c : Cfg) (s0 : Sys S) (r : Nat → Sys S) (act : Nat → Option Act) : Prop where
  start : r 0 = s0
  pause : ∀ i, act i = none → r (i + 1) = r i
  next : ∀ i a, act i = some a → step c (r i) a = some (r (i + 1))

/-- Weak fairness: an action that is possible from some time on, without interruption, is
taken. For `.src` and `.rdr` this is what the schedulers of tokio and of the
operating system provide. -/
def Fair (c : Cfg) (r : Nat → Sys S) (act : Nat → Option Act) (a : Act) : Prop :=
  ∀ i, (∀ j, i ≤ j → step c (r j) a ≠ none) → ∃ j, i ≤ j ∧ act j = some a

/-- The task waits for the source: for the next chunk, for the end of `seek_range` or of
`reconnect`. -/
def SrcPc.awaits : SrcPc → Bool
  | .sel | .seeking _ _ | .reconn _ => true
  | _ => false

/-- The transport keeps delivering: if the task waits for it again and again, then it
yields a chunk that is not empty again and again.  It may stall, fail, end early and
have to be reconnected in between.  (If the download is over, the task does not wait
any more.) -/
def KeepsDelivering (r : Nat → Sys S) (act : Nat → Option Act) : Prop :=
  (∀ i, ∃ j, i ≤ j ∧ (r j).spc.awaits = true) →
    ∀ i, ∃ j n, i ≤ j ∧ 0 < n ∧ act j = some (.chunk n)

/-- The transport does something: if the task waits for it again and again, then it yields
a chunk that is not empty, or ends, again and again.  It may stall, fail and have to be
reconnected in between. -/
def Productive (r : Nat → Sys S) (act : Nat → Option Act) : Prop :=
  (∀ i, ∃ j, i ≤ j ∧ (r j).spc.awaits = true) →
    ∀ i, ∃ j, i ≤ j ∧ ((∃ n, 0 < n ∧ act j = some (.chunk n)) ∨ act j = some .eof)

/-- The transport ends only where the resource, or the range it was asked for, ends. -/
def EndsWhereAsked (c : Cfg) (s : Sys S) (a : Act) : Prop :=
  a = .eof → (∃ m, c.remoteLen = some m ∧ m ≤ s.tpos) ∨ ∃ b, s.tlim = some b ∧ b ≤ s.tpos

/-- The transport gets somewhere: if the task waits for it again and again, then again and again
it yields a chunk that is not empty, or ends where the resource, or the range it was asked for,
ends.  In between it may stall, fail, have to be reconnected, and break off anywhere. -/
def Advancing (c : Cfg) (r : Nat → Sys S) (act : Nat → Option Act) : Prop :=
  (∀ i, ∃ j, i ≤ j ∧ (r j).spc.awaits = true) →
    ∀ i, ∃ j, i ≤ j ∧ ((∃ n, 0 < n ∧ act j = some (.chunk n)) ∨ (act j = some .eof ∧ EndsWhereAsked c (r j) .eof))

theorem Productive.advancing {c : Cfg} {r : Nat → Sys S} {act : Nat → Option Act} (h : Productive r act)
    (he : ∀ i a, act i = some a → EndsWhereAsked c (r i) a) : Advancing c r act := by
  intro hinf i
  obtain ⟨j, hj, h1 | h1⟩ := h hinf i
  · exact ⟨j, hj, .inl h1⟩
  · exact ⟨j, hj, .inr ⟨h1, he j _ h1⟩⟩

/-- The resource is finite, and its length is the declared one if one is declared. -/
def Cfg.Finite (c : Cfg) (m : Nat) : Prop :=
  c.remoteLen = some m ∧ ∀ n, c.contentLength = some n → n = m

/-- The consumer is inside a `read` call. -/
def RdrPc.inReadCall : RdrPc → Bool
  | .rDecide _ | .rSet _ _ | .rLoad _ _ | .rNotify _ _ | .rWait _ _ | .rCheck _ _ | .rRead _ _ | .rSwap
  | .rWake => true
  | _ => false

/-- The buffer of the current `read`. -/
def RdrPc.buf : RdrPc → Option Nat
  | .rDecide n | .rSet n _ | .rLoad n _ | .rNotify n _ | .rWait n _ | .rCheck n _ | .rRead n _ => some n
  | _ => none

/-- A read that failed. -/
def Ev.failedRead : Ev → Bool
  | .readRet _ _ _ (.ok _) => false
  | .readRet _ _ _ _ | .readErr _ _ => true
  | _ => false

/-- Some read failed. -/
def ReadFailed (log : List Ev) : Prop := ∃ e ∈ log, e.failedRead = true

/-- A read after which a consumer that reads to the end stops: it failed, or it returned
fewer bytes than the buffer holds. -/
def Ev.last : Ev → Bool
  | .readRet _ len _ (.ok bs) => decide (bs.length < len)
  | .readRet _ _ _ _ | .readErr _ _ => true
  | _ => false

/-- The consumer reads until a read fails or returns fewer bytes than the buffer holds; no
buffer is empty. -/
def ReadsToEnd (r : Nat → Sys S) (act : Nat → Option Act) : Prop :=
  ∀ i, (r i).rpc = .idle → (∀ e ∈ (r i).log, e.last = false) →
    ∃ j n, i ≤ j ∧ 0 < n ∧ act j = some (.read n)

/-- A read after which a consumer that reads until nothing comes stops: it failed, or it returned
no bytes although the buffer is not empty.  This is how `Read::read_to_end` and `io::copy` read. -/
def Ev.dry : Ev → Bool
  | .readRet _ len _ (.ok bs) => decide (0 < len ∧ bs.length = 0)
  | .readRet _ _ _ _ | .readErr _ _ => true
  | _ => false

/-- The consumer reads until a read fails or returns nothing; no buffer is empty. -/
def ReadsDry (r : Nat → Sys S) (act : Nat → Option Act) : Prop :=
  ∀ i, (r i).rpc = .idle → (∀ e ∈ (r i).log, e.dry = false) →
    ∃ j n, i ≤ j ∧ 0 < n ∧ act j = some (.read n)

/-- The consumer is inside a `read` or `seek` call. -/
def RdrPc.inCall : RdrPc → Bool
  | .sDecide _ | .sSet _ | .sSend _ | .sWait _ | .sCheck _ | .sSeek _ => true
  | p => p.inReadCall

/-- The position that the current call sleeps for. -/
def RdrPc.asleep : RdrPc → Option Nat
  | .rWait _ r => some r
  | .sWait p => some p
  | _ => none

end SD
