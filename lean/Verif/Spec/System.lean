import Verif.Model.System
import Verif.Spec.RangeSet

/-!
# Vocabulary for properties of the running system

Reachability under a restriction on histories, the restrictions themselves, and
what can be read off the log of observable events.
-/

namespace SD

variable {S : Storage}

/-- `s` is reachable from `s0` by actions that satisfy the restriction `G`. -/
inductive Reach (c : Cfg) (G : Sys S → Act → Prop) (s0 : Sys S) : Sys S → Prop
  | refl : Reach c G s0 s0
  | step {s s' : Sys S} {a : Act} : Reach c G s0 s → G s a → step c s a = some s' → Reach c G s0 s'

/-- The system as `StreamDownload::new` creates it with provider `P` (lib.rs
385-425). -/
def Starts (P : Provider) (c : Cfg) (s0 : Sys P.S) : Prop :=
  c.capacity = P.maxCapacity ∧ ∃ st, P.create c.contentLength = .ok st ∧ s0 = init c st

/-! ### Restrictions on histories -/

/-- No restriction. -/
def Any (_ : Sys S) (_ : Act) : Prop := True

/-- The transport resumes where it was asked to. -/
def Honest (s : Sys S) (a : Act) : Prop :=
  (∀ start stop pos, s.spc = .seeking start stop → a = .seekOk pos → pos = start) ∧
  (∀ p pos, s.spc = .reconn p → a = .reconnOk pos → pos = p)

/-- The consumer does not seek. -/
def NoSeek (_ : Sys S) (a : Act) : Prop := ∀ f, a ≠ .seek f

/-- The consumer only seeks to positions at or after its own. -/
def Forward (c : Cfg) (s : Sys S) (a : Act) : Prop :=
  ∀ f p, a = .seek f → c.absolute (S.tell s.st).1 f = .ok p → (S.tell s.st).1 ≤ c.normalize p

/-- A read has returned the byte at position `q`. -/
def Seen (log : List Ev) (q : Nat) : Prop :=
  ∃ pos len fast bs, Ev.readRet pos len fast (.ok bs) ∈ log ∧ pos ≤ q ∧ q < pos + bs.length

/-- The consumer only goes back over bytes that it has read or that are downloaded; forward
it may go anywhere. -/
def Connected (c : Cfg) (s : Sys S) (a : Act) : Prop :=
  ∀ f p, a = .seek f → c.absolute (S.tell s.st).1 f = .ok p →
    ∀ q, c.normalize p ≤ q → q < (S.tell s.st).1 → Seen s.log q ∨ RSet.Mem s.dl q

theorem Forward.connected {c : Cfg} {s : Sys S} {a : Act} (h : Forward c s a) : Connected c s a := by
  intro f p hf hp q h1 h2
  have := h f p hf hp
  omega

/-- A transport that cannot be re-positioned delivers the declared length before
it ends. -/
def Delivers (c : Cfg) (s : Sys S) (a : Act) : Prop :=
  a = .eof → c.supportsSeek = false → ∀ n, c.contentLength = some n → n ≤ s.tpos

/-- The transport does not yield empty chunks. -/
def NonEmpty (_ : Sys S) (a : Act) : Prop := a ≠ .chunk 0

/-- No reconnect succeeds while received bytes are waiting to be written. -/
def CleanReconnect (s : Sys S) (a : Act) : Prop := ∀ pos, a = .reconnOk pos → s.rem = none

/-! ### Assumptions on the configuration -/

/-- The resource is not longer than the declared length. -/
def Cfg.LengthHonest (c : Cfg) : Prop :=
  ∀ n, c.contentLength = some n → ∃ m, c.remoteLen = some m ∧ m ≤ n

/-- `on_finish` does not turn errors into success (true of the default, which
returns its argument). -/
def Cfg.KeepsErrors (c : Cfg) : Prop := ∀ k o, c.onFinish (some k) o ≠ none

/-! ### Reading the log (newest event first) -/

/-- All bytes returned by successful reads, in order. -/
def delivered : List Ev → List Byte
  | [] => []
  | .readRet _ _ _ (.ok bs) :: l => delivered l ++ bs
  | _ :: l => delivered l

/-- Every successful read returned the remote bytes at its position. -/
def ReadsExact (remote : Nat → Byte) (log : List Ev) : Prop :=
  ∀ pos len fast bs, Ev.readRet pos len fast (.ok bs) ∈ log → bs = slice remote pos bs.length

/-- Where the consumer is, according to what `read` and `seek` have returned. -/
def logPos : List Ev → Nat
  | [] => 0
  | .readRet _ _ _ (.ok bs) :: l => logPos l + bs.length
  | .seekRet _ (.ok p) :: l => p
  | _ :: l => logPos l

/-- A `read` or `seek` call returns to the consumer. -/
def Ev.isReturn : Ev → Bool
  | .readRet _ _ _ _ | .readErr _ _ | .seekRet _ _ | .seekErr _ => true
  | _ => false

/-- A `read` or `seek` call returns an error. -/
def Ev.isError : Ev → Bool
  | .readErr _ _ | .seekErr _ => true
  | .readRet _ _ _ (.err _) | .seekRet _ (.err _) => true
  | _ => false

/-- The target of a seek from position `pos` as an integer, without any wrapping or
clamping; none for a seek from the end of a stream of unknown length. -/
def Cfg.exactTarget (c : Cfg) (pos : Nat) : SeekFrom → Option Int
  | .start p => some p
  | .current d => some (pos + d)
  | .fromEnd d => c.contentLength.map fun n => (n : Int) + d

/-- A position, clamped to a length that may be unknown. -/
def clamp (len : Option Nat) (p : Nat) : Nat :=
  match len with
  | some n => min p n
  | none => p

/-- All bytes the transport delivered, in order. -/
def received : List Ev → List Byte
  | [] => []
  | .chunk bs :: l => received l ++ bs
  | _ :: l => received l

/-- All bytes the storage accepted, in order. -/
def accepted : List Ev → List Byte
  | [] => []
  | .write _ bs k :: l => accepted l ++ bs.take k
  | _ :: l => accepted l

/-- `reconnect` was called. -/
def Ev.isReconnect : Ev → Bool
  | .reconnect _ => true
  | _ => false

/-- `on_reconnect` was called. -/
def Ev.isOnReconnect : Ev → Bool
  | .onReconnect _ => true
  | _ => false

/-- Every event, together with the events that preceded it, satisfies `P`. -/
def Always (P : Ev → List Ev → Prop) : List Ev → Prop
  | [] => True
  | e :: l => P e l ∧ Always P l

/-- How the call the consumer is in was released, if it had to wait and was:
`some true` by the end of the download, `some false` by a notification. -/
def relOf : List Ev → Option Bool
  | [] => none
  | .released b :: _ => some b
  | .request _ :: _ => none
  | e :: l => if e.isReturn then none else relOf l

/-- What the consumer's waiting protocol can be in, as told by the log. -/
inductive WaitSt where
  /-- the consumer is not waiting -/
  | free
  /-- it waits for position `r` -/
  | asked (r : Nat)
  /-- it was told that `r` is reached -/
  | told (r : Nat)
  deriving DecidableEq, Repr

/-- The waiting protocol: a request is answered by at most one notification, which
is only sent when the download has reached the position of that same request, and
which releases only that request; `none` if the log breaks these rules. -/
def waitSt : List Ev → Option WaitSt
  | [] => some .free
  | .request r :: l => if waitSt l = some .free then some (.asked r) else none
  | .notified w :: l =>
    match waitSt l with
    | some (.asked r) => if r ≤ w then some (.told r) else none
    | _ => none
  | .released false :: l =>
    match waitSt l with
    | some (.told _) => some .free
    | _ => none
  | .released true :: l =>
    match waitSt l with
    | some (.told _) | some (.asked _) => some .free
    | _ => none
  | _ :: l => waitSt l

/-- The part of the waiting protocol that belongs to the call the consumer is in. -/
inductive CallSt where
  /-- it has not waited -/
  | fresh
  /-- it waits for position `r` -/
  | asked (r : Nat)
  /-- it was told that `r` is reached, when the download was at `w` -/
  | told (r w : Nat)
  /-- it waited for `r` and was released by the end of the download -/
  | byDone (r : Nat)
  /-- it waited for `r` and was released by the notification sent at `w` -/
  | byTold (r w : Nat)
  /-- the rules of the protocol were broken -/
  | broken
  deriving DecidableEq, Repr

/-- Follows the waiting protocol call by call. -/
def callSt : List Ev → CallSt
  | [] => .fresh
  | .request r :: l => if callSt l = .fresh then .asked r else .broken
  | .notified w :: l =>
    match callSt l with
    | .asked r => if r ≤ w then .told r w else .broken
    | _ => .broken
  | .released false :: l =>
    match callSt l with
    | .told r w => .byTold r w
    | _ => .broken
  | .released true :: l =>
    match callSt l with
    | .told r _ | .asked r => .byDone r
    | _ => .broken
  | e :: l =>
    if e.isReturn then
      match callSt l with
      | .asked _ | .told _ _ | .broken => .broken
      | _ => .fresh
    else callSt l

/-- An event of the waiting protocol or a return of a call. -/
def Ev.isCall : Ev → Bool
  | .request _ | .notified _ | .released _ => true
  | e => e.isReturn

end SD
