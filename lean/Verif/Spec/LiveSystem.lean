import Verif.Spec.Live
import Verif.Spec.HttpSystem
import Verif.Spec.ProcessSystem

/-!
# Specification: infinite histories of the systems with a real source
-/

namespace SD

variable {S : Storage}

/-- An infinite history of a machine with steps `f`; `none` means that nothing happens. -/
structure Run {W A : Type} (f : W → A → Option W) (w0 : W) (r : Nat → W) (act : Nat → Option A) : Prop where
  start : r 0 = w0
  pause : ∀ i, act i = none → r (i + 1) = r i
  next : ∀ i a, act i = some a → f (r i) a = some (r (i + 1))

/-- Weak fairness: an action that is possible from some time on, without interruption, is
taken. -/
def FairFor {W A : Type} (f : W → A → Option W) (r : Nat → W) (act : Nat → Option A) (a : A) : Prop :=
  ∀ i, (∀ j, i ≤ j → f (r j) a ≠ none) → ∃ j, i ≤ j ∧ act j = some a

/-- If the task waits for the source again and again, then something that counts as
`progress` happens again and again. -/
def Working (s : Nat → Sys S) (progress : Nat → Prop) : Prop :=
  (∀ i, ∃ j, i ≤ j ∧ (s j).spc.awaits = true) → ∀ i, ∃ j, i ≤ j ∧ progress j

/-- The consumer reads until a read fails or returns fewer bytes than the buffer holds;
`reads j n`: at time `j` it starts to read into a buffer of `n` bytes. -/
def Reading (s : Nat → Sys S) (reads : Nat → Nat → Prop) : Prop :=
  ∀ i, (s i).rpc = .idle → (∀ e ∈ (s i).log, e.last = false) → ∃ j n, i ≤ j ∧ 0 < n ∧ reads j n

/-! ### HTTP -/

/-- A history with a server that satisfies `A`, and the two schedulers. -/
structure HRun (c : Cfg) (A : Answer → Prop) (w0 : HSys S) (r : Nat → HSys S) (act : Nat → Option HAct) :
    Prop where
  run : Run (hstep c) w0 r act
  server : ∀ i a answer, act i = some a → a.answer = some answer → A answer
  task : FairFor (hstep c) r act (.sys .src)
  consumer : FairFor (hstep c) r act (.sys .rdr)

/-- The connection goes on: it delivers, or comes to its end, again and again while the task
waits.  It may stall and fail in between. -/
def HWorking (r : Nat → HSys S) (act : Nat → Option HAct) : Prop :=
  Working (fun i => (r i).sys) fun j => (∃ n, act j = some (.chunk n)) ∨ act j = some (.sys .eof)

/-- A body ends only where it should. -/
def WholeBodies (r : Nat → HSys S) (act : Nat → Option HAct) : Prop :=
  ∀ i, act i = some (.sys .eof) → (r i).http.stream = []

/-- The connections get somewhere: while the task waits they deliver, or come to their proper end,
again and again.  They may stall, fail and break off in between. -/
def HAdvancing (r : Nat → HSys S) (act : Nat → Option HAct) : Prop :=
  Working (fun i => (r i).sys) fun j =>
    (∃ n, act j = some (.chunk n)) ∨ (act j = some (.sys .eof) ∧ (r j).http.stream = [])

/-! ### Sources that are programs -/

variable {R : Source}

/-- A history in the world `W`, and the two schedulers. -/
structure XRun (c : Cfg) (W : World R) (w0 : XSys R S) (r : Nat → XSys R S) (act : Nat → Option (XAct R)) :
    Prop where
  run : Run (xstep R c) w0 r act
  world : ∀ i a, act i = some a → W.Allows (r i) a
  task : FairFor (xstep R c) r act (.sys .src)
  consumer : FairFor (xstep R c) r act (.sys .rdr)

/-- The source goes on: while the task waits it is polled, and is ready without an error, again
and again. -/
def XWorking (r : Nat → XSys R S) (act : Nat → Option (XAct R)) : Prop :=
  Working (fun i => (r i).sys) fun j => ∃ e, act j = some (.poll e) ∧ (R.poll (r j).src e).1 ≠ .err

/-! ### Processes -/

/-- A history with a process, and the schedulers.  `on_finish` returns once it can; if the task
waits there again and again, the process ends at some time. -/
structure PRun (c : Cfg) (W : World asyncReadSource) (w0 : PSys S) (r : Nat → PSys S) (act : Nat → Option PAct) :
    Prop where
  run : Run (pstep c) w0 r act
  world : ∀ i a, act i = some a → a.Allowed W (r i)
  task : FairFor (pstep c) r act (.x (.sys .src))
  consumer : FairFor (pstep c) r act (.x (.sys .rdr))
  finish : ∀ i, (∀ j, i ≤ j → pstep c (r j) (.finish true) ≠ none) → ∃ j ok, i ≤ j ∧ act j = some (.finish ok)
  exits : (∀ i, ∃ j, i ≤ j ∧ (r j).x.sys.spc.finishing = true) → ∃ j, (r j).last.exit ≠ none

/-- The process writes on, and its output is read, again and again while the task waits. -/
def PWorking (r : Nat → PSys S) (act : Nat → Option PAct) : Prop :=
  Working (fun i => (r i).x.sys) fun j =>
    ∃ e, act j = some (.x (.poll e)) ∧ (asyncReadSource.poll (r j).x.src e).1 ≠ .err

end SD
