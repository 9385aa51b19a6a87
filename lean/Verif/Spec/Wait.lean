import Verif.Spec.System

/-! # Vocabulary: who waits for whom -/

namespace SD

variable {S : Storage}

/-- A `read` with a buffer of `n` bytes sleeps and cannot go on by itself. -/
def BlockedRead (c : Cfg) (s : Sys S) (n : Nat) : Prop :=
  (∃ r, s.rpc = .rWait n r) ∧ step c s .rdr = none

/-- A `seek` to `p` sleeps and cannot go on by itself. -/
def BlockedSeek (c : Cfg) (s : Sys S) (p : Nat) : Prop :=
  s.rpc = .sWait p ∧ step c s .rdr = none

/-- The download task sleeps until the consumer wakes it. -/
def Paused (c : Cfg) (s : Sys S) : Prop :=
  (∃ pos0 len todo, s.spc = .wWait pos0 len todo) ∧ step c s .src = none

/-- Nothing that happens from now on moves the consumer or the task. -/
def Forever (c : Cfg) (s : Sys S) : Prop :=
  ∀ s', Reach c Any s s' → s'.rpc = s.rpc ∧ s'.spc = s.spc ∧ s'.log = s.log

/-- The storage takes nothing. -/
def Takes0 (s : Sys S) : Prop := ∀ bs k st', S.write s.st bs = .ok (k, st') → k = 0

/-- `s` is reachable from `s0` in `n` steps, not counting calls of `cancel`. -/
inductive Within (c : Cfg) (G : Sys S → Act → Prop) (s0 : Sys S) : Nat → Sys S → Prop
  | refl : Within c G s0 0 s0
  | step {n : Nat} {s s' : Sys S} {a : Act} : Within c G s0 n s → G s a → step c s a = some s' →
      Within c G s0 (if a = .cancel then n else n + 1) s'

/-- If the task waits in its `select!` (source/mod.rs 204-240, which picks one of the ready
branches at random), the branch for the cancellation is picked. -/
def Prompt (s : Sys S) (a : Act) : Prop := s.spc = .sel → a = .seeCancel ∨ a = .cancel

/-- The task waits for the answer of the source to `seek_range` or `reconnect`. -/
def AwaitsSource (s : Sys S) : Prop :=
  (∃ start stop, s.spc = .seeking start stop) ∨ ∃ p, s.spc = .reconn p

/-- The task can go on by itself. -/
def TaskCanGo (c : Cfg) (s : Sys S) : Prop :=
  ∃ a s', (a = .src ∨ a = .seeCancel) ∧ step c s a = some s'

end SD
