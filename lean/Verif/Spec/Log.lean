import Verif.Spec.System

/-! # More vocabulary for properties of the log -/

namespace SD

/-- The storage refused bytes: it was full. -/
def refused (l : List Ev) : Prop := ∃ p bs, bs ≠ [] ∧ Ev.write p bs 0 ∈ l

/-- Every write is of at most one batch and accepts at most what it was given. -/
def batchRule (c : Cfg) (e : Ev) (_ : List Ev) : Prop :=
  match e with
  | .write _ bs k => bs.length ≤ c.batchSize ∧ k ≤ bs.length
  | _ => True

/-- A chunk, or the end of the transport, is only taken when everything received before
is stored, or the storage was full. -/
def storedRule (e : Ev) (l : List Ev) : Prop :=
  match e with
  | .chunk _ | .eof => accepted l = received l ∨ refused l
  | _ => True

/-- The prefetch is over: enough is stored, the transport ended, the storage was full or
the download is over. -/
def prefetched (c : Cfg) (l : List Ev) : Prop :=
  c.prefetchBytes ≤ (accepted l).length ∨ Ev.eof ∈ l ∨ refused l ∨ ∃ r o, Ev.onFinish r o ∈ l

/-- No `read` returns from the storage before the prefetch is over. -/
def prefetchRule (c : Cfg) (e : Ev) (l : List Ev) : Prop :=
  match e with
  | .readRet _ _ _ _ => prefetched c l
  | _ => True

end SD
