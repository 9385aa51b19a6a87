import Verif.Spec.LiveSystem

/-!
# Specification: what is assumed of the scheduler and of the transport after a cancellation
-/

namespace SD

variable {S : Storage}

/-- Strong fairness: an action that is possible again and again is taken again and again.
The `select!` of the task picks at random among the branches that are ready
(source/mod.rs 204), so it does not pass over the cancellation for ever. -/
def StronglyFair {W A : Type} (f : W → A → Option W) (r : Nat → W) (act : Nat → Option A) (a : A) : Prop :=
  (∀ i, ∃ j, i ≤ j ∧ f (r j) a ≠ none) → ∀ i, ∃ j, i ≤ j ∧ act j = some a

/-- The download is cancelled: with `cancel_download` or the token, or by dropping the stream if
it is configured so. -/
def Cancels (c : Cfg) (a : Act) : Prop := a = .cancel ∨ a = .drop ∧ c.cancelOnDrop = true

/-- The task waits for the end of `seek_range`. -/
def SrcPc.asksRange : SrcPc → Bool
  | .seeking _ _ => true
  | _ => false

/-- Every `seek_range` returns, with or without an error. -/
def AnswersSeeks (r : Nat → Sys S) : Prop :=
  ∀ i, (r i).spc.asksRange = true → ∃ j, i ≤ j ∧ (r j).spc.asksRange = false

/-- The task waits for room in the storage. -/
def SrcPc.needsRoom : SrcPc → Bool
  | .wWait _ _ _ => true
  | _ => false

end SD
