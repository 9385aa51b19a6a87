import Verif.Spec.Calm
import Verif.Spec.LiveSystem
import Verif.Spec.ProcessSystem

/-!
# Vocabulary for reads that do not fail, over HTTP, OpenDAL, readers and processes
-/

namespace SD

variable {S : Storage}

/-- Nobody cancels, nobody seeks, no body ends early, and the length of every
buffer satisfies `fits`. -/
structure HCalm (fits : Nat → Prop) (w : HSys S) (a : HAct) : Prop where
  cancel : a ≠ .sys .cancel
  seek : ∀ f, a ≠ .sys (.seek f)
  whole : a = .sys .eof → w.http.stream = []
  read : ∀ n, a = .sys (.read n) → fits n

/-- Nobody cancels, nobody seeks, and the length of every buffer
satisfies `fits`. -/
structure XCalm (fits : Nat → Prop) {R : Source} (w : XSys R S) (a : XAct R) : Prop where
  cancel : a ≠ .sys .cancel
  seek : ∀ f, a ≠ .sys (.seek f)
  read : ∀ n, a = .sys (.read n) → fits n

/-- The same for a process; moreover the operating system does not fail in `wait` or `kill`. -/
structure PCalm (fits : Nat → Prop) (w : PSys S) (a : PAct) : Prop where
  cancel : a ≠ .x (.sys .cancel)
  seek : ∀ f, a ≠ .x (.sys (.seek f))
  read : ∀ n, a = .x (.sys (.read n)) → fits n
  os : a ≠ .finish false

end SD
