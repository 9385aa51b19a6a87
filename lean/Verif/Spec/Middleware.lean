import Verif.Model.Middleware

/-! # What is meant by a middleware that watches -/

namespace SD

/-- A world with notes, and the rest of it. -/
structure Noting (σ : Type) where
  notes : List (Nat × HttpReq)
  rest : σ

/-- A middleware that notes each request under its name and passes it on. -/
def watch {σ : Type} (t : Nat) : Middleware (Noting σ) :=
  fun next r w => next r { w with notes := w.notes ++ [(t, r)] }

/-- Sending looks at the rest of the world and changes it, not at the notes. -/
def onRest {σ : Type} (base : Send σ) : Send (Noting σ) :=
  fun r w => ((base r w.rest).1, { w with rest := (base r w.rest).2 })

/-- The middlewares that a history adds, in order. -/
def added {σ : Type} : List (MwAct σ) → List (Middleware σ)
  | [] => []
  | .add m :: as => m :: added as
  | _ :: as => added as

/-- Client `i` is made with the default middleware after `before`, and not made again. -/
def MadeAfter {σ : Type} (i : Nat) (acts before : List (MwAct σ)) : Prop :=
  ∃ after, acts = before ++ .create i :: after ∧
    (∀ a ∈ after, a ≠ .create i ∧ ∀ ms, a ≠ .build i ms)

end SD
