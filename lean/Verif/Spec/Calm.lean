import Verif.Spec.Live

/-! # Histories in which nothing goes wrong -/

namespace SD

variable {S : Storage}

/-- Nobody cancels the download, and no range request fails. -/
def Undisturbed (_ : Sys S) (a : Act) : Prop := a ≠ .cancel ∧ ∀ k, a ≠ .seekFail k

/-- No buffer is longer than `limit`. -/
def BuffersUpTo (limit : Nat) (_ : Sys S) (a : Act) : Prop := ∀ n, a = .read n → n ≤ limit

end SD
