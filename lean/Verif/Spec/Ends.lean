import Verif.Spec.System

/-! # Vocabulary: where a transport ends -/

namespace SD

variable {S : Storage}

/-- The transport says that it is at its end only at the end of the resource. -/
def EndsAtEnd (c : Cfg) (s : Sys S) (a : Act) : Prop :=
  a = .eof → ∀ m, c.remoteLen = some m → m ≤ s.tpos

end SD
