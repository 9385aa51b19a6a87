import Verif.Model.Abort
import Verif.Spec.Wait

/-! # Vocabulary for histories with a shutdown of the runtime -/

namespace SD

variable {S : Storage}

/-- `s` is reachable from `s0` by actions that satisfy `G`, and a shutdown of the runtime at
any moment. -/
inductive BReach (c : Cfg) (G : Sys S → Act → Prop) (s0 : Sys S) : Sys S → Prop
  | refl : BReach c G s0 s0
  | act {s s' : Sys S} {a : Act} : BReach c G s0 s → G s a → bstep c s (.act a) = some s' → BReach c G s0 s'
  | shutdown {s s' : Sys S} : BReach c G s0 s → bstep c s .shutdown = some s' → BReach c G s0 s'

/-- What somebody else than the task and the source does. -/
def Act.ofUser : Act → Bool
  | .rdr | .read _ | .seek _ | .drop | .cancel => true
  | _ => false

/-- A restriction on histories that, for what the user does, does not depend on where the task
is. -/
def Independent (G : Sys S → Act → Prop) : Prop :=
  ∀ s a p, a.ofUser = true → G s a → G { s with spc := p } a

/-- From now on, whatever happens, the call in progress does not return. -/
def NeverReturns (c : Cfg) (s : Sys S) : Prop :=
  ∀ s', BReach c Any s s' → s'.rpc = s.rpc ∧ s'.log = s.log

end SD
