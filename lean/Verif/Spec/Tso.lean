import Verif.Model.Tso
import Verif.Spec.Wait

/-! # Vocabulary for the system on hardware that delays stores -/

namespace SD

variable {S : Storage}

/-- `t` is reachable from `t0` by actions of the system that satisfy `G` and by emptying the
store buffer. -/
inductive TReach (c : Cfg) (G : Sys S → Act → Prop) (t0 : TSys S) : TSys S → Prop
  | refl : TReach c G t0 t0
  | act {t t' : TSys S} {a : Act} : TReach c G t0 t → G t.sys a → tstep c t (.act a) = some t' → TReach c G t0 t'
  | drain {t t' : TSys S} : TReach c G t0 t → tstep c t .drain = some t' → TReach c G t0 t'

/-- A restriction on histories that concerns neither the steps inside a call of the consumer
nor where in a call the consumer is, nor the stored wake-up of the task. -/
structure Outside (G : Sys S → Act → Prop) : Prop where
  rdr : ∀ s, G s .rdr
  blind : ∀ s a permit rpc, G s a → G { s with permit := permit, rpc := rpc } a

/-- Two states that differ at most in where in a call the consumer is and in the stored
wake-up of the task. -/
def SameButPlace (s s' : Sys S) : Prop :=
  ∃ permit rpc, s' = { s with permit := permit, rpc := rpc }

/-- Nothing that happens from now on moves the consumer or the task. -/
def TForever (c : Cfg) (t : TSys S) : Prop :=
  ∀ t', TReach c Any t t' → t'.sys.rpc = t.sys.rpc ∧ t'.sys.spc = t.sys.spc ∧ t'.sys.log = t.sys.log

end SD
