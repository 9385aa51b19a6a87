import Verif.Model.Weak
import Verif.Model.Tso
import Verif.Spec.Wait

/-! # Vocabulary for the system with weakly ordered memory -/

namespace SD

variable {S : Storage}

/-- No request for a seek is lost because the channel is full: the code then logs the error
"Sent multiple seek requests without waiting" (source/handle.rs 66-75). -/
def Sends (s : Sys S) (a : Act) : Prop := a = .rdr → ∀ p, s.rpc = .sSend p → s.seekQ = none

/-- `t` is reachable from `t0` by actions of the system that satisfy `G` and by stores that become
visible. -/
inductive WReach (c : Cfg) (G : Sys S → Act → Prop) (t0 : WSys S) : WSys S → Prop
  | refl : WReach c G t0 t0
  | act {t t' : WSys S} {a : Act} : WReach c G t0 t → G t.sys a → wstep c t (.act a) = some t' → WReach c G t0 t'
  | drain {t t' : WSys S} : WReach c G t0 t → wstep c t .drain = some t' → WReach c G t0 t'

/-- A restriction on histories that concerns neither the steps inside a call of the consumer
nor where in a call the consumer is, nor the stored wake-up of the task, nor the queue of the
requests for seeks. -/
structure Outer (G : Sys S → Act → Prop) : Prop where
  rdr : ∀ s, G s .rdr
  blind : ∀ s a permit rpc seekQ, G s a → G { s with permit := permit, rpc := rpc, seekQ := seekQ } a

/-- Two states that differ at most in where in a call the consumer is, in the stored
wake-up of the task, and in whether its request for a seek is already in the queue. -/
def SameButPlaceQ (s s' : Sys S) : Prop :=
  ∃ permit rpc seekQ, s' = { s with permit := permit, rpc := rpc, seekQ := seekQ }

/-- Nothing that happens from now on moves the consumer or the task. -/
def WForever (c : Cfg) (t : WSys S) : Prop :=
  ∀ t', WReach c Any t t' → t'.sys.rpc = t.sys.rpc ∧ t'.sys.spc = t.sys.spc ∧ t'.sys.log = t.sys.log

end SD
