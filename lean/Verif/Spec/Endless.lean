import Verif.Spec.Live
import Verif.Spec.Calm

/-!
# Specification of C87: streams without end

A radio station: the source declares no length and never ends.
-/

namespace SD

variable {S : Storage}

/-- The resource has no end, and no length is declared. -/
def Cfg.Endless (c : Cfg) : Prop := c.remoteLen = none ∧ c.contentLength = none

/-- What C87 assumes of the transport.  It goes on delivering, resumes where it is asked to, and does not
end; in between it may stall, fail and have to be reconnected.  Nobody cancels, and no range request
fails. -/
structure Broadcasts (r : Nat → Sys S) (act : Nat → Option Act) : Prop where
  delivering : KeepsDelivering r act
  honest : ∀ i a, act i = some a → Honest (r i) a
  nonEmpty : ∀ i, act i ≠ some (.chunk 0)
  endless : ∀ i, act i ≠ some .eof
  undisturbed : ∀ i a, act i = some a → Undisturbed (r i) a

/-- What C87 assumes of the consumer.  It reads again and again as long as no read fails or comes back with
fewer bytes than the buffer holds, does not seek, and uses no empty buffer and none longer than `limit`. -/
structure Listens (limit : Nat) (r : Nat → Sys S) (act : Nat → Option Act) : Prop where
  reads : ReadsToEnd r act
  noSeek : ∀ i f, act i ≠ some (.seek f)
  short : ∀ i n, act i = some (.read n) → n ≤ limit

end SD
