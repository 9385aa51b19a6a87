import Verif.Spec.System

/-! # Specification: what the storage has accepted -/

namespace SD

/-- The event is a write that put a byte at position `q`. -/
def Ev.stores (q : Nat) : Ev → Prop
  | .write pos _ k => pos ≤ q ∧ q < pos + k
  | _ => False

/-- At some time the storage accepted a byte for position `q`. -/
def StoredIn (log : List Ev) (q : Nat) : Prop := ∃ e ∈ log, e.stores q

/-- `q` is inside the declared length, if one is declared. -/
def Cfg.within (c : Cfg) (q : Nat) : Prop := ∀ n, c.contentLength = some n → q < n

end SD
