import Verif.Spec.LiveSystem
import Verif.Spec.RequestsSource

/-!
# Vocabulary for sources of which nothing is known
-/

namespace SD

variable {S : Storage} {R : Source}

/-- All that is asked of a source: chunks have bytes, nothing comes after the end of the stream until
the source is asked for another range, and neither `seek_range` nor `reconnect` panics. -/
def Polite (w : XSys R S) : XAct R → Prop
  | .sys _ => True
  | .poll e => ∀ bs, (R.poll w.src e).1 = .chunk bs → bs ≠ [] ∧ w.sys.tend = false
  | .seekRange e => ∀ start stop, w.sys.spc = .seeking start stop → (R.seekRange w.src e start stop).1 ≠ .panic
  | .reconnect e => ∀ p, w.sys.spc = .reconn p → (R.reconnect w.src e p).1 ≠ .panic

/-- How often the source has said that it is at its end. -/
def xEnds (h : List (XSys R S × XAct R)) : Nat :=
  h.countP fun x => match x.2 with
    | .poll e => decide ((R.poll x.1.src e).1 = .done)
    | _ => false

/-- Bytes arrive, of whatever kind: while the task waits for the source, it delivers a chunk again and again. -/
def XKeepsDelivering (r : Nat → XSys R S) (act : Nat → Option (XAct R)) : Prop :=
  Working (fun i => (r i).sys) fun j => ∃ e bs, act j = some (.poll e) ∧ (R.poll (r j).src e).1 = .chunk bs

end SD
