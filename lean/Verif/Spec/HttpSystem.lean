import Verif.Model.HttpSystem
import Verif.Spec.Http
import Verif.Spec.System

/-!
# Vocabulary for the system with an HTTP source
-/

namespace SD

variable {S : Storage}

/-- A stream created by `HttpStream::new` with a server that answers like `answer`, and the
system around it, with provider `P` (lib.rs 385-425). -/
def HStarts (P : Provider) (c : Cfg) (mime : Text → Option (Text × Text)) (answer : Answer)
    (w0 : HSys P.S) : Prop :=
  httpNew mime answer = .ok w0.http ∧ c.contentLength = w0.http.contentLength ∧
    c.supportsSeek = true ∧ Starts P c w0.sys

/-- The server that an action talks to. -/
def HAct.answer : HAct → Option Answer
  | .seekRange answer | .reconnect answer => some answer
  | _ => none

/-- `w` is reachable from `w0` by actions that satisfy `G`, while every answer of the server
satisfies `A`. -/
inductive HReach (c : Cfg) (A : Answer → Prop) (G : HSys S → HAct → Prop) (w0 : HSys S) : HSys S → Prop
  | refl : HReach c A G w0 w0
  | step {w w' : HSys S} {a : HAct} : HReach c A G w0 w → (∀ answer, a.answer = some answer → A answer) →
      G w a → hstep c w a = some w' → HReach c A G w0 w'

/-! ### Restrictions on histories -/

/-- The consumer does not seek. -/
def HNoSeek (_ : HSys S) (a : HAct) : Prop := ∀ f, a ≠ .sys (.seek f)

/-- The consumer only seeks to positions at or after its own. -/
def HForward (c : Cfg) (w : HSys S) (a : HAct) : Prop :=
  ∀ f p, a = .sys (.seek f) → c.absolute (S.tell w.sys.st).1 f = .ok p →
    (S.tell w.sys.st).1 ≤ c.normalize p

/-- The consumer only goes back over bytes that it has read or that are downloaded. -/
def HConnected (c : Cfg) (w : HSys S) (a : HAct) : Prop :=
  ∀ f p, a = .sys (.seek f) → c.absolute (S.tell w.sys.st).1 f = .ok p →
    ∀ q, c.normalize p ≤ q → q < (S.tell w.sys.st).1 → Seen w.sys.log q ∨ RSet.Mem w.sys.dl q

/-- The task does not ask for an empty or inverted range, except at the end of the resource. -/
def RangesOk (w : HSys S) (_ : HAct) : Prop :=
  ∀ start e, w.sys.spc = .seeking start (some e) → start < e ∨ w.http.contentLength = some start

/-- No reconnect takes place while received bytes are waiting to be written. -/
def HClean (w : HSys S) (a : HAct) : Prop := ∀ answer, a = .reconnect answer → w.sys.rem = none

/-- The server offers `remote`, honours ranges, and says that it does. -/
def RangeServer (remote : List Byte) (answer : Answer) : Prop :=
  Honours remote answer ∧ OffersRanges answer

end SD
