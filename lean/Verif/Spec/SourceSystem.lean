import Verif.Model.SourceSystem
import Verif.Spec.Readers
import Verif.Spec.System

/-!
# Vocabulary for the system with a source that is a program
-/

namespace SD

variable {S : Storage}

/-- What is assumed of the world outside of the source: which polls and which answers to
`seek_range` and `reconnect` can occur. -/
structure World (R : Source) where
  poll : R.τ → R.PollEnv → Prop
  seek : Nat → Option Nat → R.SeekEnv → Prop

/-- The world allows the action. -/
def World.Allows {R : Source} (W : World R) (w : XSys R S) : XAct R → Prop
  | .sys _ => True
  | .poll e => W.poll w.src e
  | .seekRange e => ∀ start stop, w.sys.spc = .seeking start stop → W.seek start stop e
  | .reconnect e => ∀ p, w.sys.spc = .reconn p → W.seek p none e

/-- `w` is reachable from `w0` by actions that satisfy `G` in the world `W`. -/
inductive XReach {R : Source} (c : Cfg) (W : World R) (G : XSys R S → XAct R → Prop) (w0 : XSys R S) :
    XSys R S → Prop
  | refl : XReach c W G w0 w0
  | step {w w' : XSys R S} {a : XAct R} : XReach c W G w0 w → W.Allows w a → G w a →
      xstep R c w a = some w' → XReach c W G w0 w'

/-! ### Restrictions on histories -/

/-- No restriction. -/
def XAny {R : Source} (_ : XSys R S) (_ : XAct R) : Prop := True

/-- The consumer does not seek. -/
def XNoSeek {R : Source} (_ : XSys R S) (a : XAct R) : Prop := ∀ f, a ≠ .sys (.seek f)

/-- The consumer only seeks to positions at or after its own. -/
def XForward {R : Source} (c : Cfg) (w : XSys R S) (a : XAct R) : Prop :=
  ∀ f p, a = .sys (.seek f) → c.absolute (S.tell w.sys.st).1 f = .ok p →
    (S.tell w.sys.st).1 ≤ c.normalize p

/-- The consumer only goes back over bytes that it has read or that are downloaded. -/
def XConnected {R : Source} (c : Cfg) (w : XSys R S) (a : XAct R) : Prop :=
  ∀ f p, a = .sys (.seek f) → c.absolute (S.tell w.sys.st).1 f = .ok p →
    ∀ q, c.normalize p ≤ q → q < (S.tell w.sys.st).1 → Seen w.sys.log q ∨ RSet.Mem w.sys.dl q

/-- No reconnect takes place while received bytes are waiting to be written. -/
def XClean {R : Source} (w : XSys R S) (a : XAct R) : Prop := ∀ e, a = .reconnect e → w.sys.rem = none

/-! ### The two worlds -/

/-- An object store that offers `object`: readers deliver any part of what they still have
that fits, fail at any time, and say that they are at the end only there; a new reader
delivers the range it was asked for (nothing if the range is inverted), or cannot be made. -/
def storeWorld (object : List Byte) : World opendalSource where
  poll s e := (∀ n, n ≤ e.1 n) ∧ OpendalStream.Allows e.1 s e.2
  seek start stop e := e ≠ .panic ∧ ∀ rest, e = .ok rest → rest = bytesIn object start stop

/-- A reader: it delivers any part of what it still has that fits, and says that it is at the
end only there.  With `errors` it may fail. -/
def readerWorld (errors : Bool) : World asyncReadSource where
  poll s e := (∀ n, n ≤ e.1 n) ∧ AsyncReadStream.Allows e.1 s e.2 ∧ (errors = false → e.2 ≠ .err)
  seek _ _ _ := True

/-- A stream over an object, as `OpendalStream::new` creates it, and the system around it.
The store reports the length of the object correctly. -/
def OStarts (P : Provider) (c : Cfg) (object : List Byte) (w0 : XSys opendalSource P.S) : Prop :=
  (∃ alloc : Nat → Nat, ∃ chunkSize, (∀ n, n ≤ alloc n) ∧ 0 < chunkSize ∧
    w0.src = opendalNew alloc chunkSize object object.length ∧ c.contentLength = w0.src.contentLength) ∧
    c.supportsSeek = true ∧ Starts P c w0.sys

/-- A stream over a reader that delivers `bytes`, as `AsyncReadStream::new` creates it, and
the system around it. -/
def RStarts (P : Provider) (c : Cfg) (bytes : List Byte) (w0 : XSys asyncReadSource P.S) : Prop :=
  w0.src = asyncReadNew bytes c.contentLength ∧ c.supportsSeek = w0.src.supportsSeek ∧ Starts P c w0.sys

end SD
