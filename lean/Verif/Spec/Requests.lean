import Verif.Spec.Live
import Verif.Spec.HttpSystem

/-!
# Specification: what a history asks of the source

Vocabulary for "how often": finite histories with all their steps, and the numbers of the
things that happen in them.
-/

namespace SD

variable {S : Storage}

/-- A finite history of a machine with steps `f`, from `w0` to `w`: the steps that were taken, newest
first, each with the state it was taken in. -/
inductive Hist {W A : Type} (f : W → A → Option W) (w0 : W) : List (W × A) → W → Prop
  | nil : Hist f w0 [] w0
  | cons {h : List (W × A)} {w w' : W} {a : A} :
      Hist f w0 h w → f w a = some w' → Hist f w0 ((w, a) :: h) w'

/-- The consumer calls `seek`. -/
def Act.isSeek : Act → Bool
  | .seek _ => true
  | _ => false

/-- How often the consumer has called `seek`. -/
def seekCalls (h : List (Sys S × Act)) : Nat := h.countP fun x => x.2.isSeek

/-- The connection ends although neither the declared length nor the end of the range that it was
asked for is reached. -/
def breaksOff (c : Cfg) (s : Sys S) (a : Act) : Bool :=
  (match a with | .eof => true | _ => false) &&
    (match c.contentLength with | some n => decide (s.tpos < n) | none => true) &&
    (match s.tlim with | some b => decide (s.tpos < b) | none => true)

/-- How many connections have broken off. -/
def breakOffs (c : Cfg) (h : List (Sys S × Act)) : Nat := h.countP fun x => breaksOff c x.1 x.2

/-- `seek_range` was called. -/
def Ev.isSeekRange : Ev → Bool
  | .seekRange _ _ => true
  | _ => false

/-- How often the source was asked for a range. -/
def rangeRequests (log : List Ev) : Nat := log.countP Ev.isSeekRange

/-- The positions of the resource from which the step receives bytes. -/
def receivedAt (s : Sys S) : Act → List Nat
  | .chunk n => List.range' s.tpos n
  | _ => []

/-- The positions of all bytes that were received, over all connections. -/
def receivedFrom (h : List (Sys S × Act)) : List Nat := h.flatMap fun x => receivedAt x.1 x.2

/-- A reconnect only succeeds while the connection is to deliver everything up to the end of the
resource, and not just a part of it that ends earlier. -/
def ReconnectsToEnd (c : Cfg) (s : Sys S) (a : Act) : Prop :=
  ∀ pos, a = .reconnOk pos → s.tlim = none ∨ s.tlim = c.contentLength

/-! ### HTTP -/

/-- How often the consumer has called `seek`. -/
def hSeekCalls (h : List (HSys S × HAct)) : Nat :=
  h.countP fun x => match x.2 with | .sys a => a.isSeek | _ => false

/-- The body ends before all of it was received. -/
def hBreaksOff (w : HSys S) : HAct → Bool
  | .sys .eof => w.http.stream != []
  | _ => false

/-- How many bodies have ended before all of them was received. -/
def hBreakOffs (h : List (HSys S × HAct)) : Nat := h.countP fun x => hBreaksOff x.1 x.2

/-- How many bytes of bodies were received, over all connections. -/
def hReceived (h : List (HSys S × HAct)) : Nat := (h.map fun x => match x.2 with | .chunk n => n | _ => 0).sum

/-- `ReconnectsToEnd` for HTTP. -/
def HReconnectsToEnd (c : Cfg) (w : HSys S) (a : HAct) : Prop :=
  ∀ answer, a = .reconnect answer → w.sys.tlim = none ∨ w.sys.tlim = c.contentLength

end SD
