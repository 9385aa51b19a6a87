import Verif.Model.Storage

/-!
# Specifications for bounded storage

Operations of a consumer and a producer on a storage, what they observe, and two
small abstract machines: a FIFO queue (no seeks) and a tape with a window (with
seeks).
-/

namespace SD

/-- An operation on a storage: the producer writes, the consumer reads into a
buffer of the given length or moves to an absolute position. -/
inductive SOp where
  | write (bs : List Byte)
  | read (n : Nat)
  | seek (p : Nat)
  deriving DecidableEq, Repr

/-- What the caller of an operation observes. -/
inductive SOut where
  | wrote (k : Nat)
  | got (bs : List Byte)
  | sought
  /-- an `InvalidInput` error -/
  | rejected
  /-- any other error -/
  | failed
  | crashed
  deriving DecidableEq, Repr

/-- Run one operation on a storage. -/
def Storage.doOp (S : Storage) (s : S.σ) : SOp → SOut × S.σ
  | .write bs =>
    match S.write s bs with
    | .ok (k, s') => (.wrote k, s')
    | .err .invalidInput => (.rejected, s)
    | .err _ => (.failed, s)
    | .panic => (.crashed, s)
  | .read n =>
    match S.read s n with
    | .ok (bs, s') => (.got bs, s')
    | .err .invalidInput => (.rejected, s)
    | .err _ => (.failed, s)
    | .panic => (.crashed, s)
  | .seek p =>
    match S.rseek s p with
    | .ok s' => (.sought, s')
    | .err .invalidInput => (.rejected, s)
    | .err _ => (.failed, s)
    | .panic => (.crashed, s)

/-- Everything observed while running a list of operations. -/
def Storage.outputs (S : Storage) : S.σ → List SOp → List SOut
  | _, [] => []
  | s, op :: ops => (S.doOp s op).1 :: S.outputs (S.doOp s op).2 ops

/-- The state after a list of operations. -/
def Storage.after (S : Storage) : S.σ → List SOp → S.σ
  | s, [] => s
  | s, op :: ops => S.after (S.doOp s op).2 ops

/-- How many bytes a bounded storage of the given buffer size holds: a shorter
content needs less. -/
def boundedCap (bufferSize : Nat) : Option Nat → Nat
  | none => bufferSize
  | some contentLength => min contentLength bufferSize

/-! ### FIFO queue of at most `cap` bytes -/

/-- One operation on a FIFO queue (it has no seek: `q` is unchanged). -/
def Fifo.step (cap : Nat) (q : List Byte) : SOp → SOut × List Byte
  | .write bs => (.wrote (min (cap - q.length) bs.length), q ++ bs.take (cap - q.length))
  | .read n => if cap < n then (.rejected, q) else (.got (q.take n), q.drop n)
  | .seek _ => (.failed, q)

/-- Everything a FIFO queue answers. -/
def Fifo.outputs (cap : Nat) : List Byte → List SOp → List SOut
  | _, [] => []
  | q, op :: ops => (Fifo.step cap q op).1 :: Fifo.outputs cap (Fifo.step cap q op).2 ops

/-! ### Tape: the whole history, of which the last `cap` bytes can be read -/

/-- All bytes written so far, the consumer's position, and how far back the
consumer may still move (bytes read so far minus distances moved back). -/
structure Tape where
  hist : List Byte
  pos : Nat
  credit : Nat

/-- One operation on a tape. -/
def Tape.step (cap : Nat) (t : Tape) : SOp → SOut × Tape
  | .write bs =>
    (.wrote (min (cap - (t.hist.length - t.pos)) bs.length),
      { t with hist := t.hist ++ bs.take (cap - (t.hist.length - t.pos)) })
  | .read n =>
    if cap < n ∨ t.pos + cap < t.hist.length then (.rejected, t)
    else
      (.got ((t.hist.drop t.pos).take n),
        { t with pos := t.pos + ((t.hist.drop t.pos).take n).length
                 credit := t.credit + ((t.hist.drop t.pos).take n).length })
  | .seek p => (.sought, { t with pos := p, credit := t.credit - (t.pos - p) })

/-- Everything a tape answers. -/
def Tape.outputs (cap : Nat) : Tape → List SOp → List SOut
  | _, [] => []
  | t, op :: ops => (Tape.step cap t op).1 :: Tape.outputs cap (Tape.step cap t op).2 ops

/-- The tape after a list of operations. -/
def Tape.after (cap : Nat) : Tape → List SOp → Tape
  | t, [] => t
  | t, op :: ops => Tape.after cap (Tape.step cap t op).2 ops

/-- No backward move is longer than the credit. -/
def Tape.Legal (cap : Nat) : Tape → List SOp → Prop
  | _, [] => True
  | t, op :: ops =>
    (∀ p, op = .seek p → t.pos ≤ p + t.credit) ∧ Tape.Legal cap (Tape.step cap t op).2 ops

/-- The empty tape. -/
def Tape.empty : Tape := { hist := [], pos := 0, credit := 0 }

end SD
