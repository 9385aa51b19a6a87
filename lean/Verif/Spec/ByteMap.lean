import Verif.Spec.Queue

/-!
# Specification of a storage that keeps everything

A file as a map from positions to the last byte written there.  Positions inside
the file that were never written read as zero.
-/

namespace SD

/-- An operation on a file with an independent reader and writer.  `read` is what
the stream does: it asks the reader for its position first (lib.rs 552, 556). -/
inductive FOp where
  | write (bs : List Byte)
  | wseek (p : Nat)
  | read (n : Nat)
  | rseek (p : Nat)
  deriving DecidableEq, Repr

/-- Run one operation on a storage. -/
def Storage.doF (S : Storage) (s : S.σ) : FOp → SOut × S.σ
  | .write bs =>
    match S.write s bs with
    | .ok (k, s') => (.wrote k, s')
    | .err _ => (.failed, s)
    | .panic => (.crashed, s)
  | .wseek p =>
    match S.wseek s p with
    | .ok s' => (.sought, s')
    | .err _ => (.failed, s)
    | .panic => (.crashed, s)
  | .read n =>
    match S.read (S.tell s).2 n with
    | .ok (bs, s') => (.got bs, s')
    | .err _ => (.failed, (S.tell s).2)
    | .panic => (.crashed, (S.tell s).2)
  | .rseek p =>
    match S.rseek s p with
    | .ok s' => (.sought, s')
    | .err _ => (.failed, s)
    | .panic => (.crashed, s)

/-- Everything observed while running a list of operations. -/
def Storage.outputsF (S : Storage) : S.σ → List FOp → List SOut
  | _, [] => []
  | s, op :: ops => (S.doF s op).1 :: S.outputsF (S.doF s op).2 ops

/-- The state after a list of operations. -/
def Storage.afterF (S : Storage) : S.σ → List FOp → S.σ
  | s, [] => s
  | s, op :: ops => S.afterF (S.doF s op).2 ops

/-- The abstract file: last byte written at each position, length, number of
bytes written in total, reader and writer position. -/
structure BMap where
  val : Nat → Option Byte
  len : Nat
  total : Nat
  rp : Nat
  wp : Nat

namespace BMap

/-- A file of the given length in which nothing has been written. -/
def empty (len : Nat) : BMap := { val := fun _ => none, len := len, total := 0, rp := 0, wp := 0 }

/-- Overwrite positions `p, p+1, ...` with `bs`. -/
def put (f : Nat → Option Byte) (p : Nat) (bs : List Byte) : Nat → Option Byte :=
  fun q => if p ≤ q ∧ q < p + bs.length then bs[q - p]? else f q

/-- `m` bytes from position `p`, zero where nothing was written. -/
def bytes (f : BMap) (p m : Nat) : List Byte :=
  (List.range m).map (fun i => (f.val (p + i)).getD 0)

/-- A write at the writer's position. -/
def write (f : BMap) (bs : List Byte) : BMap :=
  { f with val := put f.val f.wp bs, len := max f.len (f.wp + bs.length),
           total := f.total + bs.length, wp := f.wp + bs.length }

/-- A file on disk: reads stop at the end of the file; an empty write has no
effect. -/
def fileStep (f : BMap) : FOp → SOut × BMap
  | .write bs => if bs = [] then (.wrote 0, f) else (.wrote bs.length, f.write bs)
  | .wseek p => (.sought, { f with wp := p })
  | .read n =>
    (.got (f.bytes f.rp (min n (f.len - f.rp))), { f with rp := f.rp + min n (f.len - f.rp) })
  | .rseek p => (.sought, { f with rp := p })

/-- Memory storage: a read beyond the end crashes, and no read returns more bytes
than have been written in total. -/
def memStep (f : BMap) : FOp → SOut × BMap
  | .write bs => (.wrote bs.length, f.write bs)
  | .wseek p => (.sought, { f with wp := p })
  | .read n =>
    if f.len < f.rp then (.crashed, f)
    else
      (.got (f.bytes f.rp (min (min (f.len - f.rp) f.total) n)),
        { f with rp := f.rp + min (min (f.len - f.rp) f.total) n })
  | .rseek p => (.sought, { f with rp := p })

/-- Everything the abstract file answers. -/
def outputs (step : BMap → FOp → SOut × BMap) : BMap → List FOp → List SOut
  | _, [] => []
  | f, op :: ops => (step f op).1 :: outputs step (step f op).2 ops

/-- The abstract file after a list of operations. -/
def after (step : BMap → FOp → SOut × BMap) : BMap → List FOp → BMap
  | f, [] => f
  | f, op :: ops => after step (step f op).2 ops

end BMap

end SD
