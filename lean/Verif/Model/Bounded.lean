import Verif.Model.Storage

/-! # Bounded storage (`storage/bounded.rs`): a circular buffer over any storage -/

namespace SD

/-- storage/bounded.rs 112-140 and 265-272: the shared counters and the inner
reader/writer.  `read` and `written` are `usize` in the code; in builds without
overflow checks subtracting too much from them wraps, and adding to them later wraps
back.  Here they are integers, and `cnt` gives the machine's value. -/
structure Bnd (I : Storage) where
  inner : I.σ
  read : Int
  written : Int
  rp : Nat
  wp : Nat
  size : Nat

namespace Bnd

variable {I : Storage}

/-- The `usize` value (64-bit) of a counter: below zero it has wrapped around.  (That it
wraps around at 2^64 in the other direction is left out: that takes 2^64 bytes.) -/
def cnt (x : Int) : Int := if x < 0 then x + two64 else x

/-- `counter -= d` on `usize`: a build with overflow checks panics on underflow (so that
no counter is ever below zero there), other builds wrap. -/
def subCnt (checks : Bool) (x : Int) (d : Nat) : Res Int :=
  if checks = true ∧ 0 ≤ x ∧ x < d then .panic else .ok (x - d)

/-- storage/bounded.rs 76-85: the size is the smaller of content length and
configured buffer size. -/
def sizeFor (bufferSize : Nat) : Option Nat → Nat
  | some n => min n bufferSize
  | none => bufferSize

/-- storage/bounded.rs 72-108. -/
def mk? (P : Provider) (bufferSize : Nat) (contentLength : Option Nat) : Res (Bnd P.S) :=
  match P.create (some (sizeFor bufferSize contentLength)) with
  | .err k => .err k
  | .panic => .panic
  | .ok i =>
    .ok { inner := i, read := 0, written := 0, rp := 0, wp := 0,
          size := sizeFor bufferSize contentLength }

/-- storage/bounded.rs 121-127 (`mapped_read_position`, `mapped_write_position`):
position `pos + val` in the circular buffer; `%` by a zero size panics. -/
def mapped (size pos val : Nat) : Res Nat :=
  if size = 0 then .panic else .ok ((val + pos % size) % size)

/-- storage/bounded.rs 202-223: seek the inner reader to `start` and fill a buffer
of length `k`, wrapping around at `size`.  The inner slice expressions panic if
the first segment does not fit. -/
def readInner (checks : Bool) (I : Storage) (i : I.σ) (start endd size k : Nat) :
    Res (List Byte × I.σ) :=
  match I.rseek i start with
  | .err e => .err e
  | .panic => .panic
  | .ok i1 =>
    if start < endd then readExact I i1 k
    else
      match subU64 checks size start with
      | .err e => .err e
      | .panic => .panic
      | .ok first =>
        if k < first then .panic
        else
          match readExact I i1 first with
          | .err e => .err e
          | .panic => .panic
          | .ok (bs1, i2) =>
            match I.rseek i2 0 with
            | .err e => .err e
            | .panic => .panic
            | .ok i3 =>
              match readExact I i3 (k - first) with
              | .err e => .err e
              | .panic => .panic
              | .ok (bs2, i4) => .ok (bs1 ++ bs2, i4)

/-- storage/bounded.rs 147-230.  `read_position` does not overflow in the model (that
takes 2^64 bytes). -/
def readOp (checks : Bool) (s : Bnd I) (n : Nat) : Res (List Byte × Bnd I) :=
  if s.size < n then .err .invalidInput
  else if s.size < s.wp - s.rp then .err .invalidInput
  else if cnt s.written ≤ cnt s.read then .ok ([], s)
  else
    let k := min (s.wp - s.rp) n
    if k = 0 then .ok ([], s)
    else
      match mapped s.size s.rp 0, mapped s.size s.rp (k - 1) with
      | .ok start, .ok last =>
        match readInner checks I s.inner start (last + 1) (min s.size s.wp) k with
        | .err e => .err e
        | .panic => .panic
        | .ok (bs, i) => .ok (bs, { s with inner := i, rp := s.rp + k, read := s.read + k })
      | _, _ => .panic

/-- storage/bounded.rs 251-260. -/
def seekPos (checks : Bool) (position : Nat) : SeekFrom → Res Nat
  | .start p => .ok p
  | .current d => addCast checks position d
  | .fromEnd _ => .err .unsupported

/-- storage/bounded.rs 238-248 for an absolute target: the `read` counter is
reduced by the distance of a backward seek (and not increased by a forward
one). -/
def rseek (checks : Bool) (s : Bnd I) (p : Nat) : Res (Bnd I) :=
  match subCnt checks s.read (s.rp - p) with
  | .err e => .err e
  | .panic => .panic
  | .ok r => .ok { s with read := r, rp := p }

/-- storage/bounded.rs 303-321: seek the inner writer to `start` and write `bs`,
wrapping around at `size`. -/
def writeInner (checks : Bool) (I : Storage) (i : I.σ) (start endd size : Nat) (bs : List Byte) :
    Res I.σ :=
  match I.wseek i start with
  | .err e => .err e
  | .panic => .panic
  | .ok i1 =>
    if start < endd then writeAll I i1 bs
    else
      match subU64 checks size start with
      | .err e => .err e
      | .panic => .panic
      | .ok first =>
        if bs.length < first then .panic
        else
          match writeAll I i1 (bs.take first) with
          | .err e => .err e
          | .panic => .panic
          | .ok i2 =>
            match I.wseek i2 0 with
            | .err e => .err e
            | .panic => .panic
            | .ok i3 => writeAll I i3 (bs.drop first)

/-- storage/bounded.rs 279-330: write as much as fits.  Flushing the inner writer
is not modelled. -/
def writeOp (checks : Bool) (s : Bnd I) (bs : List Byte) : Res (Nat × Bnd I) :=
  let k := min (s.size - (s.wp - s.rp)) bs.length
  if k = 0 then .ok (0, s)
  else
    match mapped s.size s.wp 0, mapped s.size s.wp (k - 1) with
    | .ok start, .ok last =>
      match writeInner checks I s.inner start (last + 1) s.size (bs.take k) with
      | .err e => .err e
      | .panic => .panic
      | .ok i => .ok (k, { s with inner := i, wp := s.wp + k, written := s.written + k })
    | _, _ => .panic

/-- storage/bounded.rs 342-349 for an absolute target. -/
def wseek (checks : Bool) (s : Bnd I) (p : Nat) : Res (Bnd I) :=
  match subCnt checks s.written (s.wp - p) with
  | .err e => .err e
  | .panic => .panic
  | .ok w => .ok { s with written := w, wp := p }

end Bnd

/-- `BoundedStorageReader`/`BoundedStorageWriter` over the storage `I`.
`stream_position()` is `seek(SeekFrom::Current(0))`, which changes nothing. -/
abbrev bndStorage (checks : Bool) (I : Storage) : Storage where
  σ := Bnd I
  tell s := (s.rp, s)
  read := Bnd.readOp checks
  rseek := Bnd.rseek checks
  wtell s := s.wp
  write := Bnd.writeOp checks
  wseek := Bnd.wseek checks

/-- `BoundedStorageProvider::new(inner, buffer_size)`, storage/bounded.rs 53-109. -/
abbrev bndProvider (checks : Bool) (P : Provider) (bufferSize : Nat) : Provider where
  S := bndStorage checks P.S
  create := Bnd.mk? P bufferSize
  maxCapacity := some bufferSize

end SD
