import Verif.Model.Storage

/-! # Memory storage (`storage/memory.rs`) -/

namespace SD

/-- storage/memory.rs 53-57: `inner` and `written` are shared, each handle has its
own `position`. -/
structure Mem where
  buf : List Byte
  written : Nat
  rp : Nat
  wp : Nat
  deriving DecidableEq, Repr

namespace Mem

/-- storage/memory.rs 23-48: the buffer is allocated with the content length and
filled with zeros.  The conversion `u64 -> usize` cannot fail on 64-bit targets
and allocation failure is not modelled. -/
def mk? (contentLength : Option Nat) : Res Mem :=
  .ok { buf := List.replicate (contentLength.getD 0) 0, written := 0, rp := 0, wp := 0 }

/-- storage/memory.rs 60-69.  `inner[position..position + read_len]` panics if the
position is beyond the end of the buffer (`read_len` is then 0). -/
def read (s : Mem) (n : Nat) : Res (List Byte × Mem) :=
  let available := min (s.buf.length - s.rp) s.written
  let readLen := min available n
  if s.buf.length < s.rp + readLen then .panic
  else .ok ((s.buf.drop s.rp).take readLen, { s with rp := s.rp + readLen })

/-- storage/memory.rs 73-83 for the reader handle: the new position.  The casts
wrap and no target is rejected. -/
def seekPos (checks : Bool) (s : Mem) (position : Nat) : SeekFrom → Res Nat
  | .start p => .ok p
  | .current d => addCast checks position d
  | .fromEnd d => addCast checks s.buf.length d

/-- storage/memory.rs 87-99. -/
def write (s : Mem) (bs : List Byte) : Res (Nat × Mem) :=
  .ok (bs.length,
    { s with
      buf := splice s.buf s.wp bs
      wp := s.wp + bs.length
      written := s.written + bs.length })

end Mem

/-- `MemoryStorage` as a storage.  `stream_position()` is the provided method
`seek(SeekFrom::Current(0))`, which returns the position (see
`Mem.seekPos_current_zero` in the proofs). -/
abbrev memStorage : Storage where
  σ := Mem
  tell s := (s.rp, s)
  read := Mem.read
  rseek s p := .ok { s with rp := p }
  wtell s := s.wp
  write := Mem.write
  wseek s p := .ok { s with wp := p }

/-- `MemoryStorageProvider`, storage/memory.rs 19-49 (`max_capacity` is the
default `None`, storage/mod.rs 28-30). -/
abbrev memProvider : Provider where
  S := memStorage
  create := Mem.mk?
  maxCapacity := none

end SD
