import Verif.Model.Storage

/-! # Temp-file storage (`storage/temp.rs`) -/

namespace SD

/-- storage/temp.rs 107-141: one file, a `File` writer with offset `wp`, and a
`BufReader` over the original handle with file offset `fp` and the not yet
consumed part `rbuf` of its buffer.  `reopen` (line 126) makes the two offsets
independent. -/
structure Tmp where
  file : List Byte
  wp : Nat
  fp : Nat
  rbuf : List Byte
  deriving DecidableEq, Repr

namespace Tmp

/-- Default capacity of `std::io::BufReader`. -/
def bufCap : Nat := 8192

/-- storage/temp.rs 107-134: an empty file; the content length is ignored.  File
creation errors are not modelled. -/
def mk? (_contentLength : Option Nat) : Res Tmp :=
  .ok { file := [], wp := 0, fp := 0, rbuf := [] }

/-- storage/temp.rs 144-146, `BufReader::read` (std): if the buffer is empty and
the request is at least as large as the buffer, read the file directly; otherwise
refill the buffer if it is empty and copy from it. -/
def read (s : Tmp) (n : Nat) : Res (List Byte × Tmp) :=
  if s.rbuf = [] then
    if bufCap ≤ n then
      let bs := (s.file.drop s.fp).take n
      .ok (bs, { s with fp := s.fp + bs.length })
    else
      let filled := (s.file.drop s.fp).take bufCap
      .ok (filled.take n, { s with fp := s.fp + filled.length, rbuf := filled.drop n })
  else
    .ok (s.rbuf.take n, { s with rbuf := s.rbuf.drop n })

/-- storage/temp.rs 150-152 with `SeekFrom::Current(0)`, i.e. the provided
`Seek::stream_position` (it is not overridden for `TempStorageReader`):
`BufReader::seek` (std) moves the file offset back by the unconsumed part of the
buffer and discards the buffer. -/
def tell (s : Tmp) : Nat × Tmp :=
  (s.fp - s.rbuf.length, { s with fp := s.fp - s.rbuf.length, rbuf := [] })

/-- storage/temp.rs 150-152 with `SeekFrom::Start(p)`: `BufReader::seek` seeks the
file and discards the buffer. -/
def rseek (s : Tmp) (p : Nat) : Res Tmp := .ok { s with fp := p, rbuf := [] }

/-- `File::write`: overwrites or extends the file; a write beyond the end leaves a
hole of zeros; writing nothing changes nothing. -/
def write (s : Tmp) (bs : List Byte) : Res (Nat × Tmp) :=
  if bs = [] then .ok (0, s)
  else .ok (bs.length, { s with file := splice s.file s.wp bs, wp := s.wp + bs.length })

end Tmp

/-- `TempStorageReader` and `File` as a storage. -/
abbrev tmpStorage : Storage where
  σ := Tmp
  tell := Tmp.tell
  read := Tmp.read
  rseek := Tmp.rseek
  wtell s := s.wp
  write := Tmp.write
  wseek s p := .ok { s with wp := p }

/-- `TempStorageProvider`, storage/temp.rs 103-135. -/
abbrev tmpProvider : Provider where
  S := tmpStorage
  create := Tmp.mk?
  maxCapacity := none

end SD
