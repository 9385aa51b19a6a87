import Verif.Model.Basic

/-!
# Storage interface

`storage/mod.rs` 15-41: a provider turns an optional content length into a reader
and a writer over the same storage, each with its own position.  The model keeps
reader, writer and the shared storage in one state `σ`.
-/

namespace SD

/-- A reader/writer pair over shared storage (`StorageReader`, `StorageWriter`,
storage/mod.rs 33-41), with the operations that `StreamDownload` and `Source`
use.  An operation that fails returns no new state: a caller keeps the previous
one.  (The storages below re-position themselves before every access, so what a
failed operation left behind in an inner file offset is never used.) -/
structure Storage where
  /-- state of storage, reader position and writer position -/
  σ : Type
  /-- `reader.stream_position()`; it takes `&mut self`, hence the new state -/
  tell : σ → Nat × σ
  /-- `reader.read(buf)` with `buf.len() = n`: the bytes read -/
  read : σ → Nat → Res (List Byte × σ)
  /-- `reader.seek(SeekFrom::Start(p))` (returns `p`) -/
  rseek : σ → Nat → Res σ
  /-- `writer.stream_position()` -/
  wtell : σ → Nat
  /-- `writer.write(bytes)`: the number of bytes written -/
  write : σ → List Byte → Res (Nat × σ)
  /-- `writer.seek(SeekFrom::Start(p))` (returns `p`) -/
  wseek : σ → Nat → Res σ

/-- `StorageProvider`, storage/mod.rs 15-31. -/
structure Provider where
  /-- the reader/writer pair it creates -/
  S : Storage
  /-- `into_reader_writer(content_length)` -/
  create : Option Nat → Res S.σ
  /-- `max_capacity()` -/
  maxCapacity : Option Nat

/-- `Read::read_exact` (std): read until the buffer of length `n` is full; an
empty read is an `UnexpectedEof` error.  `fuel` bounds the number of reads and is
always `n`, since every non-empty read makes progress. -/
def readExactF (S : Storage) : Nat → S.σ → Nat → Res (List Byte × S.σ)
  | _, s, 0 => .ok ([], s)
  | 0, _, _ + 1 => .err .unexpectedEof
  | fuel + 1, s, n + 1 =>
    match S.read s (n + 1) with
    | .err k => .err k
    | .panic => .panic
    | .ok (bs, s1) =>
      if bs = [] then .err .unexpectedEof
      else
        match readExactF S fuel s1 (n + 1 - bs.length) with
        | .err k => .err k
        | .panic => .panic
        | .ok (rest, s2) => .ok (bs ++ rest, s2)

/-- `read_exact` with a buffer of length `n`. -/
def readExact (S : Storage) (s : S.σ) (n : Nat) : Res (List Byte × S.σ) := readExactF S n s n

/-- `Write::write_all` (std): write until everything is written; a write of zero
bytes is a `WriteZero` error.  `fuel` is always the number of bytes. -/
def writeAllF (S : Storage) : Nat → S.σ → List Byte → Res S.σ
  | _, s, [] => .ok s
  | 0, _, _ :: _ => .err .writeZero
  | fuel + 1, s, b :: bs =>
    match S.write s (b :: bs) with
    | .err k => .err k
    | .panic => .panic
    | .ok (0, _) => .err .writeZero
    | .ok (k + 1, s1) => writeAllF S fuel s1 ((b :: bs).drop (k + 1))

/-- `write_all`. -/
def writeAll (S : Storage) (s : S.σ) (bs : List Byte) : Res S.σ := writeAllF S bs.length s bs

/-- Overwrite `f` with `bs` from position `p`, filling with zeros up to `p` if `f`
is shorter (`Vec::resize` + `copy_from_slice`; for a file, a write beyond its
end). -/
def splice (f : List Byte) (p : Nat) (bs : List Byte) : List Byte :=
  f.take p ++ List.replicate (p - f.length) 0 ++ bs ++ f.drop (p + bs.length)

end SD
