import Verif.Model.Http

/-!
# Model of the sources on top of byte readers

`stream-download-opendal/src/lib.rs`, and `async_read.rs` with `tokio_util::io::ReaderStream`.
Both read into a `BytesMut` with `tokio_util::io::poll_read_buf` and hand out what they read
with `split`.  A poll that is pending changes nothing and is not modelled.
-/

namespace SD

/-- What an underlying `poll_read` into a buffer answers: `n` bytes or an error. -/
inductive ReadAns where
  | data (n : Nat)
  | err
  deriving DecidableEq, Repr

/-- What `poll_next` answers. -/
inductive PollAns where
  | chunk (bs : List Byte)
  | err
  | done
  deriving DecidableEq, Repr

/-- A reader and the buffer (`BytesMut`): what the reader still delivers, what is in the
buffer, and how much fits in addition (`capacity() - len()`). -/
structure BufReader where
  rest : List Byte
  buf : List Byte
  spare : Nat
  deriving DecidableEq, Repr

/-- `BytesMut::reserve(n)` for an allocator that provides room for `alloc n ≥ n` bytes when
asked for `n`. -/
def BufReader.reserve (alloc : Nat → Nat) (b : BufReader) (n : Nat) : BufReader :=
  if b.spare < n then { b with spare := alloc n } else b

/-- `tokio_util::io::poll_read_buf`: `BytesMut::chunk_mut` makes room for 64 bytes if the
buffer is full; the bytes that were read are appended. -/
def BufReader.pollRead (alloc : Nat → Nat) (b : BufReader) (a : ReadAns) : Option Nat × BufReader :=
  let b := if b.spare = 0 then b.reserve alloc 64 else b
  match a with
  | .data n => (some n, { rest := b.rest.drop n, buf := b.buf ++ b.rest.take n, spare := b.spare - n })
  | .err => (none, b)

/-- A reader delivers at most what fits and what is left, and nothing only at its end: the
contract of `AsyncRead` for a buffer that is not empty. -/
def BufReader.Allows (alloc : Nat → Nat) (b : BufReader) : ReadAns → Prop
  | .data n => n ≤ (if b.spare = 0 then b.reserve alloc 64 else b).spare ∧ n ≤ b.rest.length ∧
      (n = 0 ↔ b.rest = [])
  | .err => True

/-- The room that is made before a read: opendal lib.rs 227-229 and `ReaderStream::poll_next`. -/
def BufReader.prepare (alloc : Nat → Nat) (size : Nat) (b : BufReader) : BufReader :=
  if b.buf.length + b.spare = 0 then b.reserve alloc size else b

/-- opendal lib.rs 221-239, `poll_next`; `BytesMut::split` leaves the room behind the data. -/
def BufReader.pollNext (alloc : Nat → Nat) (size : Nat) (b : BufReader) (a : ReadAns) : PollAns × BufReader :=
  match (b.prepare alloc size).pollRead alloc a with
  | (none, b') => (.err, b')
  | (some 0, b') => (.done, b')
  | (some (_ + 1), b') => (.chunk b'.buf, { b' with buf := [] })

/-- opendal lib.rs 117-125, `OpendalStream`. -/
structure OpendalStream where
  reader : BufReader
  capacity : Nat
  contentLength : Option Nat
  deriving DecidableEq, Repr

/-- opendal lib.rs 152-174, `OpendalStream::new`, for an object of the given bytes whose
length is reported as `stat`.  Errors of `stat` and `reader` are passed on. -/
def opendalNew (alloc : Nat → Nat) (chunkSize : Nat) (object : List Byte) (stat : Nat) : OpendalStream :=
  { reader := { rest := object, buf := [], spare := alloc chunkSize }
    capacity := chunkSize
    contentLength := if stat > 0 then some stat else none }

/-- opendal lib.rs 195-207, `seek_range`, and 209-211, `reconnect`: a new reader for the
range, the same buffer.  `ok` says whether the reader could be created; `rest` is what it
delivers. -/
def OpendalStream.seekRange (s : OpendalStream) (ok : Bool) (rest : List Byte) : Bool × OpendalStream :=
  if ok then (true, { s with reader := { s.reader with rest := rest } }) else (false, s)

/-- `poll_next` of the stream. -/
def OpendalStream.pollNext (alloc : Nat → Nat) (s : OpendalStream) (a : ReadAns) : PollAns × OpendalStream :=
  let r := s.reader.pollNext alloc s.capacity a
  (r.1, { s with reader := r.2 })

/-- async_read.rs 47-50, `AsyncReadStream`, with `ReaderStream`: the reader is given up after
its end and after an error. -/
structure AsyncReadStream where
  reader : BufReader
  gone : Bool
  contentLength : Option Nat
  deriving DecidableEq, Repr

/-- async_read.rs 57-65, `AsyncReadStream::new`; `ReaderStream::new` starts with an empty
buffer and uses a capacity of 4096. -/
def asyncReadNew (rest : List Byte) (contentLength : Option Nat) : AsyncReadStream :=
  { reader := { rest := rest, buf := [], spare := 0 }, gone := false, contentLength := contentLength }

/-- async_read.rs 109-114, `poll_next`, and `ReaderStream::poll_next`. -/
def AsyncReadStream.pollNext (alloc : Nat → Nat) (s : AsyncReadStream) (a : ReadAns) : PollAns × AsyncReadStream :=
  if s.gone then (.done, s)
  else
    match s.reader.pollNext alloc 4096 a with
    | (.chunk bs, r) => (.chunk bs, { s with reader := r })
    | (.err, r) => (.err, { s with reader := r, gone := true })
    | (.done, r) => (.done, { s with reader := r, gone := true })

/-- async_read.rs 88-93, `seek_range`. -/
def AsyncReadStream.seekRange (s : AsyncReadStream) (_ : Nat) (_ : Option Nat) : Res Unit × AsyncReadStream :=
  (.err .unsupported, s)
/-- async_read.rs 95-100, `reconnect`. -/
def AsyncReadStream.reconnect (s : AsyncReadStream) (_ : Nat) : Res Unit × AsyncReadStream :=
  (.err .unsupported, s)
/-- async_read.rs 84-86, `supports_seek`. -/
def AsyncReadStream.supportsSeek (_ : AsyncReadStream) : Bool := false

end SD
