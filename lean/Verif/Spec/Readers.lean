import Verif.Model.Readers
import Verif.Spec.Http

/-!
# Specification of the sources on top of byte readers

Polls, their answers, and the life of a stream together with the range of the object that
has been asked for and not delivered yet.
-/

namespace SD

/-- Polls of a stream, with their answers.  In each poll the allocator may provide any room
that suffices and the reader may deliver any part of its rest that fits. -/
inductive Polls {S : Type} (allows : (Nat → Nat) → S → ReadAns → Prop)
    (poll : (Nat → Nat) → S → ReadAns → PollAns × S) : S → List PollAns → S → Prop where
  | nil (s : S) : Polls allows poll s [] s
  | cons {s s' : S} {alloc : Nat → Nat} {a : ReadAns} {l : List PollAns}
      (halloc : ∀ n, n ≤ alloc n) (ha : allows alloc s a)
      (h : Polls allows poll (poll alloc s a).2 l s') :
      Polls allows poll s ((poll alloc s a).1 :: l) s'

/-- The bytes of a sequence of answers. -/
def PollAns.bytes : PollAns → List Byte
  | .chunk bs => bs
  | _ => []

/-- The bytes delivered by a sequence of answers. -/
def polled (l : List PollAns) : List Byte := l.flatMap PollAns.bytes

/-- What the underlying reader of an OpenDAL stream may answer. -/
def OpendalStream.Allows (alloc : Nat → Nat) (s : OpendalStream) (a : ReadAns) : Prop :=
  (s.reader.prepare alloc s.capacity).Allows alloc a

/-- What the underlying reader of a reader stream may answer. -/
def AsyncReadStream.Allows (alloc : Nat → Nat) (s : AsyncReadStream) (a : ReadAns) : Prop :=
  (s.reader.prepare alloc 4096).Allows alloc a

/-- The answer to a call of a stream over a reader. -/
inductive ReaderAns where
  | polled (p : PollAns)
  | sought (r : Res Unit)
  | reconnected (r : Res Unit)

/-- The answer to a poll. -/
def ReaderAns.poll? : ReaderAns → Option PollAns
  | .polled p => some p
  | _ => none

/-- Calls of a stream over a reader in any order, with their answers: polls as in `Polls`,
seeks and reconnects. -/
inductive ReaderLife : AsyncReadStream → List ReaderAns → AsyncReadStream → Prop where
  | nil (s : AsyncReadStream) : ReaderLife s [] s
  | poll {s s' : AsyncReadStream} {alloc : Nat → Nat} {a : ReadAns} {l : List ReaderAns}
      (halloc : ∀ n, n ≤ alloc n) (ha : s.Allows alloc a) (h : ReaderLife (s.pollNext alloc a).2 l s') :
      ReaderLife s (.polled (s.pollNext alloc a).1 :: l) s'
  | seek {s s' : AsyncReadStream} {l : List ReaderAns} (start : Nat) (stop : Option Nat)
      (h : ReaderLife (s.seekRange start stop).2 l s') :
      ReaderLife s (.sought (s.seekRange start stop).1 :: l) s'
  | reconnect {s s' : AsyncReadStream} {l : List ReaderAns} (pos : Nat)
      (h : ReaderLife (s.reconnect pos).2 l s') : ReaderLife s (.reconnected (s.reconnect pos).1 :: l) s'

/-- The life of an OpenDAL stream for an object: created, polled and sought in any order,
with failures.  What has been asked for and not delivered yet is the range that starts at
`pos` and ends at `stop`, or at the end of the object.  `room` is the most the allocator
provides if it is asked for the chunk size. -/
inductive OpendalLife (object : List Byte) (chunkSize room : Nat) :
    OpendalStream → Nat → Option Nat → Prop
  | new {alloc : Nat → Nat} (stat : Nat) (hle : ∀ n, n ≤ alloc n) (hroom : alloc chunkSize ≤ room) :
      OpendalLife object chunkSize room (opendalNew alloc chunkSize object stat) 0 none
  | poll {s : OpendalStream} {pos : Nat} {stop : Option Nat} {alloc : Nat → Nat} {a : ReadAns}
      (h : OpendalLife object chunkSize room s pos stop) (hle : ∀ n, n ≤ alloc n)
      (hroom : alloc chunkSize ≤ room) (ha : s.Allows alloc a) :
      OpendalLife object chunkSize room (s.pollNext alloc a).2 (pos + (s.pollNext alloc a).1.bytes.length) stop
  | seek {s : OpendalStream} {pos : Nat} {stop : Option Nat} (start : Nat) (stop' : Option Nat)
      (h : OpendalLife object chunkSize room s pos stop) :
      OpendalLife object chunkSize room (s.seekRange true (bytesIn object start stop')).2 start stop'
  | seekErr {s : OpendalStream} {pos : Nat} {stop : Option Nat} (rest : List Byte)
      (h : OpendalLife object chunkSize room s pos stop) :
      OpendalLife object chunkSize room (s.seekRange false rest).2 pos stop

end SD
