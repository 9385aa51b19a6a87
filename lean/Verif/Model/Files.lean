import Verif.Model.Temp

/-!
# Temporary files on a shared disk (`storage/temp.rs`)

Model/Temp gives every stream a file of its own.  Here any number of streams, and other
programs, share one disk: names lead to files, a file goes on without a name as long as it
is open, and names can be taken away or used again behind a stream's back.

From the `tempfile` crate (not in the sandbox, from its documentation): a file is made
under a name that nobody uses (`O_EXCL`; a name that is taken is tried no further, another
one is chosen); `reopen` opens the name again and fails if it does not lead to the same
file any more; dropping a `NamedTempFile` removes the name, whatever it leads to then.
-/

namespace SD

/-- A directory and a name in it. -/
structure Path where
  dir : String
  name : String
  deriving DecidableEq, Repr

/-- storage/temp.rs 27-31: where the files of a `TempStorageProvider` go.  A custom builder
is given by where it puts its file; what it is called depends on chance. -/
structure TempOpts where
  storageDir : Option String
  namePrefix : Option String
  tempfileFn : Option (String → Path)

namespace TempOpts

/-- storage/temp.rs 36-38 (`new`). -/
def new : TempOpts := { storageDir := none, namePrefix := none, tempfileFn := none }

/-- storage/temp.rs 42-51 (`new_in`). -/
def newIn (dir : String) : TempOpts :=
  { storageDir := some dir, tempfileFn := none, namePrefix := none }

/-- storage/temp.rs 55-64 (`with_prefix`). -/
def withPrefix (pre : String) : TempOpts :=
  { storageDir := none, tempfileFn := none, namePrefix := some pre }

/-- storage/temp.rs 68-78 (`with_prefix_in`). -/
def withPrefixIn (pre dir : String) : TempOpts :=
  { storageDir := some dir, tempfileFn := none, namePrefix := some pre }

/-- storage/temp.rs 92-100 (`with_tempfile_builder`). -/
def withBuilder (f : String → Path) : TempOpts :=
  { storageDir := none, namePrefix := none, tempfileFn := some f }

/-- storage/temp.rs 111-123: a custom builder decides alone; otherwise the file is made in
the given or the default directory (`std::env::temp_dir`, here `osDir`), with the given
prefix or `tempfile`'s own (`.tmp`).  `rand` are the letters that `tempfile` adds. -/
def place (o : TempOpts) (osDir rand : String) : Path :=
  match o.tempfileFn with
  | some f => f rand
  | none =>
    { dir := match o.storageDir with | none => osDir | some d => d
      name := (match o.namePrefix with | none => ".tmp" | some p => p) ++ rand }

end TempOpts

/-- storage/temp.rs 107-141: the file of a stream.  `path` and `ino` are those of the
`NamedTempFile`; `isOpen` says that `into_reader_writer` is through; `reader` and `writer`
that the handle has not been dropped.  The offsets and the reader's buffer are those of
Model/Temp. -/
structure FileStream where
  path : Path
  ino : Nat
  isOpen : Bool
  reader : Bool
  writer : Bool
  wp : Nat
  fp : Nat
  rbuf : List Byte

/-- The disk and the streams that use it.  Files are numbered in the order they are made
and their numbers are not used again. -/
structure Files where
  names : Path → Option Nat
  data : Nat → List Byte
  next : Nat
  streams : Nat → Option FileStream

/-- What a stream does with its storage: the operations of `Storage`. -/
inductive FileOp where
  | tell
  | read (n : Nat)
  | rseek (p : Nat)
  | wtell
  | write (bs : List Byte)
  | wseek (p : Nat)
  deriving DecidableEq, Repr

/-- Whether it is an operation of the reader; the others are the writer's. -/
def FileOp.ofReader : FileOp → Bool
  | .tell | .read _ | .rseek _ => true
  | _ => false

/-- Whether the handle that an operation needs is still there. -/
def FileStream.has (s : FileStream) (o : FileOp) : Bool := if o.ofReader then s.reader else s.writer

/-- What came of an operation. -/
inductive FileOut where
  | pos (p : Nat)
  | bytes (bs : List Byte)
  | took (k : Nat)
  | failed
  deriving DecidableEq, Repr

/-- An operation on the file of one stream, as in Model/Temp. -/
def Tmp.op (s : Tmp) : FileOp → FileOut × Tmp
  | .tell => (.pos (tmpStorage.tell s).1, (tmpStorage.tell s).2)
  | .read n =>
    match tmpStorage.read s n with
    | .ok (bs, s') => (.bytes bs, s')
    | _ => (.failed, s)
  | .rseek p =>
    match tmpStorage.rseek s p with
    | .ok s' => (.pos p, s')
    | _ => (.failed, s)
  | .wtell => (.pos (tmpStorage.wtell s), s)
  | .write bs =>
    match tmpStorage.write s bs with
    | .ok (k, s') => (.took k, s')
    | _ => (.failed, s)
  | .wseek p =>
    match tmpStorage.wseek s p with
    | .ok s' => (.pos p, s')
    | _ => (.failed, s)

/-- What happens on the disk.  `make`, `finish` are the two halves of
`into_reader_writer`; the last four are other programs'. -/
inductive FileAct where
  | make (i : Nat) (o : TempOpts) (rand : String)
  | finish (i : Nat) (dup : Bool)
  | op (i : Nat) (o : FileOp)
  | dropReader (i : Nat)
  | dropWriter (i : Nat)
  | otherMakes (p : Path)
  | otherRemoves (p : Path)
  | otherWrites (ino : Nat) (bs : List Byte)

namespace Files

/-- `f` changed at one place. -/
def put {α β : Type} [DecidableEq α] (f : α → β) (a : α) (b : β) : α → β :=
  fun x => if x = a then b else f x

/-- A new file under a name. -/
def create (w : Files) (p : Path) : Files :=
  { w with names := put w.names p (some w.next), data := put w.data w.next [], next := w.next + 1 }

/-- `remove_file`: the name is gone, the file stays for those who have it open. -/
def unlink (w : Files) (p : Path) : Files := { w with names := put w.names p none }

/-- storage/temp.rs 111-124 (`tempfile`): a new file under a name that is free. -/
def make (w : Files) (osDir : String) (i : Nat) (o : TempOpts) (rand : String) : Option Files :=
  match w.streams i, w.names (o.place osDir rand) with
  | none, none =>
    some { w.create (o.place osDir rand) with
      streams := put w.streams i (some
        { path := o.place osDir rand, ino := w.next, isOpen := false, reader := true, writer := false
          wp := 0, fp := 0, rbuf := [] }) }
  | _, _ => none

/-- storage/temp.rs 126-133: open the name again, for a second offset, and duplicate that
handle (`try_clone` shares the offset, but the first of the two is dropped).  If the name
does not lead to the file any more, or the handle cannot be duplicated, the `NamedTempFile`
is dropped. -/
def finish (w : Files) (i : Nat) (dup : Bool) : Option Files :=
  match w.streams i with
  | none => none
  | some s =>
    if s.isOpen = true ∨ s.reader = false then none
    else if w.names s.path = some s.ino ∧ dup = true then
      some { w with streams := put w.streams i (some { s with isOpen := true, writer := true }) }
    else
      some { w.unlink s.path with streams := put w.streams i (some { s with reader := false }) }

/-- The file of a stream as it sees it. -/
def view (w : Files) (s : FileStream) : Tmp :=
  { file := w.data s.ino, wp := s.wp, fp := s.fp, rbuf := s.rbuf }

/-- An operation of stream `i` on its file, if the handle is still there. -/
def op (w : Files) (i : Nat) (o : FileOp) : Option (FileOut × Files) :=
  match w.streams i with
  | none => none
  | some s =>
    if s.isOpen = true ∧ s.has o = true then
      let r := (w.view s).op o
      some (r.1, { w with
        data := put w.data s.ino r.2.file
        streams := put w.streams i (some { s with wp := r.2.wp, fp := r.2.fp, rbuf := r.2.rbuf }) })
    else none

/-- storage/temp.rs 138-141: dropping the reader drops the `NamedTempFile` in it, which
removes the name. -/
def dropReader (w : Files) (i : Nat) : Option Files :=
  match w.streams i with
  | none => none
  | some s =>
    if s.isOpen = true ∧ s.reader = true then
      some { w.unlink s.path with streams := put w.streams i (some { s with reader := false }) }
    else none

/-- Dropping the writer (the download task has ended) closes a `File`. -/
def dropWriter (w : Files) (i : Nat) : Option Files :=
  match w.streams i with
  | none => none
  | some s =>
    if s.writer = true then
      some { w with streams := put w.streams i (some { s with writer := false }) }
    else none

/-- One step; the result of an operation with the stream it belongs to. -/
def step (osDir : String) (w : Files) : FileAct → Option (Option (Nat × FileOut) × Files)
  | .make i o rand => (w.make osDir i o rand).map fun w' => (none, w')
  | .finish i dup => (w.finish i dup).map fun w' => (none, w')
  | .op i o => (w.op i o).map fun r => (some (i, r.1), r.2)
  | .dropReader i => (w.dropReader i).map fun w' => (none, w')
  | .dropWriter i => (w.dropWriter i).map fun w' => (none, w')
  | .otherMakes p => if w.names p = none then some (none, w.create p) else none
  | .otherRemoves p => some (none, w.unlink p)
  | .otherWrites ino bs =>
    if ino < w.next then some (none, { w with data := put w.data ino bs }) else none

/-- A history: where it leads and the results of the operations in order. -/
def run (osDir : String) (w : Files) : List FileAct → Option (List (Nat × FileOut) × Files)
  | [] => some ([], w)
  | a :: as =>
    match w.step osDir a with
    | none => none
    | some (out, w1) => (w1.run osDir as).map fun r => (out.toList ++ r.1, r.2)

end Files

end SD
