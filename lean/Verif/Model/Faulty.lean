import Verif.Model.Storage

/-!
# Storage that fails

Disk full, I/O errors, a file that was removed: the `read`, `write` and `seek` of a storage
(`Read`, `Write` and `Seek` of the reader and the writer, storage/mod.rs 33-41) may return an
error at any time.  Here any storage is given such failures.
-/

namespace SD

/-- Which operations fail, and how. -/
structure Faults where
  /-- the `read` of the storage in the consumer's `i`-th call -/
  read : Nat → Option Kind
  /-- the `seek` of the reader in the consumer's `i`-th call -/
  seek : Nat → Option Kind
  /-- the writer's `i`-th operation, if it is a `write` -/
  write : Nat → Option Kind
  /-- the writer's `i`-th operation, if it is a `seek` -/
  wseek : Nat → Option Kind

/-- A storage together with what fails.  Operations are counted so that a failure is a matter
of the moment: in the model every `read` and `seek` of the stream first asks the reader for its
position (lib.rs 555, 497), so `tell` counts the calls of the consumer; the download task stops at the
first operation that fails (the `?` in source/mod.rs 355 and 471), so it is enough to count the
writer's operations that succeed. -/
structure Flt (S : Storage) where
  st : S.σ
  faults : Faults
  calls : Nat
  ops : Nat

/-- An operation that fails if `k` says so. -/
def failing {α : Type} (k : Option Kind) (r : Res α) : Res α :=
  match k with
  | some k => .err k
  | none => r

/-- The storage `S` with failures.  A failed operation changes nothing.  A failing `flush`
(source/mod.rs 300, 307, 345, 417) is not separate: after `write_batched` (350-363) it has the
effect of a failure of the empty write that ends `write_batched`.  A failing
`stream_position` is not modelled. -/
abbrev faulty (S : Storage) : Storage where
  σ := Flt S
  tell s := ((S.tell s.st).1, { s with st := (S.tell s.st).2, calls := s.calls + 1 })
  read s n :=
    failing (s.faults.read s.calls)
      ((S.read s.st n).bind fun r => .ok (r.1, { s with st := r.2 }))
  rseek s p :=
    failing (s.faults.seek s.calls) ((S.rseek s.st p).bind fun st => .ok { s with st := st })
  wtell s := S.wtell s.st
  write s bs :=
    failing (s.faults.write s.ops)
      ((S.write s.st bs).bind fun r => .ok (r.1, { s with st := r.2, ops := s.ops + 1 }))
  wseek s p :=
    failing (s.faults.wseek s.ops)
      ((S.wseek s.st p).bind fun st => .ok { s with st := st, ops := s.ops + 1 })

/-- A provider whose storage fails. -/
abbrev faultyProvider (f : Faults) (P : Provider) : Provider where
  S := faulty P.S
  create cl := (P.create cl).bind fun st => .ok { st := st, faults := f, calls := 0, ops := 0 }
  maxCapacity := P.maxCapacity

end SD
