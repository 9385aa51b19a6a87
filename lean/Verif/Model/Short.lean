import Verif.Model.Storage

/-!
# Storage that takes or returns less than it is asked to

`Write::write` and `Read::read` (std) may transfer fewer bytes than they are given room for; for
files that happens when the disk is nearly full, on network and user-space file systems, and after
signals.  The storages of the crate are used through these two methods (storage/mod.rs 33-41; the
writer of temp-file storage is a plain `File`, storage/temp.rs 105; source/mod.rs 355 calls `write`,
lib.rs 452 calls `read`).  Here any storage is given such transfers: every one of them moves
at least one byte, so that a `write` of zero bytes still means that the storage is full and a
`read` of zero bytes that there is nothing to read.
-/

namespace SD

/-- A storage together with how much its writes take: the `i`-th one at most `takes i + 1` bytes. -/
structure Slw (S : Storage) where
  st : S.σ
  takes : Nat → Nat
  writes : Nat

/-- The storage `S` with such writes. -/
abbrev slow (S : Storage) : Storage where
  σ := Slw S
  tell s := ((S.tell s.st).1, { s with st := (S.tell s.st).2 })
  read s n := (S.read s.st n).bind fun r => .ok (r.1, { s with st := r.2 })
  rseek s p := (S.rseek s.st p).bind fun st => .ok { s with st := st }
  wtell s := S.wtell s.st
  write s bs :=
    (S.write s.st (bs.take (s.takes s.writes + 1))).bind fun r =>
      .ok (r.1, { s with st := r.2, writes := s.writes + 1 })
  wseek s p := (S.wseek s.st p).bind fun st => .ok { s with st := st }

/-- Its provider. -/
abbrev slowProvider (takes : Nat → Nat) (P : Provider) : Provider where
  S := slow P.S
  create cl := (P.create cl).bind fun st => .ok { st := st, takes := takes, writes := 0 }
  maxCapacity := P.maxCapacity

/-- A storage together with how much its reads return: the `i`-th one at most `gives i + 1`
bytes. -/
structure Shr (S : Storage) where
  st : S.σ
  gives : Nat → Nat
  reads : Nat

/-- The storage `S` with such reads. -/
abbrev short (S : Storage) : Storage where
  σ := Shr S
  tell s := ((S.tell s.st).1, { s with st := (S.tell s.st).2 })
  read s n :=
    (S.read s.st (min n (s.gives s.reads + 1))).bind fun r =>
      .ok (r.1, { s with st := r.2, reads := s.reads + 1 })
  rseek s p := (S.rseek s.st p).bind fun st => .ok { s with st := st }
  wtell s := S.wtell s.st
  write s bs := (S.write s.st bs).bind fun r => .ok (r.1, { s with st := r.2 })
  wseek s p := (S.wseek s.st p).bind fun st => .ok { s with st := st }

/-- Its provider. -/
abbrev shortProvider (gives : Nat → Nat) (P : Provider) : Provider where
  S := short P.S
  create cl := (P.create cl).bind fun st => .ok { st := st, gives := gives, reads := 0 }
  maxCapacity := P.maxCapacity

end SD
