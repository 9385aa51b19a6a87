import Verif.Model.System

/-!
# The running system on hardware that delays stores

`RequestedPosition` is written and read with relaxed ordering (source/handle.rs
78-102), everything else that is shared with `SeqCst`, under a lock or through a
channel.  On x86 a relaxed store is a plain store, which the processor may keep
in its store buffer while the same thread goes on; a `SeqCst` load is a plain
load and does not wait for the buffer (x86-TSO).  Atomic read-modify-write
instructions do.  So the position that the consumer asks for may still be
invisible to the download task when the consumer looks at `write_requested`
(source/handle.rs 191); it is visible once the consumer takes a lock, sends to a
channel or stores a permit.

The download task's own relaxed store (source/mod.rs 434) is directly followed by
taking a lock (435), so delaying it only means that the step `wClr` happens
later.  Weaker hardware than x86: Model/Weak.
-/

namespace SD

variable {S : Storage}

/-- The state: what is in memory, and the consumer's store buffer. -/
structure TSys (S : Storage) where
  /-- memory, and where the task and the consumer are -/
  sys : Sys S
  /-- the requested position that the consumer has stored and nobody else can see yet -/
  buf : Option Nat

/-- The actions: those of the system, and that the processor empties the store buffer. -/
inductive TAct where
  | act (a : Act)
  | drain
  deriving DecidableEq, Repr

/-- One step. -/
def tstep (c : Cfg) (t : TSys S) : TAct → Option (TSys S)
  | .drain =>
    match t.buf with
    | some r => some {
        sys := { t.sys with req := storeReq r, log := .request r :: t.sys.log }
        buf := none }
    | none => none
  | .act .rdr =>
    match t.sys.rpc with
    | .rSet n r =>
      -- source/handle.rs 31, 99-101: into the buffer
      some { sys := { t.sys with rpc := .rLoad n r }, buf := some r }
    | .sSet p =>
      -- source/handle.rs 41, 99-101
      some { sys := { t.sys with rpc := .sSend p }, buf := some p }
    | .rLoad _ _ =>
      -- source/handle.rs 191: a load does not wait for the buffer
      match step c t.sys .rdr with
      | some s => some { t with sys := s }
      | none => none
    | _ =>
      -- locks, channel, permit: only with an empty buffer
      if t.buf = none then
        match step c t.sys .rdr with
        | some s => some { t with sys := s }
        | none => none
      else none
  | .act a =>
    match step c t.sys a with
    | some s => some { t with sys := s }
    | none => none

end SD
