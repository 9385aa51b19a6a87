import Verif.Model.System

/-!
# The running system on hardware with weakly ordered memory

`RequestedPosition` is written and read with relaxed ordering (source/handle.rs
78-102), everything else that is shared with `SeqCst`, under a lock or through a
channel.  So all other accesses behave as in the interleaving model, and of the requested
position the language (and a processor such as ARM) promises only:

* the stores of the consumer become visible to the task in their order (coherence);
* a store is visible if the task has synchronised with the consumer afterwards.

The task may thus see a store arbitrarily late: not only while the consumer looks at
`write_requested` (as on x86, Model/Tso), but also after the consumer has stored a permit, sent to
the channel and gone to sleep under the lock.  The task synchronises with the consumer by taking a
permit (source/mod.rs 441) and by receiving from the seek channel (source/mod.rs
205): then it sees what the consumer had stored before it stored the permit or sent the message.
Other synchronisation, by the locks of the downloaded ranges, of the storage and of
`PositionReached`, is not used, which only allows more histories.

The task's own store of `-1` (source/mod.rs 434) comes before or after each store of the consumer;
those that it overwrites without having been seen are the ones that become visible between
`wChk` and `wClr`.  After that store the task sees no older one (coherence).  The consumer does not
load the position.

Left out: that a relaxed load returns a value that is stored only later (load buffering).
-/

namespace SD

variable {S : Storage}

/-- The state: what the task sees, and the consumer's stores that it does not see yet. -/
structure WSys (S : Storage) where
  /-- the state with the requested position that the task sees -/
  sys : Sys S
  /-- stores of the consumer that the task does not see yet, the oldest first -/
  buf : List Nat
  /-- how many of them came before the consumer last stored a permit -/
  sync : Nat
  /-- how many of them came before the message in the channel was sent -/
  sent : Nat

/-- The actions: those of the system, and that a store becomes visible. -/
inductive WAct where
  | act (a : Act)
  | drain
  deriving DecidableEq, Repr

/-- One step. -/
def wstep (c : Cfg) (t : WSys S) : WAct → Option (WSys S)
  | .drain =>
    match t.buf with
    | r :: rest => some {
        sys := { t.sys with req := storeReq r, log := .request r :: t.sys.log }
        buf := rest
        sync := t.sync - 1
        sent := t.sent - 1 }
    | [] => none
  | .act .rdr =>
    match t.sys.rpc with
    | .rSet n r =>
      -- source/handle.rs 31, 99-101
      some { t with sys := { t.sys with rpc := .rLoad n r }, buf := t.buf ++ [r] }
    | .sSet p =>
      -- source/handle.rs 41, 99-101
      some { t with sys := { t.sys with rpc := .sSend p }, buf := t.buf ++ [p] }
    | .rNotify _ _ | .rWake =>
      -- source/handle.rs 186, 192
      match step c t.sys .rdr with
      | some s => some { t with sys := s, sync := t.buf.length }
      | none => none
    | .sSend _ =>
      -- source/handle.rs 66-75; a full channel does not synchronise
      match step c t.sys .rdr with
      | some s => some { t with sys := s, sent := if t.sys.seekQ.isSome then t.sent else t.buf.length }
      | none => none
    | .rWait _ _ | .sWait _ =>
      -- source/handle.rs 125-149; simplification: when the download is over nobody looks at
      -- the requested position any more, and the model lets the stores become visible first
      if t.sys.done = true ∧ t.buf ≠ [] then none
      else
        match step c t.sys .rdr with
        | some s => some { t with sys := s }
        | none => none
    | _ =>
      match step c t.sys .rdr with
      | some s => some { t with sys := s }
      | none => none
  | .act .src =>
    match t.sys.spc with
    | .wWait _ _ _ =>
      -- source/mod.rs 441: taking the permit synchronises
      if t.sync = 0 then
        match step c t.sys .src with
        | some s => some { t with sys := s }
        | none => none
      else none
    | _ =>
      match step c t.sys .src with
      | some s => some { t with sys := s }
      | none => none
  | .act .recvSeek =>
    -- source/mod.rs 205: receiving synchronises
    if t.sent = 0 then
      match step c t.sys .recvSeek with
      | some s => some { t with sys := s }
      | none => none
    else none
  | .act a =>
    match step c t.sys a with
    | some s => some { t with sys := s }
    | none => none

/-- The beginning: nothing was stored. -/
abbrev WSys.of (s : Sys S) : WSys S := { sys := s, buf := [], sync := 0, sent := 0 }

end SD
