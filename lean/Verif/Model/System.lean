import Verif.Model.RangeSet
import Verif.Model.Storage

/-!
# The running system: consumer thread and download task

`StreamDownload` (lib.rs) and `Source` (source/mod.rs) run concurrently and share
the state of `SourceHandle` (source/handle.rs) and the storage.  Both are
modelled as program-counter machines; every access to shared state is a step of
its own, so a list of actions is an interleaving.  What the environment decides
(chunk boundaries, end of the transport, errors, time-outs, results of
`seek_range` and `reconnect`, which ready branch `select!` takes, the consumer's
calls, cancellation) is an action as well.
-/

namespace SD

/-- `StreamOutcome`, source/mod.rs 24-31. -/
inductive Outcome where
  | completed
  | cancelled
  deriving DecidableEq, Repr

/-- What is fixed for one stream: the resource, the source and the settings. -/
structure Cfg where
  /-- `SourceStream::content_length()` -/
  contentLength : Option Nat
  /-- `Settings::prefetch_bytes` -/
  prefetchBytes : Nat
  /-- `Settings::batch_write_size` (non-zero in the code) -/
  batchSize : Nat
  /-- `StorageProvider::max_capacity()` -/
  capacity : Option Nat
  /-- `SourceStream::supports_seek()` -/
  supportsSeek : Bool
  /-- the bytes of the remote resource -/
  remote : Nat → Byte
  /-- where the remote resource ends, if it does -/
  remoteLen : Option Nat
  /-- built with overflow checks -/
  checks : Bool
  /-- `Settings::cancel_on_drop` -/
  cancelOnDrop : Bool
  /-- `SourceStream::on_finish` (the default, source/mod.rs 77-85, is the identity):
  result (`none` is `Ok(())`) and outcome to result -/
  onFinish : Option Kind → Outcome → Option Kind

/-- Phases of a progress report, source/mod.rs 477-540. -/
inductive Phase where
  | prefetching (chunkSize : Nat)
  | downloading (chunkSize : Nat)
  | complete
  deriving DecidableEq, Repr

/-- Observable events, newest first in the log. -/
inductive Ev where
  /-- a `read` call returned: position before, buffer length, whether it did not
  have to wait, result -/
  | readRet (pos len : Nat) (fast : Bool) (res : Res (List Byte))
  /-- a `read` call returned an error without touching the storage -/
  | readErr (len : Nat) (k : Kind)
  /-- a `seek` call returned: absolute target and result (`ok` carries the
  returned position) -/
  | seekRet (target : Nat) (res : Res Nat)
  /-- a `seek` call returned an error without touching the storage -/
  | seekErr (k : Kind)
  /-- `seek_range(start, stop)` was called on the source -/
  | seekRange (start : Nat) (stop : Option Nat)
  /-- `reconnect(pos)` was called on the source -/
  | reconnect (pos : Nat)
  /-- the `on_reconnect` callback was called; `ok` says whether the reconnect
  returned `Ok` -/
  | onReconnect (ok : Bool)
  /-- the `on_progress` callback was called -/
  | progress (pos : Nat) (range : Nat × Nat) (phase : Phase)
  /-- `SourceStream::on_finish` was called -/
  | onFinish (r : Option Kind) (o : Outcome)
  /-- the transport delivered a chunk -/
  | chunk (bs : List Byte)
  /-- the transport delivered an error -/
  | chunkErr
  /-- the transport ended -/
  | eof
  /-- the task called `write(bs)` on the storage at position `pos`; `k` bytes were
  accepted -/
  | write (pos : Nat) (bs : List Byte) (k : Nat)
  /-- the consumer asked for position `r` and is about to wait -/
  | request (r : Nat)
  /-- the task told the consumer that its position is reached; `pos` is the writer's
  position -/
  | notified (pos : Nat)
  /-- the consumer stopped waiting, because the download is over or because it was
  notified -/
  | released (byDone : Bool)
  deriving DecidableEq, Repr

/-- Where the download task is.  The `w...` states are inside `Source::write`,
source/mod.rs 405-453: `pos0` is `position`, `len` is `bytes.len()`, `todo` is the
part of `bytes` that is not written yet, `bw` what the current `write_batched`
has written. -/
inductive SrcPc where
  /-- at the `select!`, source/mod.rs 204 -/
  | sel
  /-- `handle_seek` was entered, 236 -/
  | seekMsg (p : Nat)
  /-- awaiting `seek_range`, 468 -/
  | seeking (start : Nat) (stop : Option Nat)
  /-- awaiting `reconnect`, 278 -/
  | reconn (pos : Nat)
  /-- in `write_batched` called from `handle_prefetch`, 305 -/
  | pfWrite (len : Nat) (todo : List Byte)
  /-- after it, 306-328 -/
  | pfPost (len : Nat) (todo : List Byte)
  | wReq (pos0 len : Nat) (todo : List Byte)
  | wWrite (pos0 len : Nat) (todo : List Byte) (bw : Nat)
  | wAdd (pos0 len : Nat) (todo : List Byte) (bw : Nat)
  | wChk (pos0 len : Nat) (todo : List Byte) (bw : Nat)
  | wClr (pos0 len : Nat) (todo : List Byte) (bw : Nat)
  | wNtf (pos0 len : Nat) (todo : List Byte) (bw : Nat)
  | wWait (pos0 len : Nat) (todo : List Byte)
  /-- `report_downloading_progress`, 400 -/
  | wRep (len : Nat)
  /-- `finish_or_find_next_gap`, 331 -/
  | fin
  /-- `signal_download_complete` at 346 -/
  | finSig
  /-- `report_download_complete`, 232 -/
  | report
  /-- `on_finish`, 186 -/
  | onFin (r : Option Kind) (o : Outcome)
  /-- `set_failed`, 191 -/
  | setFail
  /-- `signal_download_complete` at 193 -/
  | sigDone
  /-- `cancellation_token.cancel()`, lib.rs 411 -/
  | tokCancel
  | ended
  | panicked
  deriving DecidableEq, Repr

/-- Where the consumer is. `r...` states are inside `read` (lib.rs 548-588), `s...`
states inside `seek` (lib.rs 590-622). -/
inductive RdrPc where
  | idle
  /-- lib.rs 556-577 -/
  | rDecide (n : Nat)
  /-- source/handle.rs 31 -/
  | rSet (n req : Nat)
  /-- source/handle.rs 36, 191 -/
  | rLoad (n req : Nat)
  /-- source/handle.rs 192 -/
  | rNotify (n req : Nat)
  /-- source/handle.rs 37 -/
  | rWait (n req : Nat)
  /-- lib.rs 579 -/
  | rCheck (n req : Nat)
  /-- lib.rs 452 -/
  | rRead (n : Nat) (fast : Bool)
  /-- lib.rs 455, source/handle.rs 185 -/
  | rSwap
  /-- source/handle.rs 186 -/
  | rWake
  /-- lib.rs 599-613 -/
  | sDecide (p : Nat)
  /-- source/handle.rs 41 -/
  | sSet (p : Nat)
  /-- source/handle.rs 42 -/
  | sSend (p : Nat)
  /-- source/handle.rs 47 -/
  | sWait (p : Nat)
  /-- lib.rs 616 -/
  | sCheck (p : Nat)
  /-- lib.rs 610-612 and 619-621 -/
  | sSeek (p : Nat)
  | dropped
  | panicked
  deriving DecidableEq, Repr

/-- The whole state. -/
structure Sys (S : Storage) where
  /-- storage with reader and writer position -/
  st : S.σ
  /-- `Downloaded`, source/handle.rs 152-170 -/
  dl : RSet
  /-- `DownloadStatus`, source/handle.rs 200-211 -/
  failed : Bool
  /-- `Waiter::stream_done`, source/handle.rs 104-108 -/
  done : Bool
  /-- `Waiter::position_reached` -/
  reached : Bool
  /-- `NotifyRead::write_requested`, source/handle.rs 172-176 -/
  writeReq : Bool
  /-- the permit stored in `NotifyRead::notify` -/
  permit : Bool
  /-- the `CancellationToken` -/
  cancelled : Bool
  /-- `RequestedPosition`, source/handle.rs 78-102 -/
  req : Option Nat
  /-- the seek channel of capacity 1, source/mod.rs 148 -/
  seekQ : Option Nat
  /-- `Source::prefetch_complete` -/
  pfDone : Bool
  /-- `Source::prefetch_start_position` -/
  pfStart : Nat
  /-- `Source::remaining_bytes` -/
  rem : Option (List Byte)
  /-- position of the transport in the resource -/
  tpos : Nat
  /-- end of the range the transport was asked for -/
  tlim : Option Nat
  /-- the transport has reported its end -/
  tend : Bool
  spc : SrcPc
  rpc : RdrPc
  log : List Ev

/-- The actions of the interleaving. -/
inductive Act where
  /-- next step of the download task -/
  | src
  /-- next step of the consumer -/
  | rdr
  /-- `select!` takes the seek branch -/
  | recvSeek
  /-- the transport yields a chunk of `n` bytes -/
  | chunk (n : Nat)
  /-- the transport yields an error item -/
  | chunkErr
  /-- the transport ends -/
  | eof
  /-- `retry_timeout` elapses -/
  | timeout
  /-- `select!` takes the cancellation branch -/
  | seeCancel
  /-- `seek_range` succeeds; the transport now is at `pos` -/
  | seekOk (pos : Nat)
  /-- `seek_range` fails -/
  | seekFail (k : Kind)
  /-- `reconnect` succeeds; the transport now is at `pos` -/
  | reconnOk (pos : Nat)
  /-- `reconnect` returns an error -/
  | reconnFail
  /-- `reconnect` does not return within `retry_timeout` -/
  | reconnTimeout
  /-- the consumer calls `read` with a buffer of length `n` -/
  | read (n : Nat)
  /-- the consumer calls `seek` -/
  | seek (f : SeekFrom)
  /-- somebody cancels the token -/
  | cancel
  /-- the consumer drops the stream -/
  | drop
  deriving DecidableEq, Repr

/-- `SeekFrom` values that exist: `u64` positions and `i64` offsets. -/
def SeekFrom.valid : SeekFrom → Bool
  | .start p => decide (p < two64)
  | .current d => decide (-(two63 : Int) ≤ d) && decide (d < (two63 : Int))
  | .fromEnd d => decide (-(two63 : Int) ≤ d) && decide (d < (two63 : Int))

/-- lib.rs 459-466. -/
def Cfg.normalize (c : Cfg) (p : Nat) : Nat :=
  match c.contentLength with
  | some n => min p n
  | none => p

/-- lib.rs 427-449; `pos` is the reader's position. -/
def Cfg.absolute (c : Cfg) (pos : Nat) : SeekFrom → Res Nat
  | .start p => .ok p
  | .current d => addCast c.checks pos d
  | .fromEnd d =>
    match c.contentLength with
    | some n => addCast c.checks n d
    | none => .err .unsupported

/-- lib.rs 476-489. -/
def Cfg.excessiveRead (c : Cfg) (n : Nat) : Bool :=
  match c.capacity with
  | some cap => decide (cap < n)
  | none => false

/-- lib.rs 491-516; `saturating_add` on `u64`. -/
def Cfg.excessiveSeek (c : Cfg) (pos target : Nat) : Bool :=
  match c.capacity with
  | some cap => decide (min (pos + cap) (two64 - 1) < target)
  | none => false

/-- source/handle.rs 99-101 and 92-96: the position is stored as `i64`, and `-1`
means "nothing requested". -/
def storeReq (p : Nat) : Option Nat := if p = two64 - 1 then none else some p

/-- Whether `x` is at most an optional bound. -/
def leOpt (x : Nat) : Option Nat → Bool
  | some n => decide (x ≤ n)
  | none => true

variable {S : Storage}

/-- `handle_seek`, source/mod.rs 236-270, up to the `seek_range` call; includes
`should_seek`, 455-465.  The task is the only one that changes the downloaded
ranges, so reading them is not a step of its own. -/
def handleSeek (c : Cfg) (s : Sys S) (p : Nat) : Sys S :=
  let cur := S.wtell s.st
  let should :=
    if !c.supportsSeek then false
    else
      match RSet.get s.dl p with
      | some (a, b) => !(decide (a ≤ cur) && decide (cur < b))
      | none => true
  if !should then { s with spc := .sel }
  else
    let s1 :=
      if s.pfDone then { s with pfStart := p, pfDone := false }
      else { s with dl := RSet.add s.dl s.pfStart cur, pfDone := true }
    match c.contentLength with
    | some n =>
      match RSet.nextGap s1.dl (min cur p) n with
      | some (a, b) =>
        { s1 with spc := .seeking (max a p) (some b), log := .seekRange (max a p) (some b) :: s1.log }
      | none => { s1 with spc := .sel }
    | none => { s1 with spc := .seeking p none, log := .seekRange p none :: s1.log }

/-- Start of `Source::write`, source/mod.rs 405-411: nothing to do for an empty
chunk. -/
def startWrite (s : Sys S) (bs : List Byte) : Sys S :=
  if bs = [] then { s with spc := .wRep 0 }
  else { s with spc := .wReq (S.wtell s.st) bs.length bs }

/-- A chunk arrived: source/mod.rs 365-399. -/
def handleChunk (s : Sys S) (bs : List Byte) : Sys S :=
  if !s.pfDone then { s with spc := .pfWrite bs.length bs }
  else
    match s.rem with
    | some r => startWrite { s with rem := none } (r ++ bs)
    | none => startWrite s bs

/-- The transport ended: source/mod.rs 297-304 during prefetch, 382-397 otherwise. -/
def handleEof (s : Sys S) : Sys S :=
  if !s.pfDone then
    { s with pfDone := true, dl := RSet.add s.dl s.pfStart (S.wtell s.st), spc := .fin }
  else
    match s.rem with
    | some r => startWrite { s with rem := none } r
    | none => { s with spc := .fin }

/-- After the requested-position check of one round of `Source::write`,
source/mod.rs 438-451: wait for a read if nothing could be written, otherwise go
on with the rest. -/
def nextRound (s : Sys S) (pos0 len : Nat) (todo : List Byte) (bw : Nat) : Sys S :=
  if bw = 0 then { s with spc := .wWait pos0 len todo }
  else if todo = [] then { s with spc := .wRep len }
  else { s with spc := .wReq pos0 len todo }

/-- The next step of the download task, if it does not depend on the environment. -/
def srcStep (c : Cfg) (s : Sys S) : Option (Sys S) :=
  match s.spc with
  | .seekMsg p => some (handleSeek c s p)
  | .pfWrite len todo =>
    -- source/mod.rs 350-363, one `writer.write`
    let bs := todo.take (min c.batchSize todo.length)
    match S.write s.st bs with
    | .ok (k, st') =>
      some { s with
        st := st'
        spc := if k = 0 then .pfPost len todo else .pfWrite len (todo.drop k)
        log := .write (S.wtell s.st) bs k :: s.log }
    | .err k => some { s with spc := .onFin (some k) .completed }
    | .panic => some { s with spc := .panicked }
  | .pfPost len todo =>
    -- source/mod.rs 306-328
    let pos := S.wtell s.st
    let s1 := if todo = [] then s else { s with rem := some todo }
    let s2 :=
      if s.pfStart + c.prefetchBytes ≤ pos ∨ todo ≠ [] then
        { s1 with dl := RSet.add s1.dl s.pfStart pos, pfDone := true }
      else s1
    some { s2 with
      spc := .sel
      log := .progress pos (0, pos) (.prefetching (len - todo.length)) :: s2.log }
  | .wReq pos0 len todo =>
    -- source/mod.rs 412
    some { s with writeReq := true, spc := .wWrite pos0 len todo 0 }
  | .wWrite pos0 len todo bw =>
    -- source/mod.rs 350-363, one `writer.write`
    let bs := todo.take (min c.batchSize todo.length)
    match S.write s.st bs with
    | .ok (k, st') =>
      some { s with
        st := st'
        spc := if k = 0 then .wAdd pos0 len todo bw else .wWrite pos0 len (todo.drop k) (bw + k)
        log := .write (S.wtell s.st) bs k :: s.log }
    | .err k => some { s with spc := .onFin (some k) .completed }
    | .panic => some { s with spc := .panicked }
  | .wAdd pos0 len todo bw =>
    -- source/mod.rs 420-423
    some { s with dl := RSet.add s.dl pos0 (S.wtell s.st), spc := .wChk pos0 len todo bw }
  | .wChk pos0 len todo bw =>
    -- source/mod.rs 425-432
    match s.req with
    | some r =>
      if r ≤ S.wtell s.st then some { s with spc := .wClr pos0 len todo bw }
      else some (nextRound s pos0 len todo bw)
    | none => some (nextRound s pos0 len todo bw)
  | .wClr pos0 len todo bw =>
    -- source/mod.rs 434
    some { s with req := none, spc := .wNtf pos0 len todo bw }
  | .wNtf pos0 len todo bw =>
    -- source/mod.rs 435
    some (nextRound { s with reached := true, log := .notified (S.wtell s.st) :: s.log }
      pos0 len todo bw)
  | .wWait pos0 len todo =>
    -- source/mod.rs 441, source/handle.rs 195-197.  A `notify_one` that finds the task waiting
    -- wakes it, and one that comes before the woken task runs is stored; that is this step
    -- directly after the first and before the second: until its next step, `wReq`, a woken
    -- task has done nothing that others can see
    if s.permit then some { s with permit := false, spc := .wReq pos0 len todo } else none
  | .wRep len =>
    -- source/mod.rs 507-527; `new_position - 1` underflows at 0 (panic, or a lookup
    -- of the last u64 position, which is never downloaded, and a panic)
    let pos := S.wtell s.st
    if pos = 0 then some { s with spc := .panicked }
    else
      match RSet.get s.dl (pos - 1) with
      | some r => some { s with spc := .sel, log := .progress pos r (.downloading len) :: s.log }
      | none => some { s with spc := .panicked }
  | .fin =>
    -- source/mod.rs 331-345
    match c.supportsSeek, c.contentLength with
    | true, some n =>
      match RSet.nextGap s.dl 0 n with
      | some (a, b) =>
        some { s with spc := .seeking a (some b), log := .seekRange a (some b) :: s.log }
      | none => some { s with spc := .finSig }
    | _, _ => some { s with spc := .finSig }
  | .finSig => some { s with done := true, spc := .report }
  | .report =>
    -- source/mod.rs 529-542
    let pos := S.wtell s.st
    some { s with
      spc := .onFin none .completed
      log := .progress pos ((RSet.get s.dl (max pos 1 - 1)).getD (0, 0)) .complete :: s.log }
  | .onFin r o =>
    -- source/mod.rs 186-192
    let log := .onFinish r o :: s.log
    match c.onFinish r o with
    | some _ => some { s with spc := .setFail, log := log }
    | none => some { s with spc := .sigDone, log := log }
  | .setFail => some { s with failed := true, spc := .sigDone }
  | .sigDone => some { s with done := true, spc := .tokCancel }
  | .tokCancel => some { s with cancelled := true, spc := .ended }
  | .sel | .seeking _ _ | .reconn _ | .ended | .panicked => none

/-- The next step of the consumer inside a `read` or `seek` call. -/
def rdrStep (c : Cfg) (s : Sys S) : Option (Sys S) :=
  match s.rpc with
  | .rDecide n =>
    -- lib.rs 556-577; an overflow of the addition is a panic
    let pos := (S.tell s.st).1
    let s1 := { s with st := (S.tell s.st).2 }
    if two64 ≤ pos + n then some { s1 with rpc := .panicked }
    else
      match RSet.get s.dl pos with
      | some (_, b) =>
        if c.normalize (pos + n) ≤ b then some { s1 with rpc := .rRead n true }
        else some { s1 with rpc := .rSet n (c.normalize (pos + n)) }
      | none => some { s1 with rpc := .rSet n (c.normalize (pos + n)) }
  | .rSet n r =>
    some { s with req := storeReq r, rpc := .rLoad n r, log := .request r :: s.log }
  | .rLoad n r =>
    some { s with rpc := if s.writeReq then .rNotify n r else .rWait n r }
  | .rNotify n r => some { s with permit := true, rpc := .rWait n r }
  | .rWait n r =>
    -- source/handle.rs 125-149
    if s.done then some { s with rpc := .rCheck n r, log := .released true :: s.log }
    else if s.reached then
      some { s with reached := false, rpc := .rCheck n r, log := .released false :: s.log }
    else none
  | .rCheck n _ =>
    if s.failed then some { s with rpc := .idle, log := .readErr n .other :: s.log }
    else some { s with rpc := .rRead n false }
  | .rRead n fast =>
    -- lib.rs 451-457
    match S.read s.st n with
    | .ok (bs, st') =>
      some { s with st := st', rpc := .rSwap
                    log := .readRet (S.tell s.st).1 n fast (.ok bs) :: s.log }
    | .err k =>
      some { s with rpc := .rSwap, log := .readRet (S.tell s.st).1 n fast (.err k) :: s.log }
    | .panic =>
      some { s with rpc := .panicked, log := .readRet (S.tell s.st).1 n fast .panic :: s.log }
  | .rSwap => some { s with writeReq := false, rpc := if s.writeReq then .rWake else .idle }
  | .rWake => some { s with permit := true, rpc := .idle }
  | .sDecide p =>
    match RSet.get s.dl p with
    | some _ => some { s with rpc := .sSeek p }
    | none => some { s with rpc := .sSet p }
  | .sSet p => some { s with req := storeReq p, rpc := .sSend p, log := .request p :: s.log }
  | .sSend p =>
    -- source/handle.rs 66-75: `try_send`; a full channel is only logged
    some { s with seekQ := if s.seekQ.isSome then s.seekQ else some p, rpc := .sWait p }
  | .sWait p =>
    if s.done then some { s with rpc := .sCheck p, log := .released true :: s.log }
    else if s.reached then
      some { s with reached := false, rpc := .sCheck p, log := .released false :: s.log }
    else none
  | .sCheck p =>
    if s.failed then some { s with rpc := .idle, log := .seekErr .other :: s.log }
    else some { s with rpc := .sSeek p }
  | .sSeek p =>
    match S.rseek s.st p with
    | .ok st' => some { s with st := st', rpc := .idle, log := .seekRet p (.ok p) :: s.log }
    | .err k => some { s with rpc := .idle, log := .seekRet p (.err k) :: s.log }
    | .panic => some { s with rpc := .panicked, log := .seekRet p .panic :: s.log }
  | .idle | .dropped | .panicked => none

/-- The consumer calls `read`: lib.rs 550-552. -/
def callRead (c : Cfg) (s : Sys S) (n : Nat) : Sys S :=
  if s.failed then { s with log := .readErr n .other :: s.log }
  else if c.excessiveRead n then { s with log := .readErr n .invalidInput :: s.log }
  else { s with rpc := .rDecide n }

/-- The consumer calls `seek`: lib.rs 592-596. -/
def callSeek (c : Cfg) (s : Sys S) (f : SeekFrom) : Sys S :=
  if s.failed then { s with log := .seekErr .other :: s.log }
  else
    match c.absolute (S.tell s.st).1 f with
    | .err k => { s with log := .seekErr k :: s.log }
    | .panic => { s with rpc := .panicked }
    | .ok p =>
      if c.excessiveSeek (S.tell s.st).1 (c.normalize p) then
        { s with log := .seekErr .invalidInput :: s.log }
      else { s with st := (S.tell s.st).2, rpc := .sDecide (c.normalize p) }

/-- One step of the system; `none` if the action is not enabled. -/
def step (c : Cfg) (s : Sys S) : Act → Option (Sys S)
  | .src => srcStep c s
  | .rdr => rdrStep c s
  | .recvSeek =>
    -- source/mod.rs 205-208
    match s.spc, s.seekQ with
    | .sel, some p => some { s with seekQ := none, spc := .seekMsg p }
    | _, _ => none
  | .chunk n =>
    if s.spc = .sel ∧ s.tend = false ∧ leOpt (s.tpos + n) s.tlim ∧ leOpt (s.tpos + n) c.remoteLen then
      some (handleChunk
        { s with tpos := s.tpos + n, log := .chunk (slice c.remote s.tpos n) :: s.log }
        (slice c.remote s.tpos n))
    else none
  | .chunkErr =>
    -- source/mod.rs 371-377
    if s.spc = .sel then some { s with log := .chunkErr :: s.log } else none
  | .eof =>
    if s.spc = .sel then some (handleEof { s with tend := true, log := .eof :: s.log }) else none
  | .timeout =>
    -- source/mod.rs 210-213, 272-278
    if s.spc = .sel then
      some { s with spc := .reconn (S.wtell s.st), log := .reconnect (S.wtell s.st) :: s.log }
    else none
  | .seeCancel =>
    -- source/mod.rs 227-230, 178-184
    if s.spc = .sel ∧ s.cancelled then some { s with spc := .onFin (some .interrupted) .cancelled }
    else none
  | .seekOk pos =>
    -- source/mod.rs 467-471.  A transport that does not begin where it was asked to need not
    -- end where it was asked to either
    match s.spc with
    | .seeking start stop =>
      match S.wseek s.st start with
      | .ok st' =>
        some { s with st := st', tpos := pos, tlim := if pos = start then stop else none, tend := false, spc := .sel }
      | .err k => some { s with spc := .onFin (some k) .completed }
      | .panic => some { s with spc := .panicked }
    | _ => none
  | .seekFail k =>
    match s.spc with
    | .seeking _ _ => some { s with spc := .onFin (some k) .completed }
    | _ => none
  | .reconnOk pos =>
    -- source/mod.rs 278-287
    match s.spc with
    | .reconn _ =>
      some { s with tpos := pos, tlim := none, tend := false, spc := .sel
                    log := .onReconnect true :: s.log }
    | _ => none
  | .reconnFail =>
    match s.spc with
    | .reconn _ => some { s with spc := .sel, log := .onReconnect false :: s.log }
    | _ => none
  | .reconnTimeout =>
    match s.spc with
    | .reconn _ => some { s with spc := .sel }
    | _ => none
  | .read n => if s.rpc = .idle then some (callRead c s n) else none
  | .seek f => if s.rpc = .idle ∧ f.valid then some (callSeek c s f) else none
  | .cancel => some { s with cancelled := true }
  | .drop =>
    -- lib.rs 540-546
    if s.rpc = .idle then
      some { s with rpc := .dropped, cancelled := s.cancelled || c.cancelOnDrop }
    else none

/-- The initial state: lib.rs 399-424, source/mod.rs 141-170. -/
def init (c : Cfg) (st : S.σ) : Sys S where
  st := st
  dl := []
  failed := false
  done := false
  reached := false
  writeReq := false
  permit := false
  cancelled := false
  req := none
  seekQ := none
  pfDone := decide (c.prefetchBytes = 0)
  pfStart := 0
  rem := none
  tpos := 0
  tlim := none
  tend := false
  spc := .sel
  rpc := .idle
  log := []

/-- Run a list of actions; `none` if one of them is not enabled. -/
def run (c : Cfg) : Sys S → List Act → Option (Sys S)
  | s, [] => some s
  | s, a :: as =>
    match step c s a with
    | some s' => run c s' as
    | none => none

end SD
