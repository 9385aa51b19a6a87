# Design of the model and the proofs

Subject: `aschey/stream-download-rs` at the pinned commit in `/repo`. The code
is read as text only. Line numbers in this document and in the Lean comments
refer to files below `/repo/crates/stream-download/src` unless another crate is
named.

## 1. What is modelled

| Lean module (`lean/Verif/...`) | code | contents |
|---|---|---|
| `Model/Basic` | lib.rs | results with explicit error and panic values, `SeekFrom`, 64-bit casts |
| `Model/RangeSet` | source/handle.rs 152-170 (+ the `rangemap` crate) | sorted list of disjoint, non-touching ranges; insert, get, first gap |
| `Model/Storage` | storage/mod.rs | interface of a reader/writer pair over shared storage |
| `Model/Memory` | storage/memory.rs | `MemoryStorage` |
| `Model/Temp` | storage/temp.rs | temp file read through `BufReader`, independent file offsets |
| `Model/Files` | storage/temp.rs 27-141 | any number of temp files on a disk that other programs use too: names, files without a name, the provider's options, creation in two steps, dropping |
| `Model/Bounded` | storage/bounded.rs | circular buffer over any inner storage |
| `Model/Adaptive` | storage/adaptive.rs | selection and delegation |
| `Model/System` | lib.rs 362-622, source/mod.rs 141-553, source/handle.rs | reader thread and download task as two program-counter machines over shared state; one `step` function |
| `Model/Tso` | source/handle.rs 28-45, 78-102, 160-195 | the same system with a store buffer for the consumer, as on x86 |
| `Model/Weak` | source/handle.rs 28-45, 60-102, 160-195, source/mod.rs 204-205, 434-441 | the same system with weakly ordered memory: a store of the requested position becomes visible to the task at any later time, at the latest when the task takes a permit or receives a message that came after it |
| `Model/Faulty` | storage/mod.rs 33-41 | any storage, with `read`, `write` and `seek` failing at arbitrary moments |
| `Model/Short` | storage/mod.rs 33-41, source/mod.rs 355, lib.rs 452 | any storage, with writes that take and reads that return fewer bytes than they could, at least one |
| `Model/Abort` | lib.rs 404-411 | the same system when the runtime that runs the task is shut down at one of its `await`s |
| `Model/Timed` | source/mod.rs 200-213, 272-287, settings.rs 102-116 | the same system with a clock: the two time-outs fire only when `retry_timeout` has passed since they were created, and every event has a time |
| `Model/Http` | http/mod.rs, http/reqwest_client.rs | creation, range header, seek_range, reconnect |
| `Model/Middleware` | http/reqwest_middleware_client.rs, settings.rs 182-187 | the global list of default middleware, clients that copy it, requests that pass through it |
| `Model/HttpSystem` | the same with lib.rs 385-425 | the system with `HttpStream` as its source |
| `Model/SourceSystem` | source/mod.rs 41-91 with the streams of `Model/Readers` | the system with any `SourceStream` as its source |
| `Model/Create` | lib.rs 110-116, 205-214, 343-425, 519-538, opendal lib.rs 76-112, 152-189, async_read.rs 16-42, 76-86 | creating a stream: errors, effects, what is handed to the task |
| `Model/ProcessSystem` | process/mod.rs 208-319, source/mod.rs 173-194 | the system with the output of a process as its source, and the processes |
| `Model/CreateProcess` | process/mod.rs 175-271, lib.rs 247-254 | creating a stream over a pipeline |
| `Model/Registry` | registry/mod.rs, registry/matcher.rs | rules, entry order, find_match |
| `Model/Process` | process/*.rs | command lines, pipeline, on_finish |
| `Model/Readers` | stream-download-opendal/src/lib.rs, async_read.rs (+ tokio-util's `ReaderStream` and `poll_read_buf`) | chunked poll_next, seek_range |
| `Model/Settings` | settings.rs | builder |
| `Spec/*` | - | small specifications the theorems are stated against |
| `Proof/*` | - | helper lemmas and invariants |
| `Props/*` | - | the property theorems, each with a concrete instance beside it |

### The concurrent model

`StreamDownload` (consumer thread) and `Source` (async task) share: the storage,
the downloaded ranges, the requested position, the position-reached/stream-done
flags under a condvar, the seek channel (capacity 1), the write-requested flag,
the tokio `Notify` permit, the failed flag and the cancellation token. The model
is a transition function `step : Cfg -> Sys -> Act -> Option Sys` (`none` = the
action is not enabled). Every access to a shared variable is its own step, so
every interleaving of the two programs is a list of actions. Actions are: the
next step of the task, the next step of the reader, a choice of the environment
(chunk of n bytes, end of stream, chunk error, stall, success/failure of
`seek_range` and `reconnect`), a choice of the `select!` loop, a call of the
consumer (read n, seek, drop) and a cancellation. The remote resource is a
function `Nat -> Byte` with an optional end; the transport position is part of
the state, so a chunk carries the bytes the transport really would deliver.
`Reach G s` says that `s` is reachable by actions that all satisfy the guard
`G`; guards name the history restrictions in a theorem ("no seeks", "forward
seeks only", "transport resumes where asked").

### Simplifications

* Interleaving (sequentially consistent) semantics, except in Model/Tso and Model/Weak:
  there the `Relaxed` stores of the consumer to `requested_position` go through a store
  buffer, as on x86, or become visible at any time until the task synchronises with the
  consumer. C73 and C79 say which results carry over.
* Positions are natural numbers. 64-bit wraparound is modelled where the code
  can reach it: the casts in seek targets, the counters of the bounded storage
  (both the overflow-checking and the wrapping build), and the `-1` sentinel of
  the requested position. `stream_position + buf.len()` overflowing is a panic.
* Except in Model/Timed, time is abstracted: a stall (`retry_timeout` elapsed) and a reconnect timeout
  are environment choices.
* Callbacks are log entries. A callback that cancels the token is covered
  because cancellation may happen at any step.
* Logging, `tracing`, elapsed times and error texts are left out; error kinds
  are kept.
* A panic in the task is a terminal state of the task that signals nothing,
  which is what tokio does to a detached task.
* In Model/Short a read is short as seen by the consumer; that the `File` under the `BufReader` of
  temp-file storage returns less than the `BufReader` asks for is not modelled separately.
* Flushing a writer is not modelled: for the crate's storages it does nothing and cannot
  fail (memory, `File`, bounded, adaptive). In Model/Faulty an operation that fails changes
  nothing; `stream_position` does not fail.
* The read and write counts of the bounded storage are integers: in builds without
  overflow checks a count below zero stands for the wrapped `usize` (`Bnd.cnt`),
  which later additions bring back; positions do not wrap.
* HTTP: a body is the list of bytes it delivers; `end - 1` for `end = 0` is a
  panic (a wrapping build asks for a huge last position instead). Reader
  streams: a pending poll changes nothing; an error leaves the underlying reader
  where it was.
* Processes are the calls that start, await and kill them; the contents of error
  files are not modelled.
* The system assumes of a transport only what its guards say (`Honest`: it
  resumes where it was asked to). For HTTP this is proved of the composed model
  (`Model/HttpSystem`) for servers that honour ranges, as long as the task asks
  for proper ranges; C44, C59 and C61 show what happens otherwise. For OpenDAL
  objects and for readers it is proved of `Model/SourceSystem`. The stream of a
  process is the one of a reader (its stdout) with its own `on_finish`;
  `Model/ProcessSystem` adds the processes: each has run, been killed or been
  collected; a process may close its output and go on, and may end at any time.
  A kill takes effect at once, and the kill that tokio sends when a handle is
  dropped does not fail. That an earlier command of a pipeline ends when its
  reader has gone (`SIGPIPE`) is left to the environment.

### Not modelled

TLS, reqwest internals, header parsing other than length, ranges and
accept-ranges; the URL parser, `regex` and `mediatype` (parameters of the
registry and HTTP models); real processes and pipes; load
buffering (a relaxed load that sees a store from its future); performance.

## 2. Trusted base

* Lean 4.33.0's kernel. Theorems depend at most on `propext`,
  `Classical.choice` and `Quot.sound`. No own axioms, `sorry`, `native_decide`
  or `bv_decide`.
* That the definitions in `Model/` describe the cited code.
* Behaviour of dependencies, as modelled: `rangemap::RangeSet` coalesces
  touching ranges and `gaps` yields maximal gaps in order; tokio `Notify` stores
  at most one permit; `mpsc::channel(1)` holds one message; `select!` may pick
  any ready branch; `BufReader` buffers 8 KiB, bypasses its buffer for large
  reads and discards it on `seek`; `BytesMut::split` leaves the room behind the
  data and `reserve` provides at least what is asked for; tokio-util's
  `ReaderStream` starts with an empty buffer, reserves 4096 bytes and gives its
  reader up after its end and after an error; `str::replacen(p, "", 1)` removes
  the first occurrence; `sort_by_key` is stable; `tempfile` makes a file only under
  a name that is free, `reopen` fails if the name leads elsewhere, and dropping a
  `NamedTempFile` removes the name; `reqwest_middleware` hands a request to its
  middlewares in order. None of these crates is in the
  sandbox, so these statements are from their documentation and are not checked.
* The worlds of C64 and C65: an OpenDAL reader of a range delivers that range of
  the object and nothing for an inverted range; an `AsyncRead` returns no bytes
  only at its end.

## 3. Plan per property

Where the code violates the property as a user would state it, the plan is: a
theorem that exhibits a concrete reachable violation (suffix `_violated`), and a
positive theorem about the largest class of histories for which the property
holds (suffix `_partial`).

| id | model | plan |
|---|---|---|
| C01 | System + any lawful storage | invariant over all actions: transport position, writer position, bytes in flight and stored cells agree; log of reads = prefix of the remote |
| C02 | System, unbounded | invariant "downloaded => stored correctly" for all histories; fast-path reads only return downloaded positions |
| C03 | System | violated (read into a gap; chunk before the seek message). Partial: unseekable sources with any seeks; seekable sources if the consumer goes back only over bytes that it has read or that are downloaded (`Connected`; forward it may go anywhere) |
| C04 | System | completion is only reachable through the no-gap test; with C02's invariant |
| C05 | getAbs + System | arithmetic on casts; the seek's result is the reader position |
| C06 | getAbs + System | violated (wraps, clamps to the end). Partial: errors when storage is bounded and length unknown; in-range targets exact |
| C07-C09 | System | step-level equalities in every state |
| C10 | System | the failed flag is stable; call steps check it |
| C11, C12 | System | invariants relating done/failed/reached/requested and the two program counters |
| C13 | System + completeness law of storage | invariant; `Props/ShortAny`: for consumers that do not seek, without any assumption on the transport |
| C14, C15 | System | invariant on write-requested flag, permit and both program counters |
| C16 | System | violated for bounded. Partial: unbounded storage |
| C17-C19 | System | invariants; C18 and C19 violated in general, partial theorems for the classes named there |
| C20-C24 | Bounded over any lawful inner storage | refinement to a FIFO / window spec; C23, C24 violated, partial theorems |
| C25, C26 | Adaptive | case analysis; C26 violated by a deadlock trace, partial for known lengths |
| C27-C29 | Memory | refinement to a byte map; C28, C29 violated, partial theorems |
| C30 | Temp | freshness invariant of the buffer at every storage read |
| C31 | System | violated (start >= end). Partial: gap requests and backward seeks |
| C32, C33 | System, Stored | invariants over the log of transport requests; `Props/Stored.lean` restates C04 and C33 by the writes the storage accepted, after an edit that recorded too much left the statements about recorded ranges true |
| C34 | RangeSet | equivalence with a set of positions for any sequence of inserts |
| C35, C36 | System | violated (bounded storage with pending bytes; error result counts). Partial |
| C37 | System | violated for unknown length. Partial: known length and seekable |
| C38 | System | invariant over the log |
| C39 | System | violated (empty chunk; bounded counter underflow). Partial: non-empty chunks and storage that keeps everything; bounded storage without overflow checks; any storage, without seeks or with a source that cannot seek (`Props/SequentialPanic`: such a download is contiguous, C89, so the writer never goes back) |
| C40 | System | invariant |
| C41 | System | invariant: bytes written so far are a prefix of the chunk |
| C42-C45, C59 | Http | round trip of the header; decision tables; a life relation of polls, seeks and reconnects. C44 and C59 violated, partial for servers that honour ranges |
| C61 | HttpSystem | simulation: every step with an HTTP source is a step of the system with an honest transport, so the theorems of C01-C03 carry over; the same for seeks, reading to the end and C68 (`Props/HttpJump.lean`). Violated by an inverted range |
| C62 | ReadAll | a short read has reached the declared length (an invariant over the end of the task); nothing beyond the end of the resource is ever returned, because the same history is possible with other bytes there. Violated by a reconnect with bounded storage. `Props/ReadAllAny`: without assumptions on the transport, what was received takes the place of the resource |
| C63 | Live | infinite histories with weak fairness for task and consumer. A call that does not return sleeps for ever (rank of the consumer); then the task gets back to waiting for the source again and again (rank of the task, using C14 and C15), so chunks arrive again and again, and each makes a measure smaller: pending seek messages and prefetches, missing positions below the one waited for, distance. Violated for seeks on a full bounded buffer. Infinite histories of the joint systems (`Run`, `HRun`, `XRun`, `PRun` in Spec/LiveSystem) are mapped step by step to those of the system alone (Proof/LiveSystem) |
| C46-C49 | Registry | stable insertion sort, first match; C48 violated, partial |
| C64, C65 | SourceSystem | simulation for any source that serves a resource, then the theorems of C01-C03, C32 and C62. C64 violated by backward seeks and by stalls with bounded storage; C65 violated by an error of the reader |
| C66, C67 | Create | case analysis; C67 discharges the hypotheses of C61, C62, C64 and C65 about the start, the batch size and `on_finish` for the constructors and every sequence of settings calls |
| C68 | Jump | for storage that keeps everything the argument of C62, from the target of the last seek on; for bounded storage `Proof/Sys/WinSeek*.lean` follow which byte each slot of the ring holds. Violated for bounded storage on seekable sources |
| C69 | ProcessSystem, CreateProcess | invariant over where the task is, what was done to the process and the log; `PReach` ranges over every history of task, consumer, processes and failing system calls. Violated for the earlier commands and for a process that closes its output and goes on |
| C70 | ProcessSystem | simulation: every history with a process is one with a reader whose `on_finish` answers like that process, so the theorems of C65 carry over |
| C71 | System, infinite histories (`Exec`, `Fair`) | a measure (bytes missing from the downloaded ranges, then bytes left in the requested range, then reconnects) that every chunk and every end decreases and every other step keeps, so the task waits only finitely often; then it runs to its end by fairness. Violated if the transport keeps ending without delivering. Carried over to HTTP, OpenDAL, readers and processes as in C63; for a process the task also waits for it to exit, which is assumed (`PRun.exits`) |
| C72 | System, infinite histories | every call returns (C63, C71), every read that returns a full buffer adds to what was delivered, which is bounded by the resource; so some read is short or fails, and C64 says what a short read means. Carried over to HTTP, OpenDAL, readers and processes as in C63 |
| C73 | Tso | the system with a store buffer is simulated by the system without: a consumer whose store is delayed is seen as still standing before the store, and catches up (at most three steps) when the buffer is emptied; the task may have more stored wake-ups than before. For infinite histories each moment becomes three; fairness carries over if the task never waits for the consumer. Violated with bounded storage |
| C74 | Abort | a dropped task is one that stands still, having signalled nothing; the steps of the consumer do not look at where the task is, so a history with a shutdown is one without, with the task at another place. After the shutdown nothing sets the flags a sleeping call waits for. Violated |
| C75 | Cancel, LiveProcess | infinite histories; the scheduler is weakly fair to the task, the consumer and the timer of `reconnect`, and strongly fair to the cancellation branch of `select!` (which picks at random). A task that waits for the source infinitely often comes to `select!` infinitely often, if every `seek_range` returns, so it sees the cancellation; then it can only end. Violated if a `seek_range` never returns |
| C76 | Calm | each storage has a set of states in which `read` cannot fail for the buffers in question (`Calm`); an invariant says that the storage stays in it, that neither side is at an error, and that nothing failed. It allows any transport. Violated for bounded storage larger than the resource (C24). Over HTTP and OpenDAL together with C77 |
| C77 | Even | without seeks the downloaded ranges are always one range from 0 to where the task writes next, so at the end of the resource there is no gap |
| C78 | Faulty | a wrapper turns every storage into one that fails at arbitrary moments; it is again lawful (Proof/Faulty), except that seeking is not total, so the theorems about sequential reads, reading to the end, panics, returning calls and the end of the download hold for it. A failing write reaches the end of the task with its error. Violated: a seek that fails after the source has jumped |
| C79 | Weak | as C73: a consumer whose store is not visible is seen as still standing before the store, even if it has stored a permit, sent the request for a seek (which then is not in the queue yet) and sleeps; it cannot return before the store is visible, because the task has nothing to tell it (invariant `Tok`). Excluded: a message that is lost because the channel is full. Violated with bounded storage by the history of C73 |
| C80 | Short | two wrappers turn every storage into one with short writes and one with short reads. The laws of storage (Spec/Storage) allow both: a write takes at least one byte, and a read at a written position returns at least one. The wrapped storages are lawful (Proof/Short); providers with short writes belong to `Unbounded`, bounded storage may lie over either, so all properties above include them; those with short reads are `Sparing`, and the theorems of C80 are for these. Missing: as in C01 and C03 |
| C81 | Timed | a clock beside the system; `since` is when the running time-out was created. Lower bound (no early reconnect) for all histories; upper bounds for histories in which time passes only while the task has nothing to do and timers are punctual (`Punctual`); such histories never come to a point beyond which time cannot pass (`C81_time_passes`, `C81_silence_goes_on`). Without the clock the histories are exactly those of Model/System. Missing: sources that yield errors or do not answer a range request, where it is false, and silence during which the consumer seeks (each seek that the task takes restarts the timer) |
| C82 | System, infinite histories | the measure of C71 and C72 goes down with every non-empty chunk and with every end at the proper place (`Advancing` in Spec/Live asks for one of them again and again); other ends leave it where it is, because the task asks for the first missing byte again. For HTTP `HAdvancing`, and `Answered` for the version in which no read fails. Missing: adaptive storage (its streams have no length), and for bounded storage reconnects while received bytes wait to be written, where it is false (C35) |
| C83 | System, histories with all their steps (`Hist` in Spec/Requests) | a potential: requests made so far, plus the gaps that lie open behind and ahead of the writer, plus two for every seek that is not handled yet, never exceeds 2 × seeks + connections that broke off; a seek opens at most one gap and makes one request, an end closes or uses up one (Proof/Sys/Requests). Over HTTP and OpenDAL by simulation; a reader of an object store ends only at the end of its range, so there the bound is 2 × seeks. For every storage and transport the weaker count: each request is paid for by a seek or by an end of a connection. Missing: the sharp bound for bounded storage |
| C84 | System, histories with all their steps | invariant: between the writer and the end of the range that was asked for nothing is stored, and everything that was received is stored or about to be written (Proof/Sys/Twice); so the positions of received bytes are all different. Violated by a reconnect while a gap is being filled, and without a known length. Partial: reconnects only succeed while the connection is to deliver everything up to the end; sequential consumers without any such condition. Over HTTP and OpenDAL by simulation, stated as the total length of what was received; the violation is shown there too |
| C85 | Files | invariant: no two streams have the same file, and only the name that its reader holds leads to a stream's file; hence every operation acts on what the stream sees as on a file of its own (non-interference, by induction over histories of any number of streams and other programs). Violated where dropping a stream removes a file that another program has made under the name meanwhile |
| C86 | Middleware | induction over histories of additions and creations (a client holds a copy of the list), and over the requests of a stream's life: middlewares that note what passes through them note each request once, in the order of addition |
| C87 | System, infinite histories | calls return (C63), reads succeed (C76), short reads need an end of the transport (C13), and every read that is not short adds to what was delivered: so any number of bytes is reached. The hypotheses are met by a history in which task, call, transport and consumer take turns for ever. Missing: for bounded storage, reconnects while received bytes wait to be written (false there: `C87_never_dry_bounded_violated`) |
| C88 | HTTP system, any server | the system leaves it open where a transport resumes, so a server that sends anything at all is a transport for some resource: the tape of everything that arrives (`Proof/Wild`). The theorems about the system that assume nothing of the transport then hold for every server. Missing: panics with bounded storage in builds with overflow checks after a seek (C39), seeks with bounded storage (C63) |
| C89 | System; HTTP system, any server | invariant `Line` (`Proof/Sys/Line`): without seeks, or with a source that cannot seek, the storage holds what it accepted, in order, at consecutive places, whatever the transport delivers; reads are read off the storage, and what was accepted is a prefix of what was received (C41). HTTP through `Proof/Wild`. Violated for memory made for a known length; `_partial` for every storage |
| C90 | System with a source that is a program, any program | as C88, with the tape of what the polls return (`Proof/WildSource`); `Polite` says what is asked of the program. Missing: panics with bounded storage in builds with overflow checks after a seek (C39), seeks with bounded storage (C63); memory made for a known length (C89) |
| C91 | System; HTTP system, any server; any source | `Proof/Gentle`: what a storage needs so that reading and seeking do not panic, for each storage; `Proof/Sys/ReaderPanic`: the position of the consumer is at most the furthest seek plus what was read. `Props/ReturnValue` and `Props/SequentialPanic` combine this with C63, C88 and C90: calls return a value or an error |
| C50-C53 | Process | list functions and decision table; C52 violated, partial |
| C54, C60 | Readers | one poll of an empty buffer, then induction over polls |
| C55 | Settings | builder laws |
| C56 | System | violated: the truncated run never finishes (theorem over all histories) |
| C57 | System | violated (channel full); partial |
| C58 | System | violated (check-then-wait race); partial |

Properties that cannot be expressed: none of the above; timing ("immediately")
is expressed as "in the same step, without waiting".

## 4. Disagreements between the code and the properties

Each is a theorem with suffix `_violated` and a concrete reachable witness.

| id | what happens |
|---|---|
| C01 | an unseekable source that ends before its declared length, memory storage: zeros that were never received are returned |
| C03, C41 | a backward seek races with a chunk; bytes left over from the prefetch survive a seek with bounded storage |
| C06 | a seek before the start wraps and is clamped to the end |
| C16, C18 | a task paused on full storage is not woken by a seek and does not look at the cancellation |
| C19 | the token that requests cancellation also signals completion |
| C23, C24 | forward-then-backward seeks underflow a counter of the bounded storage; its size is clamped to the content length |
| C26 | adaptive storage reports no capacity, so a read larger than its buffer waits for ever |
| C28, C29 | memory storage returns positions that were not written, and panics for a reader beyond its end |
| C31 | inverted and empty range requests |
| C35, C36 | a reconnect with pending prefetch bytes duplicates them; on_reconnect is called after a failed reconnect |
| C37 | a transport error on a stream of unknown length looks like the end |
| C39 | an empty first chunk panics the task; so does a writer seek with overflow checks |
| C44, C59 | a reconnect without ranges starts over and accepts error pages; a seek accepts the full body of a server that ignores ranges |
| C48 | a resubmitted input may select an earlier entry |
| C52 | a process that fails after writing its output leaves a successful stream |
| C56 | a truncated seekable resource is requested again for ever |
| C61 | after seeks to 8, 2 and 15 the header `bytes=15-7` is sent; a server that follows RFC 9110 answers with the whole resource, which is stored from 15 on and returned to the consumer. Two forward jumps are enough and nothing needs to fail: the consumer finds that 15 is not downloaded, the task downloads the rest and goes back to fill the gap from 2 to 8, and only then does the request for 15 arrive; correct bytes are overwritten by wrong ones |
| C62 | HTTP with bounded storage of 8: the prefetch fills it, 2 received bytes wait, the connection stalls; the task reconnects at 8, writes the waiting bytes and then receives them again. A consumer that reads to the end gets bytes 9 and 10 twice and never 19 and 20 |
| C63 | bounded storage, buffer full, the task waits for a read; a seek to the position the task wants to write next is not answered. Both sleep for ever (the infinite form of C16) |
| C64 | the witnesses of C03 and C62 with an OpenDAL object as the source |
| C65 | a reader delivers 4 of 10 bytes and fails; the error is logged, `ReaderStream` has given the reader up and reports its end, the task reports the download complete, and the consumer reads 4 bytes and then a normal end of stream. With a declared length and memory storage it reads 4 bytes and then zeros |
| C03 | bounded storage of 10, one jump ahead, the connection ends early: the skipped gap is filled over bytes the consumer has not read, then the download goes on; the consumer reads bytes 7 and 8 in the place of 17 and 18 |
| C68 | 20 bytes through a bounded storage of 10, one jump ahead: at the end the skipped gap is filled, which moves the writer behind the consumer; the next read returns nothing and no error, and the last 10 bytes are lost. Without a declared length a seek request that is taken late lets the read and write counts drift apart, with the same effect in the middle of the stream |
| C69 | `a \| b`: the consumer drops the stream, `b` is killed, `a` is neither killed nor awaited and still runs (also if `b` cannot be started at all). And a process that closes its output but goes on: after the end of the output `on_finish` waits for it without looking at the cancellation; cancelling and dropping the stream do not end it |
| C71 | 2 of 10 bytes arrive and the connection ends; each request for the rest is answered with an empty body. The task asks again immediately, without delay or limit, and a read that waits never returns (`finish_or_find_next_gap` and `seek_range` keep no count of attempts). For HTTP: every body breaks off before its first byte, and the task sends `bytes=4-19` for ever (Props/EndlessHttp) |
| C15, C73, C79 | x86 and weaker processors, bounded storage of 4: the consumer stores its position (delayed), sees that the task does not want to be woken, and sleeps; the task fills the buffer, sees no request, and sleeps. Both sleep for ever although the data is there. `request_position` is relaxed, and the load of `write_requested` after it does not wait for it; a `SeqCst` store would |
| C74 | the runtime is shut down while a `read` waits for data: the task is dropped at its `await`; neither `position_reached` nor the token is signalled, so the read sleeps for ever, and so does every later call that has to wait, and `wait_for_completion`. A later seek is not refused either, because the error of `try_send` on the closed channel is ignored. (A runtime that waits for its blocking threads when it is dropped then hangs too.) A guard that signals when the task is dropped would help |
| C75 | the consumer seeks, the task calls `seek_range`, and the server accepts the request but never answers: `seek` (source/mod.rs 467-471) awaits it outside of the `select!` and without the timeout that `reconnect` and `next` have. Cancelling or dropping has no effect, the task stays for ever, and so does a waiting `seek`. A timeout around `seek_range`, or a `select!` with the token, would help |
| C76 | bounded storage configured with 20 bytes, a resource of 10: a read with a buffer of 12 bytes passes the check against the capacity, and fails in the storage, which was created with 10 bytes (C24) |
| C78 | the consumer seeks to a position that was not downloaded; the source jumps there; then `seek` of the storage fails (lib.rs 618-620). The consumer stays at the old position, the source goes on behind the new one. A read at the old position is released as soon as something was written and returns bytes that were never received. Asking the source for the old position again (or waiting in `handle_read` for the requested range and not only for the notification) would help |
| C81 | `retry_timeout` is documented as "no new data for a duration greater than this timeout". (a) A source that yields an error (or an empty chunk) more often than that is never reconnected, because `timeout(..)` is created anew in each iteration (source/mod.rs 203). (b) While the source is asked for a range (`seek_range`, 467) no timer runs: a server that accepts the request and does not answer is never given up |
| C57, C58 | a second seek message is dropped; an available range may sleep until the next chunk |
| C84 | a reconnect does not repeat the end of the range that was asked for: a stall while a gap is being filled makes everything behind the gap arrive a second time; without a known length every seek back does so |
| C85 | dropping a stream removes whatever its file's name leads to by then: if something else removed the temp file and a program used the name again, that program's file is deleted (behaviour of `NamedTempFile`) |
| C87 | bounded storage on an endless stream: one stall while bytes of the prefetch wait for room shifts everything that the consumer receives from then on (the bytes received again are stored behind the waiting ones, C35) |
| C89 | memory storage made for a known length hands out the zeros of places that were never written, if the download ended early (cf. C01) |
| C91 | (a) memory storage of unknown length: the consumer seeks beyond the end, the stream ends, `seek` succeeds and the next `read` panics on a slice (memory.rs, cf. C29); (b) bounded storage in builds with overflow checks: a seek forward within what is stored and then one back subtracts more than was read (bounded.rs); (c) the same builds: `SeekFrom::Current(i64::MAX)` behind position 0 overflows in `get_absolute_seek_position` |

## 5. Tests against wrong programs

`seeded/LOG.jsonl` has one line per edit. The edit is made in a copy of the
project outside this repository. Every declaration that then fails to check has
its proof replaced by `sorry`, until the copy builds; "failed" lists the
property theorems that depend on such a declaration. This is coarser than being
false of the edited program: theorems that share an invariant fail together.
"survived" lists the other theorems of the properties that the edit concerns;
a theorem about a different clause of the property, or a witness of a violation
that the edit does not remove, is expected there. An edit of `step` is made in
its case description `Tr` as well, since otherwise only the lemma that connects
the two would fail.

The lines E01 to E72 were obtained in another way, since removing proofs takes
long. (Ids that are missing were duplicates of earlier edits.) The edited model is
run, in two tests:

- With a source that does anything: from each of 64 configurations (16 settings with
  temp file, memory, bounded and adaptive storage; E01 to E20 without adaptive) 40 to
  80 pseudo-random histories of 220 actions, followed by a fair completion. The
  conclusions of the C90 theorems, of C13 and of C62 are evaluated in the state reached.
- For most lines from E31 on ("survived" then names C02 or C31), also with a transport
  that serves one resource: from each of 64 configurations 90 histories of 260 actions,
  a third each without seeks, with forward seeks and with any seeks. The conclusions of
  C02, C03, C05, C31, C33, C38, C40, C84 and C91 are evaluated; those of C05 and of the forward seeks of C03 on bounded
  storage in E31, E62 and from E64 on only.

Where a line says so, a theorem about a single component was evaluated directly on a
chosen input. "failed" lists theorems whose conclusion was false for a history that
meets their hypotheses, so these theorems are false of the edited model. "survived"
lists those for which no such history was found, which does not show that they are
true of it. The same tests find nothing wrong with the model itself. They have no
bearing on the proofs, which are for all histories.
