import Verif.Proof.Cancel
import Verif.Props.LiveProcess

/-!
# Property C75: a cancelled download ends

Infinite histories with fair schedulers, in which the download is cancelled at some time: the task
ends, and calls return, whatever the transport does.
-/

set_option linter.unusedVariables false

namespace SD

variable {P : Provider} {c : Cfg}

/-- C75 for storage that keeps everything: a download that is cancelled ends, whatever the
transport delivers or fails to deliver, for ever, and whatever the consumer calls, as long as every
`seek_range` returns (and no chunk is empty, C39). -/
theorem C75_cancel_ends_download_unbounded_partial (hP : Unbounded c.contentLength P) (hb : c.batchSize ≠ 0)
    {s0 : Sys P.S} (h0 : Starts P c s0) {r : Nat → Sys P.S} {act : Nat → Option Act} (he : Exec c s0 r act)
    (hfs : Fair c r act .src) (hfr : Fair c r act .rdr) (ht : Fair c r act .reconnTimeout)
    (hp : StronglyFair (step c) r act .seeCancel) (hs : AnswersSeeks r) (hne : ∀ j, act j ≠ some (.chunk 0))
    {i : Nat} {a : Act} (ha : act i = some a) (hc : Cancels c a) : ∃ j, i < j ∧ (r j).spc = .ended :=
  cancelled_ends hP hb h0 ⟨he, hfs, hfr, ht, hp, hne⟩ hs (cancels_now he ha hc)

/-- C75: moreover every `read` and `seek`, begun before or after the cancellation, returns; also
when the transport delivers nothing any more. -/
theorem C75_calls_return_unbounded_partial (hP : Unbounded c.contentLength P) (hb : c.batchSize ≠ 0)
    {s0 : Sys P.S} (h0 : Starts P c s0) {r : Nat → Sys P.S} {act : Nat → Option Act} (he : Exec c s0 r act)
    (hfs : Fair c r act .src) (hfr : Fair c r act .rdr) (ht : Fair c r act .reconnTimeout)
    (hp : StronglyFair (step c) r act .seeCancel) (hs : AnswersSeeks r) (hne : ∀ j, act j ≠ some (.chunk 0))
    {i : Nat} {a : Act} (ha : act i = some a) (hc : Cancels c a) {k : Nat} (hk : (r k).rpc.inCall = true) :
    ∃ l, k ≤ l ∧ ((r l).rpc = .idle ∨ (r l).rpc = .panicked) := by
  obtain ⟨j, -, hj⟩ := C75_cancel_ends_download_unbounded_partial hP hb h0 he hfs hfr ht hp hs hne ha hc
  exact returns_after_end h0 he hfr hj hk

/-- C75 for every storage of the crate: a download that is cancelled ends (or panics, C39), or
the task waits for room again and again (C18). -/
theorem C75_cancel_ends_or_waits_for_room_partial (hP : Supported c.contentLength P) {s0 : Sys P.S}
    (h0 : Starts P c s0) {r : Nat → Sys P.S} {act : Nat → Option Act} (he : Exec c s0 r act)
    (hfs : Fair c r act .src) (ht : Fair c r act .reconnTimeout)
    (hp : StronglyFair (step c) r act .seeCancel) (hs : AnswersSeeks r)
    {i : Nat} {a : Act} (ha : act i = some a) (hc : Cancels c a) :
    (∃ j, i < j ∧ ((r j).spc = .ended ∨ (r j).spc = .panicked)) ∨
      ∀ k, ∃ j, k ≤ j ∧ (r j).spc.needsRoom = true := by
  obtain ⟨PP⟩ := supported_positional hP
  exact cancel_ends (Q := PP.pos) he hfs ht hp hs (fun j => (Track.reach PP h0 (he.reach j)).1.1)
    (cancels_now he ha hc)

/-! ### HTTP, OpenDAL, readers and processes -/

/-- C75 for HTTP and storage that keeps everything, as long as the task asks for proper ranges
(C61) and the server answers each of these requests.  The body may stall, fail, end early, for ever
and again and again. -/
theorem C75_http_cancel_ends_download_partial (hP : Unbounded c.contentLength P) (hb : c.batchSize ≠ 0)
    {remote : List Byte} {mime : Text → Option (Text × Text)} {answer : Answer} (hA : RangeServer remote answer)
    {w0 : HSys P.S} (h0 : HStarts P c mime answer w0) {r : Nat → HSys P.S} {act : Nat → Option HAct}
    (h : HRun c (RangeServer remote) w0 r act) (hok : ∀ i a, act i = some a → RangesOk (r i) a)
    (ht : FairFor (hstep c) r act (.sys .reconnTimeout)) (hp : StronglyFair (hstep c) r act (.sys .seeCancel))
    (hs : AnswersSeeks fun i => (r i).sys) {i : Nat} {a : Act} (ha : act i = some (.sys a)) (hc : Cancels c a) :
    (∃ j, i < j ∧ (r j).sys.spc = .ended) ∧
      ∀ k, (r k).sys.rpc.inCall = true → ∃ l, k ≤ l ∧ ((r l).sys.rpc = .idle ∨ (r l).sys.rpc = .panicked) := by
  obtain ⟨act', h1, h2⟩ := http_seen (b := 0) (HInv.starts hA h0) h hok ht hp
  obtain ⟨x, h3, h4⟩ := h2 i _ ha
  cases h4
  have := cancelled_ends (c := c.on remote 0) hP hb h0.2.2.2 h1 hs (cancels_now h1.exec h3 hc)
  obtain ⟨j, hj, h5⟩ := this
  exact ⟨⟨j, hj, h5⟩, fun k hk => returns_after_end (c := c.on remote 0) h0.2.2.2 h1.exec h1.consumer h5 hk⟩

section
variable {R : Source} {W : World R} {remote : List Byte} {strict : Bool} (V : Serves R W remote strict)
include V

theorem src_cancel_ends (hP : Unbounded c.contentLength P) (hb : c.batchSize ≠ 0) {w0 : XSys R P.S} (hi : XInv V w0)
    (h0 : Starts P c w0.sys) {r : Nat → XSys R P.S} {act : Nat → Option (XAct R)} (h : XRun c W w0 r act)
    (ht : FairFor (xstep R c) r act (.sys .reconnTimeout)) (hp : StronglyFair (xstep R c) r act (.sys .seeCancel))
    (hs : AnswersSeeks fun i => (r i).sys) {i : Nat} {a : Act} (ha : act i = some (.sys a)) (hc : Cancels c a) :
    (∃ j, i < j ∧ (r j).sys.spc = .ended) ∧
      ∀ k, (r k).sys.rpc.inCall = true → ∃ l, k ≤ l ∧ ((r l).sys.rpc = .idle ∨ (r l).sys.rpc = .panicked) := by
  obtain ⟨act', h1, h2⟩ := src_seen V (b := 0) hi h ht hp
  obtain ⟨x, h3, h4⟩ := h2 i _ ha
  cases h4
  obtain ⟨j, hj, h5⟩ := cancelled_ends (c := c.on remote 0) hP hb h0 h1 hs (cancels_now h1.exec h3 hc)
  exact ⟨⟨j, hj, h5⟩, fun k hk => returns_after_end (c := c.on remote 0) h0 h1.exec h1.consumer h5 hk⟩

end

/-- C75 for OpenDAL and storage that keeps everything. -/
theorem C75_opendal_cancel_ends_download (hP : Unbounded c.contentLength P) (hb : c.batchSize ≠ 0)
    {object : List Byte} {w0 : XSys opendalSource P.S} (h0 : OStarts P c object w0)
    {r : Nat → XSys opendalSource P.S} {act : Nat → Option (XAct opendalSource)}
    (h : XRun c (storeWorld object) w0 r act) (ht : FairFor (xstep opendalSource c) r act (.sys .reconnTimeout))
    (hp : StronglyFair (xstep opendalSource c) r act (.sys .seeCancel)) (hs : AnswersSeeks fun i => (r i).sys)
    {i : Nat} {a : Act} (ha : act i = some (.sys a)) (hc : Cancels c a) :
    (∃ j, i < j ∧ (r j).sys.spc = .ended) ∧
      ∀ k, (r k).sys.rpc.inCall = true → ∃ l, k ≤ l ∧ ((r l).sys.rpc = .idle ∨ (r l).sys.rpc = .panicked) :=
  src_cancel_ends (opendalServes object) hP hb (XInv.opendal h0) h0.2.2 h ht hp hs ha hc

/-- C75 for a reader, which may fail, and storage that keeps everything. -/
theorem C75_reader_cancel_ends_download (hP : Unbounded c.contentLength P) (hb : c.batchSize ≠ 0)
    {bytes : List Byte} {w0 : XSys asyncReadSource P.S} (h0 : RStarts P c bytes w0)
    {r : Nat → XSys asyncReadSource P.S} {act : Nat → Option (XAct asyncReadSource)}
    (h : XRun c (readerWorld true) w0 r act) (ht : FairFor (xstep asyncReadSource c) r act (.sys .reconnTimeout))
    (hp : StronglyFair (xstep asyncReadSource c) r act (.sys .seeCancel)) (hs : AnswersSeeks fun i => (r i).sys)
    {i : Nat} {a : Act} (ha : act i = some (.sys a)) (hc : Cancels c a) :
    (∃ j, i < j ∧ (r j).sys.spc = .ended) ∧
      ∀ k, (r k).sys.rpc.inCall = true → ∃ l, k ≤ l ∧ ((r l).sys.rpc = .idle ∨ (r l).sys.rpc = .panicked) :=
  src_cancel_ends (readerServes bytes true) hP hb (XInv.reader true h0) h0.2.2 h ht hp hs ha hc

theorem pstep_enabled {S : Storage} {w : PSys S} {x : XAct asyncReadSource} {env : Proc.ProcEnv}
    (hx : x.isSrc = false) (h : xstep asyncReadSource (c.finishing env) w.x x ≠ none) : pstep c w (.x x) ≠ none := by
  rw [xstep_onFinish (by simp [hx])] at h
  simp only [pstep, hx, Bool.and_false, Bool.false_eq_true, if_false]
  split
  · simp
  · contradiction

/-- C75 for a pipeline of processes, whose output may fail to be read, and storage that keeps
everything: moreover the end of the last process has been collected, even if it would have run for
ever. -/
theorem C75_process_cancel_ends_download (hP : Unbounded c.contentLength P) (hb : c.batchSize ≠ 0)
    {os : Proc.Os} {cmds : List Proc.Command} {bytes : List Byte} {w0 : PSys P.S}
    (h0 : PStarts P c os cmds bytes w0) {r : Nat → PSys P.S} {act : Nat → Option PAct}
    (h : PRun c (readerWorld true) w0 r act) (ht : FairFor (pstep c) r act (.x (.sys .reconnTimeout)))
    (hp : StronglyFair (pstep c) r act (.x (.sys .seeCancel))) (hs : AnswersSeeks fun i => (r i).x.sys)
    {i : Nat} {a : Act} (ha : act i = some (.x (.sys a))) (hc : Cancels c a) :
    (∃ j, i < j ∧ (r j).x.sys.spc = .ended ∧ (r j).last.reaped = true) ∧
      ∀ k, (r k).x.sys.rpc.inCall = true →
        ∃ l, k ≤ l ∧ ((r l).x.sys.rpc = .idle ∨ (r l).x.sys.rpc = .panicked) := by
  obtain ⟨env, hx⟩ := process_exec h
  obtain ⟨⟨j, hj, h1⟩, h2⟩ := C75_reader_cancel_ends_download (c := c.finishing env) hP hb (h0.reader env) hx
    (fun i hen => by
      obtain ⟨j, hj, ha⟩ := ht i (fun j hj => pstep_enabled rfl (hen j hj))
      exact ⟨j, hj, by rw [ha]; rfl⟩)
    (fun hen i => by
      obtain ⟨j, hj, ha⟩ := hp (fun i => by
        obtain ⟨j, hj, h⟩ := hen i
        exact ⟨j, hj, pstep_enabled rfl h⟩) i
      exact ⟨j, hj, by rw [ha]; rfl⟩)
    hs (i := i) (a := a) (by rw [ha]; rfl) hc
  exact ⟨⟨j, hj, h1, ((PInv.starts h0).reach (Run.preach h j)).gone (Or.inr (Or.inl h1))⟩, h2⟩

/-! ### The server that never answers -/

section
variable {W A B : Type} {st : W → A → Option W} {g : W → B → Bool} {f : W → B → A}

theorem strong_trace {w0 : W} {bs : List B} {a : A} (h : st (trace st g f w0 bs bs.length) a = none) :
    StronglyFair st (trace st g f w0 bs) (traceAct st g f w0 bs) a := by
  intro hi
  obtain ⟨j, hj, h'⟩ := hi bs.length
  rw [trace_end hj] at h'
  exact absurd h h'

theorem trace_at {w0 : W} {bs : List B} {i : Nat} {b : B} (h1 : bs[i]? = some b)
    (h2 : (g (trace st g f w0 bs i) b && (st (trace st g f w0 bs i) (f (trace st g f w0 bs i) b)).isSome) = true) :
    traceAct st g f w0 bs i = some (f (trace st g f w0 bs i) b) := by
  simp [traceAct, h1, pick, h2]

theorem answers_trace {S : Storage} {sys : W → Sys S} {w0 : W} {bs : List B}
    (h : (sys (trace st g f w0 bs bs.length)).spc.asksRange = false) :
    AnswersSeeks fun i => sys (trace st g f w0 bs i) := by
  intro i _
  refine ⟨max i bs.length, by omega, ?_⟩
  dsimp only
  rw [trace_end (by omega)]
  exact h

end

theorem exec_trace {S : Storage} {c : Cfg} {g : Sys S → Act → Bool} {s0 : Sys S} {bs : List Act} :
    Exec c s0 (trace (step c) g (fun _ a => a) s0 bs) (traceAct (step c) g (fun _ a => a) s0 bs) :=
  ⟨(run_trace _ _).start, (run_trace _ _).pause, (run_trace _ _).next⟩

/-- Every action is allowed. -/
def anyB {W : Type} (_ : W) (_ : Act) : Bool := true

/-- The consumer seeks to 8, the task asks for that range, and the download is cancelled. -/
def hangs : List Act :=
  [.chunk 2] ++ srcs 6 ++ [.seek (.start 8)] ++ rdrs 3 ++ [.recvSeek, .src, .cancel]

/-- C75 fails if a `seek_range` does not return: the task does not look at the cancellation
while it waits for it, and no timeout applies.  The consumer seeks to 8, the task asks the server,
which never answers; the download is cancelled, but the task does not end and the `seek` does not
return. -/
theorem C75_cancel_ends_download_violated :
    ∃ (s0 : Sys memStorage) (r : Nat → Sys memStorage) (act : Nat → Option Act) (i : Nat),
      Starts memProvider demoCfg s0 ∧ Exec demoCfg s0 r act ∧ Fair demoCfg r act .src ∧ Fair demoCfg r act .rdr ∧
      Fair demoCfg r act .reconnTimeout ∧ StronglyFair (step demoCfg) r act .seeCancel ∧
      (∀ j, act j ≠ some (.chunk 0)) ∧ act i = some .cancel ∧
      ∀ j, i < j → (r j).spc = .seeking 8 (some 10) ∧ (r j).rpc = .sWait 8 := by
  refine ⟨init (S := memStorage) demoCfg demoMem10, trace (step demoCfg) anyB (fun _ a => a) _ hangs,
    traceAct (step demoCfg) anyB (fun _ a => a) _ hangs, 13, ⟨rfl, demoMem10, rfl, rfl⟩, exec_trace,
    fair_trace (by decide +kernel), fair_trace (by decide +kernel), fair_trace (by decide +kernel),
    strong_trace (by decide +kernel), fun j hj => ?_, by decide +kernel, fun j hj => ?_⟩
  · obtain ⟨b, h1, -, h2, -⟩ := traceAct_some hj
    subst h2
    exact absurd (List.mem_of_getElem? h1) (by decide +kernel)
  · rw [trace_end (by simp [hangs, srcs, rdrs]; omega)]
    decide +kernel

/-- C75 for HTTP in the same way: the server accepts the request for a range, and never
answers. -/
theorem C75_http_cancel_ends_download_violated :
    ∃ (w0 : HSys memStorage) (r : Nat → HSys memStorage) (act : Nat → Option HAct) (i : Nat),
      HStarts memProvider cfg20 (fun _ => none) (server20 headers20) w0 ∧
      HRun cfg20 (RangeServer bytes20) w0 r act ∧ (∀ i a, act i = some a → RangesOk (r i) a) ∧
      FairFor (hstep cfg20) r act (.sys .reconnTimeout) ∧ StronglyFair (hstep cfg20) r act (.sys .seeCancel) ∧
      act i = some (.sys .cancel) ∧
      ∀ j, i < j → (r j).sys.spc = .seeking 8 (some 20) ∧ (r j).sys.rpc = .sWait 8 := by
  let w0 : HSys memStorage := { sys := init cfg20 demoMem20, http := stream20 headers20 (some 20) }
  refine ⟨w0, trace (hstep cfg20) (hrangesB cfg20) (fun _ => toHAct (server20 headers20)) w0 hangs,
    traceAct (hstep cfg20) (hrangesB cfg20) (fun _ => toHAct (server20 headers20)) w0 hangs, 13,
    ⟨server20_new (by decide +kernel), rfl, rfl, rfl, demoMem20, rfl, rfl⟩,
    ⟨run_trace _ _, fun i a an ha he => ?_, fair_trace (by decide +kernel), fair_trace (by decide +kernel)⟩,
    guard_trace (fun w b h => (hranges_of h).1), fair_trace (by decide +kernel), strong_trace (by decide +kernel),
    trace_at (b := Act.cancel) rfl (by decide +kernel), fun j hj => ?_⟩
  · obtain ⟨b, -, -, rfl, -⟩ := traceAct_some ha
    cases b <;> simp [HAct.answer, toHAct] at he <;> subst he <;> exact headers20_ok
  · rw [trace_end (by simp [hangs, srcs, rdrs]; omega)]
    decide +kernel

/-! ### Histories that meet the hypotheses -/

/-- The transport delivers two bytes and then nothing any more; a read sleeps; the task tries to
reconnect, and is cancelled meanwhile. -/
def stalls : List Act :=
  [.chunk 2] ++ srcs 6 ++ [.read 8] ++ rdrs 4 ++ [.chunkErr, .timeout, .cancel, .reconnTimeout, .timeout, .reconnTimeout,
    .seeCancel] ++ srcs 4 ++ rdrs 9

example : ∃ (s0 : Sys memStorage) (r : Nat → Sys memStorage) (act : Nat → Option Act),
    Starts memProvider demoCfg s0 ∧ Exec demoCfg s0 r act ∧ Fair demoCfg r act .src ∧ Fair demoCfg r act .rdr ∧
      Fair demoCfg r act .reconnTimeout ∧ StronglyFair (step demoCfg) r act .seeCancel ∧ AnswersSeeks r ∧
      (∀ j, act j ≠ some (.chunk 0)) ∧ act 14 = some .cancel ∧ (r 14).rpc = .rWait 8 8 ∧
      (r 100).rpc = .idle ∧ (r 100).spc = .ended := by
  refine ⟨init (S := memStorage) demoCfg demoMem10, trace (step demoCfg) anyB (fun _ a => a) _ stalls,
    traceAct (step demoCfg) anyB (fun _ a => a) _ stalls, ⟨rfl, demoMem10, rfl, rfl⟩, exec_trace,
    fair_trace (by decide +kernel), fair_trace (by decide +kernel), fair_trace (by decide +kernel),
    strong_trace (by decide +kernel), answers_trace (sys := fun s => s) (by decide +kernel), fun j hj => ?_,
    by decide +kernel, by decide +kernel, by decide +kernel, by decide +kernel⟩
  obtain ⟨b, h1, -, h2, -⟩ := traceAct_some hj
  subst h2
  exact absurd (List.mem_of_getElem? h1) (by decide +kernel)

/-- The same for HTTP. -/
example : ∃ (w0 : HSys memStorage) (r : Nat → HSys memStorage) (act : Nat → Option HAct),
    HStarts memProvider cfg20 (fun _ => none) (server20 headers20) w0 ∧
      HRun cfg20 (RangeServer bytes20) w0 r act ∧ (∀ i a, act i = some a → RangesOk (r i) a) ∧
      FairFor (hstep cfg20) r act (.sys .reconnTimeout) ∧ StronglyFair (hstep cfg20) r act (.sys .seeCancel) ∧
      (AnswersSeeks fun i => (r i).sys) ∧ act 14 = some (.sys .cancel) ∧ (r 14).sys.rpc = .rWait 8 8 ∧
      (r 100).sys.rpc = .idle ∧ (r 100).sys.spc = .ended := by
  let w0 : HSys memStorage := { sys := init cfg20 demoMem20, http := stream20 headers20 (some 20) }
  refine ⟨w0, trace (hstep cfg20) (hrangesB cfg20) (fun _ => toHAct (server20 headers20)) w0 stalls,
    traceAct (hstep cfg20) (hrangesB cfg20) (fun _ => toHAct (server20 headers20)) w0 stalls,
    ⟨server20_new (by decide +kernel), rfl, rfl, rfl, demoMem20, rfl, rfl⟩,
    ⟨run_trace _ _, fun i a an ha he => ?_, fair_trace (by decide +kernel), fair_trace (by decide +kernel)⟩,
    guard_trace (fun w b h => (hranges_of h).1), fair_trace (by decide +kernel), strong_trace (by decide +kernel),
    answers_trace (sys := HSys.sys) (by decide +kernel), trace_at (b := Act.cancel) rfl (by decide +kernel), by decide +kernel, by decide +kernel,
    by decide +kernel⟩
  obtain ⟨b, -, -, rfl, -⟩ := traceAct_some ha
  cases b <;> simp [HAct.answer, toHAct] at he <;> subst he <;> exact headers20_ok

/-- The same for a process that hangs after two bytes; it is killed. -/
example : ∃ (w0 : PSys tmpStorage) (r : Nat → PSys tmpStorage) (act : Nat → Option PAct),
    PStarts tmpProvider cfgOpen goodOs twoCmds bytes10 w0 ∧ PRun cfgOpen (readerWorld true) w0 r act ∧
      FairFor (pstep cfgOpen) r act (.x (.sys .reconnTimeout)) ∧
      StronglyFair (pstep cfgOpen) r act (.x (.sys .seeCancel)) ∧ (AnswersSeeks fun i => (r i).x.sys) ∧
      act 12 = some (.x (.sys .cancel)) ∧ (r 12).x.sys.rpc = .rWait 8 8 ∧ (r 100).x.sys.rpc = .idle ∧
      (r 100).last.killed = true ∧ (r 100).x.sys.spc = .ended := by
  let bs : List PEvent := acts ([.chunk 2] ++ srcs 6 ++ [.read 8] ++ rdrs 4 ++ [.cancel, .seeCancel]) ++
    [.finish true] ++ acts (srcs 4 ++ rdrs 9)
  refine ⟨procWorld, trace (pstep cfgOpen) (PEvent.ok true) PEvent.toPAct procWorld bs,
    traceAct (pstep cfgOpen) (PEvent.ok true) PEvent.toPAct procWorld bs, procWorld_starts,
    ⟨run_trace _ _, guard_trace fun w b hb => ?_, fair_trace (by decide +kernel), fair_trace (by decide +kernel),
      fun i hi => ?_, fun hi => ?_⟩, fair_trace (by decide +kernel), strong_trace (by decide +kernel),
    answers_trace (sys := fun w : PSys tmpStorage => w.x.sys) (by decide +kernel),
    trace_at (b := PEvent.act Act.cancel) rfl (by decide +kernel), by decide +kernel,
    by decide +kernel, by decide +kernel, by decide +kernel⟩
  · cases b with
    | act a => exact okR_of hb
    | _ => trivial
  · refine absurd ?_ (hi (max i bs.length) (by omega))
    rw [trace_end (by omega)]
    decide +kernel
  · obtain ⟨j, hj, h⟩ := hi bs.length
    rw [trace_end hj] at h
    exact absurd h (by decide +kernel)

end SD
