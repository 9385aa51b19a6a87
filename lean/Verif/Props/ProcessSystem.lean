import Verif.Proof.ProcessSystem
import Verif.Props.Process
import Verif.Props.SourceSystem

/-!
# Properties C69 and C70: the processes of a stream, and what a consumer reads from them

The whole stack: a pipeline of commands, `ProcessStream` over the output of the last one,
download task, storage and reader.
-/

set_option linter.unusedVariables false

namespace SD

/-! ### C69: the processes of a stream end with it -/

theorem PInv.starts {P : Provider} {c : Cfg} {os : Proc.Os} {cmds : List Proc.Command} {bytes : List Byte}
    {w0 : PSys P.S} (h : PStarts P c os cmds bytes w0) : PInv w0 := by
  obtain ⟨⟨out, st, -, -, hl⟩, -, -, -, st', -, hs⟩ := h
  constructor <;> (try rw [hl]) <;> (try rw [hs]) <;> simp [init, SrcPc.past, PChild.started]

theorem PInv.reach {c : Cfg} {S : Storage} {W : World asyncReadSource} {G : PSys S → PAct → Prop} {w0 w : PSys S}
    (h0 : PInv w0) (h : PReach c W G w0 w) : PInv w := by
  induction h with
  | refl => exact h0
  | step _ _ _ hs ih => exact ih.step hs

/-- C69 for the last command of the pipeline: when the download task is over, because it has
finished, failed, was cancelled or panicked, the process does not run any more and its exit
status was collected, whatever the process and the consumer do and whether or not calls to
the operating system fail in `on_finish`. -/
theorem C69_last_process_ends_partial {P : Provider} {c : Cfg} {os : Proc.Os} {cmds : List Proc.Command}
    {bytes : List Byte} {w0 w : PSys P.S} (h0 : PStarts P c os cmds bytes w0)
    (h : PReach c (readerWorld true) PAny w0 w) (he : w.x.sys.spc = .ended ∨ w.x.sys.spc = .panicked) :
    ¬ w.last.Runs ∧ w.last.reaped = true := by
  have hi := (PInv.starts h0).reach h
  have h1 := hi.gone (by rcases he with he | he <;> simp [he])
  exact ⟨hi.exit h1, h1⟩

/-- C69: if the download did not fail, the process was not killed; it has ended by itself. -/
theorem C69_success_waits {P : Provider} {c : Cfg} {os : Proc.Os} {cmds : List Proc.Command}
    {bytes : List Byte} {w0 w : PSys P.S} (h0 : PStarts P c os cmds bytes w0)
    (h : PReach c (readerWorld true) PAny w0 w) (he : w.x.sys.spc = .ended) (hf : w.x.sys.failed = false) :
    ¬ w.last.Runs ∧ w.last.killed = false ∧ w.last.reaped = true := by
  have hi := (PInv.starts h0).reach h
  have h1 := hi.good (by rw [he]; rfl) (by rw [he]; simp) hf
  exact ⟨hi.exit h1.1, h1.2, h1.1⟩

/-- C69: while the download goes on, nothing is done to the process. -/
theorem C69_undisturbed {P : Provider} {c : Cfg} {os : Proc.Os} {cmds : List Proc.Command}
    {bytes : List Byte} {w0 w : PSys P.S} (h0 : PStarts P c os cmds bytes w0)
    (h : PReach c (readerWorld true) PAny w0 w) (hn : ∀ r o, Ev.onFinish r o ∉ w.x.sys.log)
    (hp : w.x.sys.spc ≠ .panicked) : w.last.killed = false ∧ w.last.reaped = false := by
  have hi := (PInv.starts h0).reach h
  have key : w.x.sys.spc.past = true → ∃ r o, Ev.onFinish r o ∈ w.x.sys.log := by
    clear hi hn hp
    obtain ⟨-, -, -, -, st', -, hs⟩ := h0
    induction h with
    | refl => rw [hs]; simp [init, SrcPc.past]
    | @step w w' a hr hA hg hst ih =>
      intro hpast
      cases a with
      | x a =>
        simp only [pstep] at hst
        split at hst
        · simp at hst
        · rename_i hn
          rw [Bool.and_eq_true] at hn
          split at hst
          · rename_i x1 h1
            simp at hst; subst hst
            rw [release_x] at hpast ⊢
            have hpl := plain_xstep h1 hn
            obtain ⟨r, o, h2⟩ := ih (by rw [← hpl.past]; exact hpast)
            exact ⟨r, o, (hpl.log r o).2 h2⟩
          · simp at hst
      | exitEarly k b => simp [pstep] at hst; subst hst; exact ih hpast
      | exit b => simp [pstep] at hst; subst hst; exact ih hpast
      | finish b =>
        obtain ⟨r, o, h1, h2, h3, h4, h5, h6, h7⟩ := finish_step hst
        exact ⟨r, o, by rw [h7]; simp⟩
  have hpast : w.x.sys.spc.past = false := by
    cases hc : w.x.sys.spc.past
    · rfl
    · obtain ⟨r, o, h1⟩ := key hc
      exact absurd h1 (hn r o)
  have := hi.pre hpast hp
  exact ⟨this.2, this.1⟩

/-- The operating system does not fail in `on_finish`. -/
def POsOk {S : Storage} (_ : PSys S) (a : PAct) : Prop := a ≠ .finish false

/-- C69: when `on_finish` has returned, the process has ended; it was killed only if the
download was cancelled or had failed. -/
theorem C69_finish_ends_process {P : Provider} {c : Cfg} {os : Proc.Os} {cmds : List Proc.Command}
    {bytes : List Byte} {w0 w : PSys P.S} (h0 : PStarts P c os cmds bytes w0)
    (h : PReach c (readerWorld true) POsOk w0 w) {r : Option Kind} {o : Outcome}
    (hr : Ev.onFinish r o ∈ w.x.sys.log) :
    ¬ w.last.Runs ∧ w.last.reaped = true ∧ (r = none → w.last.killed = false) := by
  have hi0 := PInv.starts h0
  have key : (∀ r o, Ev.onFinish r o ∈ w.x.sys.log → w.last.reaped = true ∧ (r = none → w.last.killed = false)) ∧
      PInv w := by
    clear hr r o
    obtain ⟨-, -, -, -, st', -, hs⟩ := h0
    induction h with
    | refl => refine ⟨?_, hi0⟩; rw [hs]; simp [init]
    | @step w w' a hr hA hg hst ih =>
      refine ⟨?_, ih.2.step hst⟩
      obtain ⟨ih, hi⟩ := ih
      cases a with
      | x a =>
        simp only [pstep] at hst
        split at hst
        · simp at hst
        · rename_i hn
          rw [Bool.and_eq_true] at hn
          split at hst
          · rename_i x1 h1
            simp at hst; subst hst
            intro r o hm
            rw [release_x] at hm
            have h2 := ih r o (((plain_xstep h1 hn).log r o).1 hm)
            obtain ⟨d1, d2, d3⟩ := drop_spec w.last
            unfold PSys.release
            split
            · dsimp only; rw [d2 h2.1]; exact h2
            · dsimp only; rw [d2 h2.1]; exact h2
            · exact h2
          · simp at hst
      | exitEarly k b => simp [pstep] at hst; subst hst; exact ih
      | exit b =>
        simp [pstep] at hst; subst hst
        obtain ⟨l1, l2, l3⟩ := leave_reaped w.last b
        intro r o hm
        dsimp only at hm ⊢
        rw [l1, l2]; exact ih r o hm
      | finish b =>
        have hb : b = true := by cases b <;> simp_all [POsOk]
        subst hb
        obtain ⟨r, o, h1, h2, h3, h4, h5, h6, h7⟩ := finish_step hst
        have h8 := hi.pre (by rw [h1]; rfl) (by rw [h1]; simp)
        have h9 := (hi.clean (by rw [h1]; rfl)).2
        intro r' o' hm
        rw [h7] at hm
        rw [h4]
        rcases List.mem_cons.1 hm with hm | hm
        · obtain ⟨rfl, rfl⟩ : r' = r ∧ o' = o := by simpa using hm
          cases r' <;> simp [PChild.finish, PChild.wait, PChild.kill, h8.2]
        · exact absurd hm (h9 r' o')
  have h1 := key.1 r o hr
  exact ⟨key.2.exit h1.1, h1.1, h1.2⟩

/-- C69: after a failure or a cancellation `on_finish` does not wait for the process to end by
itself; it ends the process. -/
theorem C69_cancel_kills_partial {S : Storage} {c : Cfg} {w : PSys S} {k : Kind} {o : Outcome}
    (hp : w.x.sys.spc = .onFin (some k) o) :
    ∃ w', pstep c w (.finish true) = some w' ∧ ¬ w'.last.Runs ∧ w'.last.reaped = true ∧
      (w.last.Runs → w'.last.killed = true) := by
  simp only [pstep, hp, step, srcStep, Proc.procOnFinish, PSys.env]
  simp [PChild.finish, PChild.kill, PChild.Runs]
  intro h
  simp [h]

/-- C69: the processes of the commands before the last are never killed and never
collected. -/
theorem C69_earlier_processes_ignored {P : Provider} {c : Cfg} {os : Proc.Os} {cmds : List Proc.Command}
    {bytes : List Byte} {w0 w : PSys P.S} (h0 : PStarts P c os cmds bytes w0)
    (h : PReach c (readerWorld true) PAny w0 w) :
    w.early.length + 1 = cmds.length ∧ ∀ p ∈ w.early, p.killed = false ∧ p.reaped = false := by
  obtain ⟨⟨out, st, h1, h2, -⟩, -⟩ := h0
  have hc := C51_pipeline h1
  have key : w.early.length = w0.early.length ∧ ∀ p ∈ w.early, p.killed = false ∧ p.reaped = false := by
    clear hc h1
    induction h with
    | refl =>
      rw [h2]
      refine ⟨rfl, fun p hp => ?_⟩
      rw [(List.mem_replicate.1 hp).2]
      exact ⟨rfl, rfl⟩
    | @step w w' a hr hA hg hst ih =>
      cases a with
      | x a =>
        simp only [pstep] at hst
        split at hst
        · simp at hst
        · split at hst
          · simp at hst; subst hst
            rw [release_early]; exact ih
          · simp at hst
      | exitEarly k b =>
        simp [pstep] at hst; subst hst
        refine ⟨by simp [ih.1], fun p hp => ?_⟩
        dsimp only at hp
        rw [List.mem_iff_getElem?] at hp
        obtain ⟨i, hi⟩ := hp
        rw [List.getElem?_modify] at hi
        cases hq : w.early[i]? with
        | none => rw [hq] at hi; simp at hi
        | some q =>
          rw [hq] at hi
          have hq2 := ih.2 q (List.mem_of_getElem? hq)
          simp at hi
          subst hi
          split
          · obtain ⟨l1, l2, l3⟩ := leave_reaped q b
            rw [l1, l2]; exact hq2
          · exact hq2
      | exit b => simp [pstep] at hst; subst hst; exact ih
      | finish b =>
        obtain ⟨r, o, g1, g2, g3, g4, g5, g6, g7⟩ := finish_step hst
        rw [g3]; exact ih
  refine ⟨?_, key.2⟩
  rw [key.1, h2]
  simp
  omega

/-! ### Runs -/

/-- What happens in a test: an action, or an event of a process. -/
inductive PEvent where
  | act (a : Act)
  | exitEarly (k : Nat) (b : Bool)
  | exit (b : Bool)
  | finish (b : Bool)

def PEvent.toPAct {S : Storage} (w : PSys S) : PEvent → PAct
  | .act a => .x (toRAct w.x a)
  | .exitEarly k b => .exitEarly k b
  | .exit b => .exit b
  | .finish b => .finish b

def PEvent.ok {S : Storage} (errors : Bool) (w : PSys S) : PEvent → Bool
  | .act a => okR errors w.x a
  | _ => true

/-- Run a list of events, leaving out those that cannot happen. -/
def prun {S : Storage} (errors : Bool) (g : PSys S → PEvent → Bool) (c : Cfg) (w : PSys S) :
    List PEvent → Option (PSys S)
  | [] => some w
  | e :: es =>
    if e.ok errors w && g w e then
      match pstep c w (e.toPAct w) with
      | some w' => prun errors g c w' es
      | none => prun errors g c w es
    else prun errors g c w es

theorem preach_prun {S : Storage} {errors : Bool} {g : PSys S → PEvent → Bool} {c : Cfg}
    {G : PSys S → PAct → Prop} (hG : ∀ w e, g w e = true → G w (e.toPAct w)) {w0 : PSys S} (es : List PEvent) :
    ∀ {w1 w : PSys S}, PReach c (readerWorld errors) G w0 w1 → prun errors g c w1 es = some w →
      PReach c (readerWorld errors) G w0 w := by
  induction es with
  | nil => intro w1 w h1 h; simp [prun] at h; subst h; exact h1
  | cons e es ih =>
    intro w1 w h1 h
    simp only [prun] at h
    split at h
    · rename_i hge
      rw [Bool.and_eq_true] at hge
      split at h
      · rename_i w2 h2
        refine ih (h1.step ?_ (hG _ _ hge.2) h2) h
        cases e with
        | act a => exact okR_of hge.1
        | _ => trivial
      · exact ih h1 h
    · exact ih h1 h

/-- Actions as events. -/
def acts (as : List Act) : List PEvent := as.map .act

/-- `yt-dlp ... | ffmpeg ...`. -/
def twoCmds : List Proc.Command := [(Proc.YtDlp.new "u".toList).intoCommand, Proc.ffmpegNew "mp3".toList]

/-- Everything can be created and started. -/
def goodOs : Proc.Os := { tmpOk := fun _ => true, spawnOk := fun _ => true }

/-- The start of the examples: two commands, the second writes ten bytes. -/
def procWorld : PSys tmpStorage where
  x := { sys := init cfgOpen { file := [], wp := 0, fp := 0, rbuf := [] }, src := asyncReadNew bytes10 none }
  early := [.started]
  last := .started

theorem procWorld_starts : PStarts tmpProvider cfgOpen goodOs twoCmds bytes10 procWorld :=
  ⟨⟨1, _, rfl, rfl, rfl⟩, rfl, rfl, rfl, _, rfl, rfl⟩

/-- C69 fails for the earlier commands of a pipeline: the consumer drops the stream, the task
ends and the last process is killed; the first one still runs, and nobody holds a handle to
it. -/
theorem C69_processes_end_violated :
    ∃ w0 w : PSys tmpStorage, PStarts tmpProvider cfgOpen goodOs twoCmds bytes10 w0 ∧
      PReach cfgOpen (readerWorld true) PAny w0 w ∧ w.x.sys.rpc = .dropped ∧ w.x.sys.spc = .ended ∧
      w.last.killed = true ∧ ∃ p ∈ w.early, p.Runs := by
  obtain ⟨w, h1, h2⟩ := of_any (o := prun true (fun _ _ => true) cfgOpen procWorld
    (acts ([.chunk 4] ++ srcs 6 ++ [.read 4] ++ rdrs 4 ++ [.drop, .seeCancel]) ++ [.finish true] ++ acts (srcs 3)))
    (p := fun w : PSys tmpStorage => decide (w.x.sys.rpc = .dropped ∧ w.x.sys.spc = .ended ∧ w.last.killed = true ∧
      w.early = [.started])) (by decide +kernel)
  obtain ⟨h3, h4, h5, h6⟩ := of_decide_eq_true h2
  exact ⟨procWorld, w, procWorld_starts, preach_prun (fun _ _ _ => trivial) _ .refl h1, h3, h4, h5,
    .started, by rw [h6]; simp, rfl⟩

/-- In `on_finish` after a success: everything waits for the process. -/
theorem waits_for_process {S : Storage} {c : Cfg} {W : World asyncReadSource} {w w' : PSys S} {o : Outcome}
    (hp : w.x.sys.spc = .onFin none o) (hl : w.last.Runs) (h : PReach c W PRuns w w') :
    w'.last.Runs ∧ w'.x.sys.spc = .onFin none o := by
  induction h with
  | refl => exact ⟨hl, hp⟩
  | @step w w' a hr hA hg hst ih =>
    obtain ⟨i1, i2⟩ := ih
    cases a with
    | x a =>
      simp only [pstep] at hst
      split at hst
      · simp at hst
      · rename_i hn
        rw [Bool.and_eq_true] at hn
        split at hst
        · rename_i x1 h1
          simp at hst; subst hst
          have h2 := (plain_xstep h1 hn).finishing (by rw [i2]; rfl)
          rw [release_x]
          dsimp only
          rw [h2]
          refine ⟨?_, i2⟩
          unfold PSys.release
          dsimp only
          rw [h2, i2]
          exact i1
        · simp at hst
    | exitEarly k b => simp [pstep] at hst; subst hst; exact ⟨i1, i2⟩
    | exit b => exact absurd rfl (hg.1 b)
    | finish b =>
      cases b with
      | false => exact absurd rfl hg.2
      | true =>
        obtain ⟨r, o', g1, g2, -⟩ := finish_step hst
        rw [i2] at g1
        simp at g1
        exact absurd i1 (g2 g1.1.symm rfl)

/-- C69 fails for a process that closes its output and goes on: the consumer has cancelled the
download and dropped the stream, but `on_finish` waits for the process.  As long as the process
does not end by itself it is not killed and the task does not end. -/
theorem C69_cancel_kills_violated :
    ∃ w0 w : PSys tmpStorage, PStarts tmpProvider cfgOpen goodOs twoCmds bytes10 w0 ∧
      PReach cfgOpen (readerWorld false) PRuns w0 w ∧ w.x.sys.cancelled = true ∧ w.x.sys.rpc = .dropped ∧
      ∀ w', PReach cfgOpen (readerWorld false) PRuns w w' → w'.last.Runs ∧ w'.x.sys.spc ≠ .ended := by
  obtain ⟨w, h1, h2⟩ := of_any (o := prun false (fun _ e => match e with | .act _ => true | _ => false) cfgOpen procWorld
    (acts ([.chunk 8] ++ srcs 6 ++ [.chunk 2] ++ srcs 6 ++ [.eof] ++ srcs 4 ++ [.read 4] ++ rdrs 4 ++ [.cancel, .drop])))
    (p := fun w : PSys tmpStorage => decide (w.x.sys.cancelled = true ∧ w.x.sys.rpc = .dropped ∧
      w.x.sys.spc = .onFin none .completed ∧ w.last = .started)) (by decide +kernel)
  obtain ⟨h3, h4, h5, h6⟩ := of_decide_eq_true h2
  refine ⟨procWorld, w, procWorld_starts, preach_prun (fun w e he => ?_) _ .refl h1, h3, h4, fun w' h' => ?_⟩
  · cases e with
    | act a => exact ⟨fun b h => by simp [PEvent.toPAct] at h, by simp [PEvent.toPAct]⟩
    | _ => simp at he
  · have := waits_for_process h5 (by rw [h6]; rfl) h'
    exact ⟨this.1, by rw [this.2]; simp⟩

/-- A download that ends with the process: it is awaited. -/
example : ∃ w : PSys tmpStorage, PReach cfgOpen (readerWorld true) POsOk procWorld w ∧ w.x.sys.spc = .ended ∧
    w.x.sys.failed = false ∧ Ev.onFinish none .completed ∈ w.x.sys.log := by
  obtain ⟨w, h1, h2⟩ := of_any (o := prun true (fun _ e => match e with | .finish b => b | _ => true) cfgOpen procWorld
    (acts ([.chunk 8] ++ srcs 6 ++ [.chunk 2] ++ srcs 6 ++ [.eof] ++ srcs 4) ++ [.exit true, .finish true] ++
      acts (srcs 3)))
    (p := fun w : PSys tmpStorage => decide (w.x.sys.spc = .ended ∧ w.x.sys.failed = false ∧
      Ev.onFinish none .completed ∈ w.x.sys.log)) (by decide +kernel)
  exact ⟨w, preach_prun (fun w e he => by cases e <;> simp_all [POsOk, PEvent.toPAct]) _ .refl h1, of_decide_eq_true h2⟩

/-- A download in progress. -/
example : ∃ w : PSys tmpStorage, PReach cfgOpen (readerWorld true) PAny procWorld w ∧
    (∀ r o, Ev.onFinish r o ∉ w.x.sys.log) ∧ w.x.sys.spc ≠ .panicked ∧ delivered w.x.sys.log = [1, 2, 3, 4] := by
  obtain ⟨w, h1, h2⟩ := of_any (o := prun true (fun _ _ => true) cfgOpen procWorld
    (acts ([.chunk 8] ++ srcs 6 ++ [.read 4] ++ rdrs 4)))
    (p := fun w : PSys tmpStorage => decide (w.x.sys.spc = .sel ∧ delivered w.x.sys.log = [1, 2, 3, 4]))
    (by decide +kernel)
  obtain ⟨h3, h4⟩ := of_decide_eq_true h2
  have hr : PReach cfgOpen (readerWorld true) PAny procWorld w := preach_prun (fun _ _ _ => trivial) _ .refl h1
  exact ⟨w, hr, (((PInv.starts procWorld_starts).reach hr).clean (by rw [h3]; rfl)).2, by rw [h3]; simp, h4⟩

/-! ### C70: what a consumer reads is the output of the last process -/

theorem PStarts.reader {P : Provider} {c : Cfg} {os : Proc.Os} {cmds : List Proc.Command} {bytes : List Byte}
    {w0 : PSys P.S} (h : PStarts P c os cmds bytes w0) (env : Proc.ProcEnv) :
    RStarts P (c.finishing env) bytes w0.x := h.2

/-- C70 with any seeks, for storage that keeps everything and an unknown length: every read
returns the bytes that the process wrote at its position, whatever the process does, also if
reading from it fails. -/
theorem C70_reads_exact_unknown_length {P : Provider} {c : Cfg} (hP : Unbounded c.contentLength P)
    (hb : c.batchSize ≠ 0) (hcl : c.contentLength = none) {os : Proc.Os} {cmds : List Proc.Command}
    {bytes : List Byte} {w0 w : PSys P.S} (h0 : PStarts P c os cmds bytes w0)
    (h : PReach c (readerWorld true) PAny w0 w)
    {pos len : Nat} {fast : Bool} {bs : List Byte} (hr : Ev.readRet pos len fast (.ok bs) ∈ w.x.sys.log) :
    bs = (bytes.drop pos).take bs.length := by
  obtain ⟨-, env, hx⟩ := preach_sim (G' := XAny) (fun _ _ _ => trivial) (fun _ _ _ => trivial) h
  exact C65_reads_exact_unknown_length (c := c.finishing env) hP hb (finishing_keeps c env) hcl (h0.reader env) hx hr

/-- C70 with any seeks, for storage that keeps everything, if reading from the process does not
fail and the declared length, if there is one, is right. -/
theorem C70_reads_exact_partial {P : Provider} {c : Cfg} (hP : Unbounded c.contentLength P)
    (hb : c.batchSize ≠ 0) {os : Proc.Os} {cmds : List Proc.Command} {bytes : List Byte}
    (hd : ∀ n, c.contentLength = some n → n = bytes.length) {w0 w : PSys P.S}
    (h0 : PStarts P c os cmds bytes w0) (h : PReach c (readerWorld false) PAny w0 w)
    {pos len : Nat} {fast : Bool} {bs : List Byte} (hr : Ev.readRet pos len fast (.ok bs) ∈ w.x.sys.log) :
    bs = (bytes.drop pos).take bs.length := by
  obtain ⟨-, env, hx⟩ := preach_sim (G' := XAny) (fun _ _ _ => trivial) (fun _ _ _ => trivial) h
  exact C65_reads_exact_partial (c := c.finishing env) hP hb (finishing_keeps c env) hd (h0.reader env) hx hr

/-- C70 with any seeks, for storage that keeps a window, whatever length is declared. -/
theorem C70_reads_exact_bounded {P : Provider} {c : Cfg} (hP : Windowed c.contentLength P)
    {os : Proc.Os} {cmds : List Proc.Command} {bytes : List Byte} {w0 w : PSys P.S}
    (h0 : PStarts P c os cmds bytes w0) (h : PReach c (readerWorld true) PAny w0 w)
    {pos len : Nat} {fast : Bool} {bs : List Byte} (hr : Ev.readRet pos len fast (.ok bs) ∈ w.x.sys.log) :
    bs = (bytes.drop pos).take bs.length := by
  obtain ⟨-, env, hx⟩ := preach_sim (G' := XAny) (fun _ _ _ => trivial) (fun _ _ _ => trivial) h
  exact C65_reads_exact_bounded (c := c.finishing env) hP (h0.reader env) hx hr

theorem PNoSeek.is {S : Storage} {w : PSys S} {a : XAct asyncReadSource} (h : PNoSeek w (.x a)) : XNoSeek w.x a :=
  fun f hf => h f (by rw [hf])

/-- C70, reading to the end, if reading from the process does not fail and the declared length, if
there is one, is right: once a read has returned fewer bytes than asked for, the consumer has
received exactly what the process wrote. -/
theorem C70_read_to_end_partial {P : Provider} {c : Cfg} (hP : Unbounded c.contentLength P)
    (hb : c.batchSize ≠ 0) {os : Proc.Os} {cmds : List Proc.Command} {bytes : List Byte}
    (hd : ∀ n, c.contentLength = some n → n = bytes.length) {w0 w : PSys P.S}
    (h0 : PStarts P c os cmds bytes w0) (h : PReach c (readerWorld false) PNoSeek w0 w)
    {later earlier : List Ev} {pos len : Nat} {fast : Bool} {bs : List Byte}
    (hl : w.x.sys.log = later ++ .readRet pos len fast (.ok bs) :: earlier) (hlt : bs.length < len) :
    delivered (.readRet pos len fast (.ok bs) :: earlier) = bytes ∧ delivered w.x.sys.log = bytes := by
  obtain ⟨-, env, hx⟩ := preach_sim (G' := XNoSeek) (fun _ _ hg => hg.is) (fun _ _ _ f hf => by simp at hf) h
  exact C65_read_to_end_partial (c := c.finishing env) hP hb (finishing_keeps c env) hd (h0.reader env) hx hl hlt

/-- The same for storage that keeps a window. -/
theorem C70_read_to_end_bounded_partial {P : Provider} {c : Cfg} (hP : Windowed c.contentLength P)
    {os : Proc.Os} {cmds : List Proc.Command} {bytes : List Byte}
    (hd : ∀ n, c.contentLength = some n → n = bytes.length) {w0 w : PSys P.S}
    (h0 : PStarts P c os cmds bytes w0) (h : PReach c (readerWorld false) PNoSeek w0 w)
    {later earlier : List Ev} {pos len : Nat} {fast : Bool} {bs : List Byte}
    (hl : w.x.sys.log = later ++ .readRet pos len fast (.ok bs) :: earlier) (hlt : bs.length < len) :
    delivered (.readRet pos len fast (.ok bs) :: earlier) = bytes ∧ delivered w.x.sys.log = bytes := by
  obtain ⟨-, env, hx⟩ := preach_sim (G' := XNoSeek) (fun _ _ hg => hg.is) (fun _ _ _ f hf => by simp at hf) h
  exact C65_read_to_end_bounded_partial (c := c.finishing env) hP (finishing_keeps c env) hd (h0.reader env) hx hl hlt

/-- C52 in the whole stack: the process ends with a failure status after 4 bytes.  The consumer
reads 4 bytes and then the end of the stream; the download has not failed. -/
theorem C52_stack_failure_is_reported_violated :
    ∃ w0 w : PSys tmpStorage, PStarts tmpProvider cfgOpen goodOs twoCmds (bytes10.take 4) w0 ∧
      PReach cfgOpen (readerWorld false) PNoSeek w0 w ∧ w.last.exit = some false ∧ w.last.killed = false ∧
      w.x.sys.spc = .ended ∧ w.x.sys.failed = false ∧
      ∃ earlier, w.x.sys.log = .readRet 4 6 false (.ok []) :: earlier := by
  let w0 : PSys tmpStorage := { procWorld with
    x := { sys := init cfgOpen { file := [], wp := 0, fp := 0, rbuf := [] }, src := asyncReadNew (bytes10.take 4) none } }
  obtain ⟨w, h1, h2⟩ := of_any (o := prun false
      (fun w e => match e with | .act a => noSeekB w.x.sys a | _ => true) cfgOpen w0
    (acts ([.chunk 4] ++ srcs 6) ++ [.exit false] ++ acts ([.eof] ++ srcs 4) ++ [.finish true] ++
      acts (srcs 3 ++ [.read 4] ++ rdrs 4 ++ [.read 6] ++ rdrs 7)))
    (p := fun w : PSys tmpStorage => decide (w.last.exit = some false ∧ w.last.killed = false ∧
      w.x.sys.spc = .ended ∧ w.x.sys.failed = false ∧
      w.x.sys.log.head? = some (.readRet 4 6 false (.ok [])))) (by decide +kernel)
  obtain ⟨h3, h4, h5, h6, h7⟩ := of_decide_eq_true h2
  refine ⟨w0, w, ⟨⟨1, _, rfl, rfl, rfl⟩, rfl, rfl, rfl, _, rfl, rfl⟩, preach_prun (fun w e he => ?_) _ .refl h1,
    h3, h4, h5, h6, ?_⟩
  · intro f hf
    cases e with
    | act a => simp only [PEvent.toPAct, PAct.x.injEq] at hf; exact toRAct_noSeek he f hf
    | _ => simp [PEvent.toPAct] at hf
  · cases hl : w.x.sys.log with
    | nil => rw [hl] at h7; cases h7
    | cons e l => rw [hl] at h7; cases h7; exact ⟨l, rfl⟩

/-- The output of a process read to its end, with the process ending before its output is
read. -/
example : ∃ w : PSys tmpStorage, PReach cfgOpen (readerWorld false) PNoSeek procWorld w ∧
    ∃ later earlier, w.x.sys.log = later ++ .readRet 6 5 false (.ok [7, 8, 9, 10]) :: earlier := by
  obtain ⟨w, h1, h2⟩ := of_any (o := prun false
      (fun w e => match e with | .act a => noSeekB w.x.sys a | _ => true) cfgOpen procWorld
    (acts ([.chunk 7] ++ srcs 6) ++ [.exit true] ++ acts ([.read 6] ++ rdrs 4 ++ [.chunk 3] ++ srcs 9 ++ [.eof] ++ srcs 9) ++
      [.finish true] ++ acts (srcs 3 ++ [.read 5] ++ rdrs 9)))
    (p := fun w : PSys tmpStorage => decide (Ev.readRet 6 5 false (.ok [7, 8, 9, 10]) ∈ w.x.sys.log))
    (by decide +kernel)
  refine ⟨w, preach_prun (fun w e he => ?_) _ .refl h1, List.append_of_mem (of_decide_eq_true h2)⟩
  intro f hf
  cases e with
  | act a => simp only [PEvent.toPAct, PAct.x.injEq] at hf; exact toRAct_noSeek he f hf
  | _ => simp [PEvent.toPAct] at hf

/-- The same through a buffer of 4. -/
example : ∃ w0 w : PSys (bndStorage true memStorage),
    PStarts (bndProvider true memProvider 4) cfgOpen4 goodOs twoCmds bytes10 w0 ∧
    PReach cfgOpen4 (readerWorld false) PNoSeek w0 w ∧
    ∃ later earlier, w.x.sys.log = later ++ .readRet 8 4 false (.ok [9, 10]) :: earlier := by
  let w0 : PSys (bndStorage true memStorage) :=
    { x := { sys := init cfgOpen4 demoBnd4, src := asyncReadNew bytes10 none }, early := [.started], last := .started }
  obtain ⟨w, h1, h2⟩ := of_any (o := prun false
      (fun w e => match e with | .act a => noSeekB w.x.sys a | _ => true) cfgOpen4 w0
    (acts ([.chunk 4] ++ srcs 3 ++ [.read 4] ++ rdrs 3 ++ [.chunk 4] ++ srcs 6 ++ [.read 4] ++ rdrs 4 ++
      [.chunk 2] ++ srcs 6 ++ [.eof] ++ srcs 9 ++ [.read 4] ++ rdrs 9)))
    (p := fun w : PSys (bndStorage true memStorage) =>
      decide (Ev.readRet 8 4 false (.ok [9, 10]) ∈ w.x.sys.log)) (by decide +kernel)
  refine ⟨w0, w, ⟨⟨1, _, rfl, rfl, rfl⟩, rfl, rfl, rfl, _, rfl, rfl⟩, preach_prun (fun w e he => ?_) _ .refl h1,
    List.append_of_mem (of_decide_eq_true h2)⟩
  intro f hf
  cases e with
  | act a => simp only [PEvent.toPAct, PAct.x.injEq] at hf; exact toRAct_noSeek he f hf
  | _ => simp [PEvent.toPAct] at hf

end SD
