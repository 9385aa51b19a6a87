import Verif.Props.LiveSystem
import Verif.Props.ProcessSystem

/-!
# Properties C63, C71 and C72 for processes

A pipeline of processes whose output is read without errors; the last process ends by itself
if the task waits for it.
-/

set_option linter.unusedVariables false

namespace SD

variable {P : Provider} {c : Cfg} {os : Proc.Os} {cmds : List Proc.Command} {bytes : List Byte}

theorem PWorking.x {S : Storage} {r : Nat → PSys S} {act : Nat → Option PAct} (h : PWorking r act) :
    XWorking (fun i => (r i).x) (fun i => (act i).bind PAct.toX) := by
  intro hi i
  obtain ⟨j, hj, e, h1, h2⟩ := h hi i
  exact ⟨j, hj, e, by dsimp only; rw [h1]; rfl, h2⟩

theorem toX_seek {oa : Option PAct} {f : SeekFrom} (h : oa.bind PAct.toX = some (.sys (.seek f))) :
    oa = some (.x (.sys (.seek f))) := by
  cases oa with
  | none => cases h
  | some a => cases a <;> simp [PAct.toX] at h; rw [h]

theorem toX_read {oa : Option PAct} {n : Nat} (h : oa.bind PAct.toX = some (.sys (.read n))) :
    oa = some (.x (.sys (.read n))) := by
  cases oa with
  | none => cases h
  | some a => cases a <;> simp [PAct.toX] at h; rw [h]

theorem reading_toX {S : Storage} {r : Nat → PSys S} {act : Nat → Option PAct}
    (h : Reading (fun i => (r i).x.sys) fun j n => act j = some (.x (.sys (.read n)))) :
    Reading (fun i => ((r i).x).sys) fun j n => (act j).bind PAct.toX = some (.sys (.read n)) := by
  intro i hi hl
  obtain ⟨j, n, h1, h2, h3⟩ := h i hi hl
  exact ⟨j, n, h1, h2, by dsimp only; rw [h3]; rfl⟩

theorem Run.preach {S : Storage} {W : World asyncReadSource} {w0 : PSys S} {r : Nat → PSys S}
    {act : Nat → Option PAct} (h : PRun c W w0 r act) (i : Nat) : PReach c W PAny w0 (r i) := by
  induction i with
  | zero => rw [h.run.start]; exact .refl
  | succ i ih =>
    cases ha : act i with
    | none => rw [h.run.pause i ha]; exact ih
    | some a => exact ih.step (h.world i a ha) trivial (h.run.next i a ha)

/-- C71 for a pipeline of processes, with a declared length that is right or absent, and
storage that keeps everything, with finitely many seeks: the download ends, and the end of the
last process has been collected. -/
theorem C71_process_download_ends (hP : Unbounded c.contentLength P) (hb : c.batchSize ≠ 0)
    (hd : ∀ n, c.contentLength = some n → n = bytes.length) {w0 : PSys P.S}
    (h0 : PStarts P c os cmds bytes w0) {r : Nat → PSys P.S} {act : Nat → Option PAct}
    (h : PRun c (readerWorld false) w0 r act) (hw : PWorking r act) {i0 : Nat}
    (hseek : ∀ j f, i0 ≤ j → act j ≠ some (.x (.sys (.seek f)))) :
    ∃ j, (r j).x.sys.spc = .ended ∧ (r j).last.reaped = true := by
  obtain ⟨env, hx⟩ := process_exec h
  obtain ⟨j, hj⟩ := C71_reader_download_ends (c := c.finishing env) hP hb hd (h0.reader env) hx hw.x (i0 := i0)
    fun j f hj e => hseek j f hj (toX_seek e)
  exact ⟨j, hj, ((PInv.starts h0).reach (Run.preach h j)).gone (Or.inr (Or.inl hj))⟩

/-- C63 for such a pipeline. -/
theorem C63_process_calls_return (hP : Unbounded c.contentLength P) (hb : c.batchSize ≠ 0)
    (hd : ∀ n, c.contentLength = some n → n = bytes.length) {w0 : PSys P.S}
    (h0 : PStarts P c os cmds bytes w0) {r : Nat → PSys P.S} {act : Nat → Option PAct}
    (h : PRun c (readerWorld false) w0 r act) (hw : PWorking r act)
    (hmax : ∀ j, Ev.request (two64 - 1) ∉ (r j).x.sys.log) {i : Nat} (hc : (r i).x.sys.rpc.inCall = true) :
    ∃ j, i ≤ j ∧ ((r j).x.sys.rpc = .idle ∨ (r j).x.sys.rpc = .panicked) := by
  obtain ⟨env, hx⟩ := process_exec h
  exact C63_reader_calls_return (c := c.finishing env) hP hb hd (h0.reader env) hx hw.x hmax hc

/-- C72 for such a pipeline: a consumer that reads to the end receives everything that the last
process wrote, or a read fails. -/
theorem C72_process_reading_ends (hP : Unbounded c.contentLength P) (hb : c.batchSize ≠ 0)
    (hd : ∀ n, c.contentLength = some n → n = bytes.length) {w0 : PSys P.S}
    (h0 : PStarts P c os cmds bytes w0) {r : Nat → PSys P.S} {act : Nat → Option PAct}
    (h : PRun c (readerWorld false) w0 r act) (hw : PWorking r act)
    (hns : ∀ j f, act j ≠ some (.x (.sys (.seek f))))
    (hn : ∀ j n, act j = some (.x (.sys (.read n))) → bytes.length + n < two64 - 1)
    (hread : Reading (fun i => (r i).x.sys) fun j n => act j = some (.x (.sys (.read n)))) :
    ∃ i, ReadFailed (r i).x.sys.log ∨ delivered (r i).x.sys.log = bytes := by
  obtain ⟨env, hx⟩ := process_exec h
  exact C72_reader_reading_ends (c := c.finishing env) hP hb (finishing_keeps c env) hd (h0.reader env) hx hw.x
    (fun j f e => hns j f (toX_seek e)) (fun j n e => hn j n (toX_read e)) (reading_toX hread)

/-- C72 for such a pipeline and bounded storage; moreover the download ends, and the end of the
last process has been collected. -/
theorem C72_process_reading_ends_bounded {F : Provider} {checks : Bool} {bufferSize : Nat}
    (hF : Sparing (some (Bnd.sizeFor bufferSize c.contentLength)) F) (hb : c.batchSize ≠ 0)
    (hbs : bufferSize ≠ 0) (hd : ∀ n, c.contentLength = some n → n = bytes.length)
    {w0 : PSys (bndStorage checks F.S)} (h0 : PStarts (bndProvider checks F bufferSize) c os cmds bytes w0)
    {r : Nat → PSys (bndStorage checks F.S)} {act : Nat → Option PAct}
    (h : PRun c (readerWorld false) w0 r act) (hw : PWorking r act)
    (hns : ∀ j f, act j ≠ some (.x (.sys (.seek f))))
    (hn : ∀ j n, act j = some (.x (.sys (.read n))) → bytes.length + n < two64 - 1)
    (hread : Reading (fun i => (r i).x.sys) fun j n => act j = some (.x (.sys (.read n)))) :
    (∃ i, ReadFailed (r i).x.sys.log ∨ delivered (r i).x.sys.log = bytes) ∧
      ∃ i, ReadFailed (r i).x.sys.log ∨ (r i).x.sys.spc = .ended ∧ (r i).last.reaped = true := by
  obtain ⟨env, hx⟩ := process_exec h
  obtain ⟨h1, j, h2⟩ := C72_reader_reading_ends_bounded (c := c.finishing env) hF hb hbs (finishing_keeps c env) hd
    (h0.reader env) hx hw.x (fun j f e => hns j f (toX_seek e)) (fun j n e => hn j n (toX_read e)) (reading_toX hread)
  refine ⟨h1, j, h2.imp_right fun hj => ⟨hj, ?_⟩⟩
  exact ((PInv.starts h0).reach (Run.preach h j)).gone (Or.inr (Or.inl hj))

/-! ### Histories that meet the hypotheses -/

/-- The action of the system that an event stands for. -/
def PEvent.ev : PEvent → Option Act
  | .act a => some a
  | _ => none

theorem toPAct_seek {S : Storage} (w : PSys S) (b : PEvent) (k : SeekFrom)
    (h : b.toPAct w = .x (.sys (.seek k))) : b.ev = some (.seek k) := by
  cases b with
  | act a => exact toRAct_seek w.x a k (by simpa [PEvent.toPAct] using h)
  | _ => cases h

theorem toPAct_read {S : Storage} (w : PSys S) (b : PEvent) (n : Nat)
    (h : b.toPAct w = .x (.sys (.read n))) : b.ev = some (.read n) := by
  cases b with
  | act a => exact toRAct_read w.x a n (by simpa [PEvent.toPAct] using h)
  | _ => cases h

theorem prun_trace {S : Storage} {w0 : PSys S} {bs : List PEvent}
    (h : (fun w : PSys S => (pstep c w (.x (.sys .src))).isNone && (pstep c w (.x (.sys .rdr))).isNone &&
      (pstep c w (.finish true)).isNone && !w.x.sys.spc.awaits && w.last.exit.isSome)
        (trace (pstep c) (PEvent.ok false) PEvent.toPAct w0 bs bs.length) = true) :
    PRun c (readerWorld false) w0 (trace (pstep c) (PEvent.ok false) PEvent.toPAct w0 bs)
      (traceAct (pstep c) (PEvent.ok false) PEvent.toPAct w0 bs) ∧
    PWorking (trace (pstep c) (PEvent.ok false) PEvent.toPAct w0 bs)
      (traceAct (pstep c) (PEvent.ok false) PEvent.toPAct w0 bs) := by
  simp only [Bool.and_eq_true, Option.isNone_iff_eq_none, Bool.not_eq_true', Option.isSome_iff_ne_none] at h
  obtain ⟨⟨⟨⟨h1, h2⟩, h3⟩, h4⟩, h5⟩ := h
  refine ⟨⟨run_trace _ _, guard_trace fun w b hb => ?_, fair_trace h1, fair_trace h2, fun i hi => ?_,
    fun _ => ⟨_, h5⟩⟩, working_trace (sys := fun w : PSys S => w.x.sys) h4⟩
  · cases b with
    | act a => exact okR_of hb
    | _ => trivial
  · refine absurd ?_ (hi (max i bs.length) (by omega))
    rw [trace_end (by omega)]
    exact h3

/-- The hypotheses of the theorems about processes: the second of two commands writes ten bytes
and ends, the consumer reads to the end. -/
example : ∃ (w0 : PSys tmpStorage) (r : Nat → PSys tmpStorage) (act : Nat → Option PAct),
    PStarts tmpProvider cfgOpen goodOs twoCmds bytes10 w0 ∧ PRun cfgOpen (readerWorld false) w0 r act ∧
      PWorking r act ∧ (∀ j f, act j ≠ some (.x (.sys (.seek f)))) ∧
      (∀ j n, act j = some (.x (.sys (.read n))) → bytes10.length + n < two64 - 1) ∧
      (Reading (fun i => (r i).x.sys) fun j n => act j = some (.x (.sys (.read n)))) ∧
      (r 4).x.sys.rpc = .rWait 6 6 ∧ (r 100).x.sys.spc = .ended ∧ ¬ ReadFailed (r 100).x.sys.log ∧
      delivered (r 100).x.sys.log = bytes10 := by
  let bs : List PEvent := acts ([.read 6] ++ rdrs 3 ++ [.chunk 4] ++ srcs 9 ++ [.chunk 4] ++ srcs 9 ++ rdrs 9 ++
    [.read 6] ++ rdrs 3 ++ [.chunk 2] ++ srcs 9 ++ [.eof] ++ srcs 9) ++ [.exit true, .finish true] ++ acts (srcs 4 ++
    rdrs 9)
  obtain ⟨h1, h2⟩ := prun_trace (c := cfgOpen) (w0 := procWorld) (bs := bs) (by decide +kernel)
  refine ⟨procWorld, _, _, procWorld_starts, h1, h2, seekless_trace toPAct_seek (by decide +kernel),
    short_trace toPAct_read (by decide +kernel),
    reading_trace (ev := PEvent.ev) (sys := fun w : PSys tmpStorage => w.x.sys) (fun w b n h => ?_) (by decide +kernel),
    by decide +kernel, by decide +kernel, ?_, by decide +kernel⟩
  · cases b <;> simp [PEvent.ev] at h
    rw [h]; rfl
  · show ¬ ∃ e ∈ _, _
    decide +kernel

/-- The same through a buffer of 4. -/
example : ∃ (w0 : PSys (bndStorage true memStorage)) (r : Nat → PSys (bndStorage true memStorage))
    (act : Nat → Option PAct),
    PStarts (bndProvider true memProvider 4) cfgOpen4 goodOs twoCmds bytes10 w0 ∧
      PRun cfgOpen4 (readerWorld false) w0 r act ∧
      PWorking r act ∧ (∀ j f, act j ≠ some (.x (.sys (.seek f)))) ∧
      (∀ j n, act j = some (.x (.sys (.read n))) → bytes10.length + n < two64 - 1) ∧
      (Reading (fun i => (r i).x.sys) fun j n => act j = some (.x (.sys (.read n)))) ∧
      (r 120).x.sys.spc = .ended ∧ ¬ ReadFailed (r 120).x.sys.log ∧
      delivered (r 120).x.sys.log = bytes10 := by
  let w0 : PSys (bndStorage true memStorage) :=
    { x := { sys := init cfgOpen4 demoBnd4, src := asyncReadNew bytes10 none }, early := [.started], last := .started }
  let bs : List PEvent := acts ([.chunk 4] ++ srcs 9 ++ [.read 4] ++ rdrs 5 ++ [.chunk 4] ++ srcs 9 ++ [.read 4] ++
    rdrs 6 ++ [.chunk 2] ++ srcs 9 ++ [.eof] ++ srcs 9) ++ [.exit true, .finish true] ++ acts (srcs 4 ++ [.read 4] ++
    rdrs 9)
  obtain ⟨h1, h2⟩ := prun_trace (c := cfgOpen4) (w0 := w0) (bs := bs) (by decide +kernel)
  refine ⟨w0, _, _, ⟨⟨1, _, rfl, rfl, rfl⟩, rfl, rfl, rfl, _, rfl, rfl⟩, h1, h2,
    seekless_trace toPAct_seek (by decide +kernel),
    short_trace toPAct_read (by decide +kernel),
    reading_trace (ev := PEvent.ev) (sys := fun w : PSys (bndStorage true memStorage) => w.x.sys)
      (fun w b n h => ?_) (by decide +kernel),
    by decide +kernel, ?_, by decide +kernel⟩
  · cases b <;> simp [PEvent.ev] at h
    rw [h]; rfl
  · show ¬ ∃ e ∈ _, _
    decide +kernel

end SD
