import Verif.Model.CreateProcess
import Verif.Props.Create
import Verif.Props.ProcessSystem

/-!
# Properties C67 and C69 for streams made by `new_process`
-/

set_option linter.unusedVariables false

namespace SD

variable {F G : Type}

theorem processMade {base : Cfg} {calls : List (SetCall F G)} {P : Provider} {os : Proc.Os}
    {cmds : List Proc.Command} {output : List Byte} {p : ProcessParams} {n : Option Nat} {m : Made P ProcessStream}
    (hp : (processParams os cmds output).1 = some p)
    (hm : (newProcess base (calls.foldl SetCall.apply Settings.default) P (p.setContentLength n)).1 = .ok m) :
    PStarts P m.cfg os cmds output m.process ∧ m.cfg.batchSize ≠ 0 ∧ m.contentLength = n := by
  have hm' : (fromCreateStream (E := Empty) base (calls.foldl SetCall.apply Settings.default) P
      (.ok (processCreate (p.setContentLength n))) processInfo).1 = .ok m := by
    unfold newProcess at hm
    split at hm
    · rename_i m' h1; simp at hm; subst hm; exact h1
    · simp at hm
    · simp at hm
  obtain ⟨h1, h2, h3, h4, h5, h6, h7, h8, h9, h10, -⟩ := C66_created hm'
  have e : m.stream = processCreate (p.setContentLength n) := by simpa using h1.symm
  unfold processParams at hp
  split at hp
  · rename_i out st h
    simp at hp
    subst hp
    have hc := C51_pipeline h
    have h2' : m.contentLength = n := by rw [h2, e]; rfl
    refine ⟨⟨⟨out, st, h, ?_, ?_⟩, ?_, h3, h10⟩, ?_, h2'⟩
    · simp only [Made.process, e]
      rw [show st.children.length - 1 = out by omega]; rfl
    · simp only [Made.process, e]; rfl
    · rw [show m.cfg.contentLength = n from h2']
      simp only [Made.process, e]; rfl
    · rw [h5]; exact C55_batch_size_positive calls
  · simp at hp

/-- C67 for processes: a stream created for a pipeline of commands without a declared length, with
any settings and storage that keeps everything, returns in every read the bytes that the last
command writes there; if reading from it does not fail and the consumer does not seek, it
receives all of them. -/
theorem C67_process_end_to_end {base : Cfg} {calls : List (SetCall F G)} {P : Provider} {os : Proc.Os}
    {cmds : List Proc.Command} {output : List Byte} {p : ProcessParams} {m : Made P ProcessStream}
    (hp : (processParams os cmds output).1 = some p)
    (hm : (newProcess base (calls.foldl SetCall.apply Settings.default) P p).1 = .ok m)
    (hP : Unbounded none P) {w : PSys P.S} :
    (PReach m.cfg (readerWorld true) PAny m.process w →
      ∀ pos len fast bs, Ev.readRet pos len fast (.ok bs) ∈ w.x.sys.log →
        bs = (output.drop pos).take bs.length) ∧
    (PReach m.cfg (readerWorld false) PNoSeek m.process w →
      ∀ later earlier pos len fast bs,
        w.x.sys.log = later ++ .readRet pos len fast (.ok bs) :: earlier → bs.length < len →
          delivered w.x.sys.log = output) := by
  have hn : p.setContentLength none = p := by
    unfold processParams at hp
    split at hp
    · simp at hp; subst hp; rfl
    · simp at hp
  rw [← hn] at hm
  obtain ⟨h0, hb, hcl⟩ := processMade hp hm
  have hcl' : m.cfg.contentLength = none := hcl
  have hP' : Unbounded m.cfg.contentLength P := by rw [hcl']; exact hP
  exact ⟨fun h _ _ _ _ hr => C70_reads_exact_unknown_length hP' hb hcl' h0 h hr,
    fun h _ _ _ _ _ _ hl hlt =>
      (C70_read_to_end_partial hP' hb (by intro n hn; rw [hcl'] at hn; simp at hn) h0 h hl hlt).2⟩

/-- C69 for a creation that fails: the process of the last command does not run any more; those of
the others were not touched. -/
theorem C69_creation_failure_partial {base : Cfg} {settings : Settings F G} {P : Provider} {p : ProcessParams}
    (hm : ∀ m, (newProcess base settings P p).1 ≠ .ok m) (hl : p.last = .started) :
    ∃ q, (newProcess base settings P p).2 = p.early ++ [q] ∧ ¬ q.Runs ∧ q.reaped = true ∧ q.killed = true := by
  refine ⟨p.last.drop, ?_, ?_⟩
  · unfold newProcess at hm ⊢
    split
    · rename_i m h
      exact absurd rfl (by rw [h] at hm; exact hm m)
    · rfl
    · rfl
  · rw [hl]
    simp [PChild.drop, PChild.started, PChild.kill, PChild.Runs]

/-- C69 fails if a pipeline cannot be started completely: the second of two commands does not
exist; the first one runs, and nobody holds a handle to it. -/
theorem C69_start_failure_violated :
    ∃ os : Proc.Os, (processParams os twoCmds bytes10).1 = none ∧
      ∃ q ∈ (processParams os twoCmds bytes10).2, q.Runs :=
  ⟨{ tmpOk := fun _ => true, spawnOk := fun k => k = 0 }, rfl, .started, by
    rw [show (processParams _ twoCmds bytes10).2 = [.started] from rfl]; simp, rfl⟩

/-- The hypotheses of `C67_process_end_to_end`. -/
example : ∃ (p : ProcessParams) (m : Made tmpProvider ProcessStream) (w : PSys tmpStorage),
    (processParams goodOs twoCmds bytes10).1 = some p ∧
    (newProcess demoCfg (calls0.foldl SetCall.apply Settings.default) tmpProvider p).1 = .ok m ∧
    PReach m.cfg (readerWorld false) PNoSeek m.process w ∧
    ∃ later earlier, w.x.sys.log = later ++ .readRet 6 5 false (.ok [7, 8, 9, 10]) :: earlier := by
  let p : ProcessParams := { contentLength := none, early := [.started], last := .started, output := bytes10 }
  let c : Cfg := cfgOf demoCfg (calls0.foldl SetCall.apply Settings.default) (processInfo (processCreate p)) none
  let m : Made tmpProvider ProcessStream :=
    { cfg := c, sys := init c { file := [], wp := 0, fp := 0, rbuf := [] }, stream := processCreate p }
  obtain ⟨w, h1, h2⟩ := of_any (o := prun false
      (fun w e => match e with | .act a => noSeekB w.x.sys a | _ => true) c m.process
    (acts ([.chunk 7] ++ srcs 6) ++ [.exit true] ++ acts ([.read 6] ++ rdrs 4 ++ [.chunk 3] ++ srcs 9 ++ [.eof] ++ srcs 9) ++
      [.finish true] ++ acts (srcs 3 ++ [.read 5] ++ rdrs 9)))
    (p := fun w : PSys tmpStorage => decide (Ev.readRet 6 5 false (.ok [7, 8, 9, 10]) ∈ w.x.sys.log))
    (by decide +kernel)
  refine ⟨p, m, w, rfl, rfl, preach_prun (fun w e he => ?_) _ .refl h1, List.append_of_mem (of_decide_eq_true h2)⟩
  intro f hf
  cases e with
  | act a => simp only [PEvent.toPAct, PAct.x.injEq] at hf; exact toRAct_noSeek he f hf
  | _ => simp [PEvent.toPAct] at hf

/-- Storage that cannot be created. -/
example : ∀ m, (newProcess demoCfg (Settings.default : Settings Unit Unit) brokenProvider
    { contentLength := none, early := [.started], last := .started, output := bytes10 }).1 ≠ .ok m := by
  intro m h
  simp [newProcess, fromCreateStream, brokenProvider] at h

end SD
