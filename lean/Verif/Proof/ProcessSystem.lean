import Verif.Spec.ProcessSystem
import Verif.Proof.SourceSystem

/-!
# The system with a process is an instance of the system with a reader
-/

set_option linter.unusedVariables false

namespace SD

variable {S : Storage}

/-- The configuration of a stream whose process answers `env` at the end. -/
abbrev Cfg.finishing (c : Cfg) (env : Proc.ProcEnv) : Cfg :=
  { c with onFinish := fun r o => (Proc.procOnFinish env r (decide (o = .completed))).1 }

theorem finishing_keeps (c : Cfg) (env : Proc.ProcEnv) : (c.finishing env).KeepsErrors := by
  intro k o h
  simp only [Proc.procOnFinish] at h
  split at h <;> simp at h

/-- `on_finish` has returned. -/
def SrcPc.past : SrcPc → Bool
  | .setFail | .sigDone | .tokCancel | .ended => true
  | _ => false

/-- Only the end of the task looks at `on_finish`. -/
theorem step_onFinish {c : Cfg} {f : Option Kind → Outcome → Option Kind} {s : Sys S} {a : Act}
    (h : ¬ (s.spc.finishing = true ∧ a = .src)) : step { c with onFinish := f } s a = step c s a := by
  cases a
  case src =>
    cases hp : s.spc
    case onFin r o => exact absurd ⟨by rw [hp]; rfl, rfl⟩ h
    all_goals simp only [step, srcStep, hp]; try rfl
  all_goals rfl

theorem xstep_onFinish {c : Cfg} {f : Option Kind → Outcome → Option Kind} {w : XSys asyncReadSource S}
    {a : XAct asyncReadSource} (h : ¬ (w.sys.spc.finishing = true ∧ a.isSrc = true)) :
    xstep asyncReadSource { c with onFinish := f } w a = xstep asyncReadSource c w a := by
  cases a with
  | sys a =>
    have : step { c with onFinish := f } w.sys a = step c w.sys a := by
      apply step_onFinish
      rintro ⟨h1, rfl⟩
      exact h ⟨h1, rfl⟩
    simp only [xstep, this]
  | poll e => rfl
  | seekRange e => rfl
  | reconnect e => rfl

/-- What a step that is not that of `on_finish` does. -/
structure Plain (s s' : Sys S) : Prop where
  past : s'.spc.past = s.spc.past
  log : ∀ r o, Ev.onFinish r o ∈ s'.log ↔ Ev.onFinish r o ∈ s.log
  failed : s.spc ≠ .setFail → s'.failed = s.failed
  setFail : s.spc = .setFail → (s'.spc = .setFail ∧ s'.failed = s.failed) ∨ (s'.spc = .sigDone ∧ s'.failed = true)
  noFail : s.spc ≠ .setFail → s'.spc ≠ .setFail
  sigDone : s'.spc = .sigDone → s.spc = .sigDone ∨ s.spc = .setFail
  panicked : s.spc = .panicked → s'.spc = .panicked
  finishing : s.spc.finishing = true → s'.spc = s.spc
  ended : s'.spc = .ended → s.spc = .tokCancel ∨ s.spc = .ended

set_option maxHeartbeats 8000000 in
theorem plain_step {c : Cfg} {s s' : Sys S} {a : Act} (ht : Tr c s a s')
    (h : ¬ (s.spc.finishing = true ∧ a = .src)) : Plain s s' := by
  cases ht
  case onFinErr r o k h1 h2 => exact absurd ⟨by rw [h1]; rfl, rfl⟩ h
  case onFinOk r o h1 h2 => exact absurd ⟨by rw [h1]; rfl, rfl⟩ h
  all_goals
    constructor <;> clear h <;> grind [SrcPc.past, SrcPc.finishing, roundPc, startPc]

theorem handleChunk_plain (s : Sys S) (bs : List Byte) (h : s.spc = .sel) :
    (handleChunk s bs).spc.past = false ∧ (handleChunk s bs).log = s.log ∧ (handleChunk s bs).failed = s.failed ∧
    (handleChunk s bs).spc ≠ .setFail ∧ (handleChunk s bs).spc ≠ .sigDone := by
  unfold handleChunk startWrite
  split
  · simp [SrcPc.past]
  · split <;> split <;> simp [SrcPc.past]

theorem handleEof_plain (s : Sys S) (h : s.spc = .sel) :
    (handleEof s).spc.past = false ∧ (handleEof s).log = s.log ∧ (handleEof s).failed = s.failed ∧
    (handleEof s).spc ≠ .setFail ∧ (handleEof s).spc ≠ .sigDone := by
  unfold handleEof startWrite
  split
  · simp [SrcPc.past]
  · split
    · split <;> simp [SrcPc.past]
    · simp [SrcPc.past]

theorem plain_xstep {c : Cfg} {w w' : XSys asyncReadSource S} {a : XAct asyncReadSource}
    (hs : xstep asyncReadSource c w a = some w') (h : ¬ (w.sys.spc.finishing = true ∧ a.isSrc = true)) :
    Plain w.sys w'.sys := by
  have hsel : ∀ {s' : Sys S}, w.sys.spc = .sel → s'.spc.past = false ∧
      (∀ r o, Ev.onFinish r o ∈ s'.log ↔ Ev.onFinish r o ∈ w.sys.log) ∧ s'.failed = w.sys.failed ∧
      s'.spc ≠ .setFail ∧ s'.spc ≠ .sigDone → Plain w.sys s' := by
    rintro s' hp ⟨h1, h2, h3, h4, h5⟩
    constructor
    · rw [h1, hp]; rfl
    · exact h2
    · exact fun _ => h3
    · rw [hp]; simp
    · exact fun _ => h4
    · exact fun h => absurd h h5
    · rw [hp]; simp
    · rw [hp]; simp [SrcPc.finishing]
    · intro h; rw [h] at h1; simp [SrcPc.past] at h1
  cases a with
  | sys a =>
    simp only [xstep] at hs
    split at hs
    · simp at hs
    · split at hs
      · rename_i s1 h1
        simp at hs; subst hs
        exact plain_step (tr_of_step h1) (by rintro ⟨h2, rfl⟩; exact h ⟨h2, rfl⟩)
      · simp at hs
  | poll e =>
    simp only [xstep] at hs
    split at hs
    · rename_i hp
      split at hs
      · simp at hs; subst hs
        refine hsel hp ?_
        obtain ⟨k1, k2, k3, k4, k5⟩ := handleChunk_plain { w.sys with tpos := w.sys.tpos + _, log := .chunk _ :: w.sys.log } _ hp
        refine ⟨k1, fun r o => ?_, k3, k4, k5⟩
        dsimp only
        rw [k2]; simp
      · simp at hs; subst hs
        refine hsel hp ⟨by dsimp only; rw [hp]; rfl, by simp, rfl, by dsimp only; rw [hp]; simp, by dsimp only; rw [hp]; simp⟩
      · simp at hs; subst hs
        refine hsel hp ?_
        obtain ⟨k1, k2, k3, k4, k5⟩ := handleEof_plain { w.sys with tend := true, log := .eof :: w.sys.log } hp
        refine ⟨k1, fun r o => ?_, k3, k4, k5⟩
        dsimp only
        rw [k2]; simp
    · simp at hs
  | seekRange e =>
    simp only [xstep] at hs
    split at hs
    · rename_i start stop hp
      split at hs
      · rename_i h0; simp [AsyncReadStream.seekRange] at h0
      · split at hs
        · rename_i s1 h1
          simp at hs; subst hs
          exact plain_step (tr_of_step h1) (by rintro ⟨h2, h3⟩; simp at h3)
        · simp at hs
      · rename_i h0; simp [AsyncReadStream.seekRange] at h0
    · simp at hs
  | reconnect e =>
    simp only [xstep] at hs
    split at hs
    · rename_i p hp
      split at hs
      · rename_i h0; simp [AsyncReadStream.reconnect] at h0
      · split at hs
        · rename_i s1 h1
          simp at hs; subst hs
          exact plain_step (tr_of_step h1) (by rintro ⟨h2, h3⟩; simp at h3)
        · simp at hs
      · rename_i h0; simp [AsyncReadStream.reconnect] at h0
    · simp at hs

theorem release_x (w : PSys S) : w.release.x = w.x := by
  unfold PSys.release; split <;> rfl

theorem release_early (w : PSys S) : w.release.early = w.early := by
  unfold PSys.release; split <;> rfl

/-- The end of `on_finish`. -/
theorem finish_step {c : Cfg} {w w' : PSys S} {osOk : Bool} (hs : pstep c w (.finish osOk) = some w') :
    ∃ r o, w.x.sys.spc = .onFin r o ∧ (r = none → osOk = true → w.last.exit ≠ none) ∧
      w'.early = w.early ∧ w'.last = w.last.finish osOk r ∧ w'.x.src = w.x.src ∧
      xstep asyncReadSource (c.finishing (w.env osOk)) w.x (.sys .src) = some w'.x ∧
      w'.x.sys = { w.x.sys with
        spc := if (r = none ∧ osOk = true) then .sigDone else .setFail
        log := .onFinish r o :: w.x.sys.log } := by
  simp only [pstep] at hs
  split at hs
  · rename_i r o hp
    split at hs
    · simp at hs
    · rename_i hg
      split at hs
      · rename_i s1 h1
        simp at hs; subst hs
        have hw : r = none → osOk = true → w.last.exit ≠ none := by
          rintro rfl rfl h
          simp [h] at hg
        have hf : step (c.finishing (w.env osOk)) w.x.sys .src = some s1 := by
          rw [← h1]
          simp only [step, srcStep, hp]
        refine ⟨r, o, hp, hw, rfl, rfl, rfl, ?_, ?_⟩
        · simp only [xstep]
          rw [hf]
          simp [Act.ofSource]
        · dsimp only
          simp only [step, srcStep, hp, Proc.procOnFinish, PSys.env] at hf
          cases r with
          | none =>
            cases osOk with
            | true =>
              cases he : w.last.exit with
              | none => exact absurd he (hw rfl rfl)
              | some b => rw [he] at hf; simp at hf; rw [← hf]; simp
            | false => simp at hf; rw [← hf]; simp
          | some k =>
            cases osOk <;> simp at hf <;> rw [← hf] <;> simp
      · simp at hs
  · simp at hs

/-- Every history with a process is one with a reader, for some answer of the process. -/
theorem preach_sim {c : Cfg} {W : World asyncReadSource} {G : PSys S → PAct → Prop}
    {G' : XSys asyncReadSource S → XAct asyncReadSource → Prop} (hG : ∀ w a, G w (.x a) → G' w.x a)
    (hF : ∀ w b, G w (.finish b) → G' w.x (.sys .src)) {w0 w : PSys S} (h : PReach c W G w0 w) :
    ((w.x.sys.spc.past = false → ∀ env, XReach (c.finishing env) W G' w0.x w.x) ∧
      ∃ env, XReach (c.finishing env) W G' w0.x w.x) := by
  induction h with
  | refl => exact ⟨fun _ _ => .refl, ⟨none, true⟩, .refl⟩
  | @step w w' a hr hA hg hs ih =>
    obtain ⟨i1, i2⟩ := ih
    cases a with
    | x a =>
      simp only [pstep] at hs
      split at hs
      · simp at hs
      · rename_i hn
        rw [Bool.and_eq_true] at hn
        split at hs
        · rename_i x1 h1
          simp at hs; subst hs
          rw [release_x]
          have hp := plain_xstep h1 hn
          refine ⟨fun h env => ?_, ?_⟩
          · exact (i1 (by rw [← hp.past]; exact h) env).step hA (hG _ _ hg) (by rw [xstep_onFinish hn]; exact h1)
          · obtain ⟨env, i2⟩ := i2
            exact ⟨env, i2.step hA (hG _ _ hg) (by rw [xstep_onFinish hn]; exact h1)⟩
        · simp at hs
    | exitEarly k b => simp [pstep] at hs; subst hs; exact ⟨i1, i2⟩
    | exit b => simp [pstep] at hs; subst hs; exact ⟨i1, i2⟩
    | finish b =>
      obtain ⟨r, o, h1, h2, h3, h4, h5, h6, h7⟩ := finish_step hs
      refine ⟨fun h => ?_, w.env b, (i1 (by rw [h1]; rfl) _).step (show W.Allows w.x (.sys .src) from trivial) (hF _ _ hg) h6⟩
      rw [h7] at h
      dsimp only at h
      split at h <;> simp [SrcPc.past] at h

theorem PReach.mono {c : Cfg} {W : World asyncReadSource} {G G' : PSys S → PAct → Prop}
    (hG : ∀ w a, G w a → G' w a) {w0 w : PSys S} (h : PReach c W G w0 w) : PReach c W G' w0 w := by
  induction h with
  | refl => exact .refl
  | step _ hA hg hs ih => exact ih.step hA (hG _ _ hg) hs

theorem PReach.trans {c : Cfg} {W : World asyncReadSource} {G : PSys S → PAct → Prop}
    {w0 w1 w : PSys S} (h1 : PReach c W G w0 w1) (h : PReach c W G w1 w) : PReach c W G w0 w := by
  induction h with
  | refl => exact h1
  | step _ hA hg hs ih => exact ih.step hA hg hs

/-! ### The processes -/

/-- `on_finish` has not been reached or has not returned. -/
structure PInv (w : PSys S) : Prop where
  pre : w.x.sys.spc.past = false → w.x.sys.spc ≠ .panicked →
    w.last.reaped = false ∧ w.last.killed = false
  clean : w.x.sys.spc.past = false → w.x.sys.failed = false ∧ ∀ r o, Ev.onFinish r o ∉ w.x.sys.log
  notYet : w.x.sys.spc = .setFail → w.x.sys.failed = false
  gone : w.x.sys.spc = .tokCancel ∨ w.x.sys.spc = .ended ∨ w.x.sys.spc = .panicked → w.last.reaped = true
  exit : w.last.reaped = true → w.last.exit ≠ none
  good : w.x.sys.spc.past = true → w.x.sys.spc ≠ .setFail → w.x.sys.failed = false →
    w.last.reaped = true ∧ w.last.killed = false
  finished : ∀ r o, Ev.onFinish r o ∈ w.x.sys.log → w.x.sys.spc.past = true

theorem leave_reaped (p : PChild) (b : Bool) : (p.leave b).reaped = p.reaped ∧ (p.leave b).killed = p.killed ∧
    (p.exit ≠ none → (p.leave b).exit ≠ none) := by
  unfold PChild.leave
  split <;> simp_all

theorem drop_spec (p : PChild) : p.drop.reaped = true ∧ (p.reaped = true → p.drop = p) ∧
    ((p.reaped = true → p.exit ≠ none) → p.drop.exit ≠ none) := by
  unfold PChild.drop
  split
  · simp_all
  · simp_all [PChild.kill]

theorem PInv.step {c : Cfg} {w w' : PSys S} {a : PAct} (hi : PInv w) (hs : pstep c w a = some w') : PInv w' := by
  obtain ⟨i1, i2, i3, i4, i5, i6, i7⟩ := hi
  cases a with
  | x a =>
    simp only [pstep] at hs
    split at hs
    · simp at hs
    · rename_i hn
      rw [Bool.and_eq_true] at hn
      split at hs
      · rename_i x1 h1
        simp at hs; subst hs
        obtain ⟨p1, p2, p3, p4, p5, p6, p7, p8, p9⟩ := plain_xstep h1 hn
        obtain ⟨d1, d2, d3⟩ := drop_spec w.last
        unfold PSys.release
        dsimp only
        split <;> (constructor <;> grind [SrcPc.past])
      · simp at hs
  | exitEarly k b => simp [pstep] at hs; subst hs; exact ⟨i1, i2, i3, i4, i5, i6, i7⟩
  | exit b =>
    simp [pstep] at hs; subst hs
    obtain ⟨l1, l2, l3⟩ := leave_reaped w.last b
    constructor <;> grind
  | finish b =>
    obtain ⟨r, o, h1, h2, h3, h4, h5, h6, h7⟩ := finish_step hs
    obtain ⟨x', early', last'⟩ := w'
    dsimp only at h4 h7
    subst h4
    have j1 := i1 (by rw [h1]; rfl) (by rw [h1]; simp)
    have j2 := i2 (by rw [h1]; rfl)
    constructor <;> dsimp only <;> (try rw [h7]) <;> dsimp only [PChild.finish, PChild.wait, PChild.kill] <;>
      cases r <;> cases b <;> simp [SrcPc.past] <;> grind

end SD
