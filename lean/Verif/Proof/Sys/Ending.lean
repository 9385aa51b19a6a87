import Verif.Proof.Sys.End
import Verif.Proof.Sys.Reads

/-! # The end of the download task, as told by the log -/

set_option linter.unusedSimpArgs false
set_option linter.unusedVariables false

namespace SD

variable {S : Storage}

/-- After `on_finish`. -/
def SrcPc.over : SrcPc → Bool
  | .setFail | .sigDone | .tokCancel | .ended => true
  | _ => false

/-- What `on_finish` was called with. -/
def finishOf : List Ev → Option (Option Kind × Outcome)
  | [] => none
  | .onFinish r o :: _ => some (r, o)
  | _ :: l => finishOf l

/-- How often `Complete` was reported. -/
def completes : List Ev → Nat
  | [] => 0
  | .progress _ _ .complete :: l => completes l + 1
  | _ :: l => completes l

structure EndLog (c : Cfg) (s : Sys S) : Prop where
  notYet : s.spc.over = false → finishOf s.log = none
  isOver : s.spc.over = true → ∃ r o, finishOf s.log = some (r, o) ∧
    (r = none → completes s.log = 1 ∧ o = .completed) ∧ (r ≠ none → completes s.log = 0) ∧
    (s.spc = .setFail → c.onFinish r o ≠ none) ∧
    (s.spc ≠ .setFail → (s.failed = true ↔ c.onFinish r o ≠ none)) ∧
    (s.spc = .tokCancel ∨ s.spc = .ended → s.done = true)
  before : s.spc.ending = false → completes s.log = 0 ∧ s.done = false
  early : s.spc.over = false → s.failed = false
  report : s.spc = .report → completes s.log = 0 ∧ s.done = true
  onFin : ∀ r o, s.spc = .onFin r o →
    (r = none → completes s.log = 1 ∧ s.done = true ∧ o = .completed) ∧
    (r ≠ none → completes s.log = 0 ∧ s.done = false)
  late : s.spc = .setFail ∨ s.spc = .sigDone → s.failed = true → s.spc = .sigDone
  dn : s.done = true → s.failed = false → s.spc.over = true →
    ∀ r o, finishOf s.log = some (r, o) → r ≠ none → s.spc ≠ .setFail
  dn2 : s.spc = .setFail ∨ s.spc = .sigDone → ∀ r o, finishOf s.log = some (r, o) →
    (r ≠ none → s.done = false) ∧ (r = none → s.done = true)

set_option maxHeartbeats 4000000 in
theorem EndLog.step {c : Cfg} {s s' : Sys S} {a : Act} (h : EndLog c s) (ht : Tr c s a s') :
    EndLog c s' := by
  obtain ⟨h1, h2, h3, h4, h5, h6, h7, h8, h9⟩ := h
  cases ht
  all_goals constructor
  all_goals grind [SrcPc.ending, SrcPc.over, finishOf, completes, roundPc, startPc]

theorem EndLog.init (c : Cfg) (st : S.σ) : EndLog c (SD.init c st) := by
  constructor <;> simp [SD.init, SrcPc.over, SrcPc.ending, finishOf, completes]

end SD
