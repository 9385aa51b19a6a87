import Verif.Proof.Sys.Ending

/-! # Calls that are released by the end of the download -/

set_option linter.unusedSimpArgs false
set_option linter.unusedVariables false

namespace SD

variable {S : Storage}

theorem finishOf_none {l : List Ev} : finishOf l = none ↔ ∀ r o, Ev.onFinish r o ∉ l := by
  induction l with
  | nil => simp [finishOf]
  | cons e l ih =>
    cases e
    case onFinish r o =>
      simp only [finishOf, reduceCtorEq, false_iff]
      intro h
      exact h r o (by simp)
    all_goals simp [finishOf, ih]

theorem completes_zero {l : List Ev} : completes l = 0 ↔ ∀ p r, Ev.progress p r .complete ∉ l := by
  induction l with
  | nil => simp [completes]
  | cons e l ih =>
    cases e
    case progress p r ph =>
      cases ph
      case complete =>
        simp only [completes, Nat.add_eq_zero_iff, Nat.one_ne_zero, and_false, false_iff]
        intro h
        exact h p r (by simp)
      all_goals simp [completes, ih]
    all_goals simp [completes, ih]

/-- `on_finish` is called at most once. -/
def FinishOnce (s : Sys S) : Prop := ∀ r o, Ev.onFinish r o ∈ s.log → finishOf s.log = some (r, o)

theorem FinishOnce.step {c : Cfg} {s s' : Sys S} {a : Act} (he : EndLog c s) (h : FinishOnce s)
    (ht : Tr c s a s') : FinishOnce s' := by
  intro r o hr
  cases ht
  case onFinErr r' o' k heq hk =>
    have := finishOf_none.mp (he.notYet (by simp [heq, SrcPc.over]))
    rcases List.mem_cons.mp hr with hr | hr
    · cases hr; rfl
    · exact absurd hr (this r o)
  case onFinOk r' o' heq hk =>
    have := finishOf_none.mp (he.notYet (by simp [heq, SrcPc.over]))
    rcases List.mem_cons.mp hr with hr | hr
    · cases hr; rfl
    · exact absurd hr (this r o)
  all_goals first
    | exact h r o hr
    | (rcases List.mem_cons.mp hr with hr | hr
       · cases hr
       · simpa [finishOf] using h r o hr)

/-- A storage operation was performed by a call that the end of the download had
released. -/
def dataAfterDone : List Ev → Bool
  | [] => false
  | .readRet _ _ _ _ :: l => decide (relOf l = some true) || dataAfterDone l
  | .seekRet _ _ :: l => decide (relOf l = some true) || dataAfterDone l
  | _ :: l => dataAfterDone l

/-- The consumer has not waited in this call. -/
def RdrPc.fresh : RdrPc → Bool
  | .idle | .rDecide _ | .rSet _ _ | .rLoad _ _ | .rNotify _ _ | .rWait _ _ | .rSwap | .rWake
  | .sDecide _ | .sSet _ | .sSend _ | .sWait _ | .dropped | .rRead _ true => true
  | _ => false

/-- The consumer is about to use the storage. -/
def RdrPc.atStorage : RdrPc → Bool
  | .rRead _ _ | .sSeek _ => true
  | _ => false

structure Rel (s : Sys S) : Prop where
  fresh : s.rpc.fresh = true → relOf s.log = none
  done : relOf s.log = some true → s.done = true
  use : relOf s.log = some true → s.rpc.atStorage = true → s.failed = false
  data : dataAfterDone s.log = true → s.done = true ∧ s.failed = false

set_option maxHeartbeats 4000000 in
theorem Rel.step {c : Cfg} {s s' : Sys S} {a : Act} (hc : c.onFinish none .completed = none)
    (he : EndLog c s) (h : Rel s) (ht : Tr c s a s') : Rel s' := by
  obtain ⟨h1, h2, h3, h4⟩ := h
  have e2 := he.isOver
  have e9 := he.dn2
  clear he
  cases ht
  all_goals constructor
  all_goals grind [relOf, dataAfterDone, RdrPc.fresh, RdrPc.atStorage, Ev.isReturn, SrcPc.over]

theorem Rel.init (c : Cfg) (st : S.σ) : Rel (SD.init c st) := by
  constructor <;> simp [SD.init, relOf, dataAfterDone]

end SD
